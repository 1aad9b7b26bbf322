import Verif.Bridge.Spec
import Verif.Timers.Lemmas
namespace Verif.Bridge
open Verif.Timers (Tracked Gone pending RevInv)

theorem lastHeard_snoc (a : Mac) (log : List Act) (x : Act) :
    lastHeard a (log ++ [x]) = hear a (lastHeard a log) x := by
  simp [lastHeard]

theorem run_append (ticks : Int) (s : State) (a b : List In) :
    run ticks s (a ++ b) = (run ticks s a).bind (fun r =>
      (run ticks r.1 b).map (fun q => (q.1, r.2 ++ q.2))) := by
  induction a generalizing s with
  | nil => simp [run]
  | cons i is ih =>
    simp only [List.cons_append, run]
    cases h : step ticks s i with
    | none => simp
    | some p =>
      obtain ⟨s1, x⟩ := p
      simp only [ih]
      cases run ticks s1 is with
      | none => simp
      | some q => cases h2 : run ticks q.1 b <;> simp [h2]

/-- How an entry's timer stands `n` ticks after its station was last heard. -/
def Phase (T : Nat) (tm : Timers.State) (t : Nat) (n : Nat) : Prop :=
  (n ≤ T ∧ Tracked tm t (T - n)) ∨
  (T ≤ n ∧ Gone tm t ∧ (t, tm.rev t) ∈ pending tm ∧ (T < n → (t, tm.rev t) ∈ tm.queue))

structure Inv (T : Nat) (s : State) (log : List Act) : Prop where
  rev : ∃ evs, RevInv s.tm evs
  pos : s.tm.pos < s.tm.size
  small : T < s.tm.size
  tpos : 0 < T
  known : ∀ a e, s.table a = some e → e.tid < s.next ∧ s.addr e.tid = a ∧
    ∃ n, lastHeard a log = some (e.circ, n) ∧ Phase T s.tm e.tid n
  absent : ∀ a, s.table a = none → ∀ c n, lastHeard a log = some (c, n) → T ≤ n
  pend : ∀ t r, (t, r) ∈ pending s.tm → t < s.next ∧
    (r = s.tm.rev t → ∃ e, s.table (s.addr t) = some e ∧ e.tid = t)
  slot : ∀ t i, t ∈ s.tm.slot i → ∃ e, s.table (s.addr t) = some e ∧ e.tid = t
  armed : ∀ t i, t ∈ s.tm.slot i → (t, s.tm.rev t) ∉ pending s.tm

theorem inv_init (T size : Nat) (cs : List Circ) (h0 : 0 < T) (h : T < size) :
    Inv T (init size cs) [] := by
  constructor
  · exact ⟨[], Timers.revInv_init size⟩
  · simp [init, Timers.init]; omega
  · exact h
  · exact h0
  · intro a e he; simp [init] at he
  · intro a _ c n hn; simp [lastHeard] at hn
  · intro t r hm; simp [init, Timers.init, pending] at hm
  · intro t i hm; simp [init, Timers.init] at hm
  · intro t i hm; simp [init, Timers.init] at hm

theorem effTicks_pos {T : Nat} (h : 0 < T) : Timers.effTicks (T : Int) = T := by
  unfold Timers.effTicks; rw [if_neg]; omega

/-- What starting a timer does. -/
theorem start_facts {T : Nat} {tm : Timers.State} (h0 : 0 < T) (hT : T < tm.size)
    (hp : tm.pos < tm.size) (t : Nat) :
    ∃ tm', Timers.step tm (.start t T) = (tm', .started t T) ∧ Tracked tm' t T ∧
      tm'.size = tm.size ∧ tm'.pos = tm.pos ∧ tm'.pc = tm.pc ∧ tm'.queue = tm.queue ∧
      (∀ u, tm'.rev u = if u = t then tm.rev u + 1 else tm.rev u) ∧
      (∀ u, u ≠ t → ∀ i, u ∈ tm'.slot i ↔ u ∈ tm.slot i) := by
  have he := effTicks_pos h0
  obtain ⟨h1, h2⟩ := Timers.tracked_start (s := tm) (t := t) (ticks := (T : Int)) hp (by omega)
    (by rw [he]; omega)
  refine ⟨(Timers.step tm (.start t T)).1, ?_, ?_, Timers.step_size _ _, ?_⟩
  · rw [← h1]
  · rw [he] at h2; simpa using h2
  · have hn : ¬ (Timers.effTicks (T : Int) ≥ (tm.size : Int)) := by rw [he]; omega
    simp only [Timers.step, if_neg hn]
    refine ⟨rfl, rfl, rfl, fun u => rfl, ?_⟩
    intro u hu i
    simp only [Timers.addBefore, Timers.remove]
    split <;> simp [hu]

/-- The state after learning that `a` is on `c`. -/
theorem learn_ok {T : Nat} {s : State} {log : List Act} (h : Inv T s log) (a : Mac) (c : Circ) :
    ∃ t tm' addr' next', Timers.step s.tm (.start t T) = (tm', .started t T) ∧
      learn T s a c = some (State.mk tm' (fun x => if x = a then some ⟨t, c⟩ else s.table x)
        addr' next' s.circuits) ∧
      t < next' ∧ addr' t = a ∧ s.next ≤ next' ∧
      (∀ u, u < s.next → addr' u = s.addr u) ∧
      (∀ x e, s.table x = some e → x ≠ a → e.tid ≠ t) ∧
      ((∃ e, s.table a = some e ∧ e.tid = t) ∨ s.table a = none ∧ t = s.next) := by
  unfold learn
  cases ha : s.table a with
  | some e =>
    obtain ⟨k1, k2, n, k3, k4⟩ := h.known a e ha
    obtain ⟨tm', h1, _⟩ := start_facts h.tpos h.small h.pos e.tid
    refine ⟨e.tid, tm', s.addr, s.next, h1, ?_, k1, k2, Nat.le_refl _, fun _ _ => rfl, ?_,
      Or.inl ⟨e, rfl, rfl⟩⟩
    · by_cases hc : e.circ = c
      · simp only [if_pos hc, alive, h1]
        congr 2
        funext x
        by_cases hx : x = a
        · subst hx; rw [if_pos rfl, ha, ← hc]
        · rw [if_neg hx]
      · simp only [if_neg hc, alive, h1]
    · intro x e' hx hxa heq
      obtain ⟨_, q2, _⟩ := h.known x e' hx
      rw [heq, k2] at q2
      exact hxa q2.symm
  | none =>
    obtain ⟨tm', h1, _⟩ := start_facts h.tpos h.small h.pos s.next
    refine ⟨s.next, tm', fun t => if t = s.next then a else s.addr t, s.next + 1, h1, ?_, Nat.lt_succ_self _, ?_, Nat.le_succ _, ?_, ?_,
      Or.inr ⟨rfl, rfl⟩⟩
    · simp only [alive, h1]
    · simp
    · intro u hu
      have : u ≠ s.next := by omega
      simp [this]
    · intro x e' hx _ heq
      obtain ⟨q1, _⟩ := h.known x e' hx
      omega

theorem hear_frame_ne {a : Mac} {k c pdu out} (h : ¬ shows pdu a) :
    hear a k (.frame c pdu out) = k := by simp [hear, h]

/-- Learning keeps the invariant. -/
theorem inv_learn {T : Nat} {s : State} {log : List Act} (h : Inv T s log) (c : Circ)
    (pdu : Bytes) (hne : dest pdu ≠ source pdu) :
    ∃ s1, learn T s (source pdu) c = some s1 ∧ s1.circuits = s.circuits ∧
      (∀ x, x ≠ source pdu → s1.table x = s.table x) ∧
      ∀ out, Inv T s1 (log ++ [.frame c pdu out]) := by
  obtain ⟨t, tm', addr', next', h1, h2, h3, h4, h5, h6, h7, h8⟩ := learn_ok h (source pdu) c
  obtain ⟨tm2, g1, g2, g3, g4, g5, g6, g7, g8⟩ := start_facts h.tpos h.small h.pos t
  rw [h1] at g1
  simp only [Prod.mk.injEq, and_true] at g1
  subst g1
  have hpend : pending tm' = pending s.tm := by simp [pending, g5, g6]
  refine ⟨_, h2, rfl, ?_, ?_⟩
  · intro x hx; simp [hx]
  intro out
  have hoth : ∀ x e, s.table x = some e → x ≠ source pdu → e.tid ≠ t := h7
  constructor
  · obtain ⟨evs, hr⟩ := h.rev
    have := Timers.revInv_step hr (.start t T)
    rw [h1] at this
    exact ⟨_, this⟩
  · show tm'.pos < tm'.size
    rw [g3, g4]; exact h.pos
  · show T < tm'.size
    rw [g3]; exact h.small
  · exact h.tpos
  · intro a e he
    simp only at he
    by_cases ha : a = source pdu
    · subst ha
      rw [if_pos rfl] at he
      cases he
      refine ⟨h3, h4, 0, ?_, Or.inl ⟨by omega, g2⟩⟩
      rw [lastHeard_snoc]
      have hs : shows pdu (source pdu) := ⟨rfl, hne⟩
      simp [hear, hs]
    · rw [if_neg ha] at he
      obtain ⟨k1, k2, n, k3, k4⟩ := h.known a e he
      have het := hoth a e he ha
      refine ⟨by show e.tid < next'; omega, by show addr' e.tid = a; rw [h6 _ k1]; exact k2, n, ?_, ?_⟩
      · rw [lastHeard_snoc, hear_frame_ne, k3]
        rintro ⟨q, _⟩
        exact ha q.symm
      · have ho : Timers.opTouches e.tid (.start t T) = false := by
          simp [Timers.opTouches]; exact fun q => het q.symm
        rcases k4 with ⟨p1, p2⟩ | ⟨p1, p2, p3, p4⟩
        · left
          refine ⟨p1, ?_⟩
          have := Timers.tracked_step p2 ho
          rw [h1] at this
          simpa using this
        · right
          have hg := (Timers.gone_step p2 ho).1
          rw [h1] at hg
          have hrev : tm'.rev e.tid = s.tm.rev e.tid := by rw [g7, if_neg het]
          refine ⟨p1, hg, ?_, ?_⟩
          · show (e.tid, tm'.rev e.tid) ∈ pending tm'
            rw [hpend, hrev]; exact p3
          · intro hn
            show (e.tid, tm'.rev e.tid) ∈ tm'.queue
            rw [g6, hrev]; exact p4 hn
  · intro a ha cc n hn
    simp only at ha
    by_cases hb : a = source pdu
    · rw [if_pos hb] at ha; exact absurd ha (by simp)
    · rw [if_neg hb] at ha
      rw [lastHeard_snoc, hear_frame_ne (fun q => hb q.1.symm)] at hn
      exact h.absent a ha cc n hn
  · intro u r hm
    replace hm : (u, r) ∈ pending s.tm := by rw [← hpend]; exact hm
    obtain ⟨k1, k2⟩ := h.pend u r hm
    refine ⟨Nat.lt_of_lt_of_le k1 h5, ?_⟩
    intro hr
    have hr : r = tm'.rev u := hr
    rw [g7] at hr
    by_cases hu : u = t
    · subst hu
      obtain ⟨evs, hri⟩ := h.rev
      have := Timers.pending_le hri hm
      rw [if_pos rfl] at hr
      omega
    · rw [if_neg hu] at hr
      obtain ⟨e, q1, q2⟩ := k2 hr
      refine ⟨e, ?_, q2⟩
      simp only
      rw [h6 u k1]
      have : s.addr u ≠ source pdu := by
        intro hx
        rw [hx] at q1
        rcases h8 with ⟨e', w1, w2⟩ | ⟨w1, _⟩
        · rw [q1] at w1; cases w1; exact hu (by rw [← q2, w2])
        · rw [q1] at w1; cases w1
      rw [if_neg this]; exact q1
  · intro u i hm
    have hm : u ∈ tm'.slot i := hm
    by_cases hu : u = t
    · subst hu
      refine ⟨⟨u, c⟩, ?_, rfl⟩
      simp [h4]
    · rw [g8 u hu] at hm
      obtain ⟨e, q1, q2⟩ := h.slot u i hm
      have hlt : u < s.next := by
        rw [← q2]; exact (h.known _ e q1).1
      refine ⟨e, ?_, q2⟩
      simp only
      rw [h6 u hlt]
      have : s.addr u ≠ source pdu := by
        intro hx
        rw [hx] at q1
        rcases h8 with ⟨e', w1, w2⟩ | ⟨w1, _⟩
        · rw [q1] at w1; cases w1; exact hu (by rw [← q2, w2])
        · rw [q1] at w1; cases w1
      rw [if_neg this]; exact q1
  · intro u i hm
    show (u, tm'.rev u) ∉ pending tm'
    have hm : u ∈ tm'.slot i := hm
    rw [hpend, g7]
    by_cases hu : u = t
    · subst hu
      intro hc
      have := Timers.pending_le h.rev.choose_spec hc
      rw [if_pos rfl] at this
      omega
    · rw [if_neg hu]
      exact h.armed u i ((g8 u hu i).1 hm)

/-- A quiet log entry changes nothing that was heard. -/
theorem lastHeard_quiet (a : Mac) (log : List Act) :
    lastHeard a (log ++ [.quiet]) = lastHeard a log := by simp [lastHeard_snoc, hear]

theorem lastHeard_self (a : Mac) (log : List Act) {c pdu out} (h : dest pdu = source pdu) :
    lastHeard a (log ++ [.frame c pdu out]) = lastHeard a log := by
  rw [lastHeard_snoc, hear_frame_ne]
  rintro ⟨_, q⟩; exact q h

theorem inv_log {T : Nat} {s : State} {log log' : List Act} (h : Inv T s log)
    (he : ∀ a, lastHeard a log' = lastHeard a log) : Inv T s log' :=
  ⟨h.rev, h.pos, h.small, h.tpos, fun a e k => by rw [he]; exact h.known a e k,
    fun a k c n q => h.absent a k c n (by rw [← he]; exact q), h.pend, h.slot, h.armed⟩

theorem inv_tick {T : Nat} {s : State} {log : List Act} (h : Inv T s log) :
    Inv T { s with tm := (Timers.step s.tm .tick).1 }
      (log ++ [ofEv (Timers.step s.tm .tick).2]) := by
  by_cases hpc : s.tm.pc = .idle
  · have hst : Timers.step s.tm .tick =
        ({ s.tm with pos := (s.tm.pos + 1) % s.tm.size, pc := .draining }, .ticked) := by
      simp [Timers.step, hpc]
    have hrev := Timers.revInv_step h.rev.choose_spec .tick
    have htr : ∀ t d, Tracked s.tm t d → 0 < d ∧ Tracked (Timers.step s.tm .tick).1 t (d - 1) := by
      intro t d hd
      have := Timers.tracked_step hd (op := .tick) rfl
      rw [hst] at this ⊢
      simpa using this
    rw [hst] at hrev htr ⊢
    simp only [ofEv]
    have hpq : pending s.tm = s.tm.queue := by simp [pending, hpc]
    have hsz : 0 < s.tm.size := by have := h.small; omega
    constructor
    · exact ⟨_, hrev⟩
    · exact Nat.mod_lt _ hsz
    · exact h.small
    · exact h.tpos
    · intro a e he
      obtain ⟨k1, k2, n, k3, k4⟩ := h.known a e he
      refine ⟨k1, k2, n + 1, ?_, ?_⟩
      · rw [lastHeard_snoc, k3]; rfl
      · rcases k4 with ⟨p1, p2⟩ | ⟨p1, p2, p3, p4⟩
        · obtain ⟨q1, q2⟩ := htr _ _ p2
          left
          refine ⟨by omega, ?_⟩
          have : T - (n + 1) = T - n - 1 := by omega
          rw [this]; exact q2
        · right
          rw [hpq] at p3
          refine ⟨by omega, p2, ?_, fun _ => p3⟩
          simp [pending]; exact p3
    · intro a ha c n hn
      rw [lastHeard_snoc] at hn
      simp only [hear, Option.map_eq_some_iff] at hn
      obtain ⟨⟨c', m⟩, hm, hx⟩ := hn
      simp at hx
      have := h.absent a ha c' m hm
      omega
    · intro t r hm
      apply h.pend t r
      rw [hpq]
      simpa [pending] using hm
    · intro t i hm
      exact h.slot t i hm
    · intro t i hm
      have := h.armed t i hm
      rw [hpq] at this
      simpa [pending] using this
  · have hst : Timers.step s.tm .tick = (s.tm, .nothing) := by
      unfold Timers.step
      cases hp : s.tm.pc <;> simp_all
    rw [hst]
    exact inv_log h (fun a => lastHeard_quiet a log)

theorem inv_post {T : Nat} {s : State} {log : List Act} (h : Inv T s log) :
    Inv T { s with tm := (Timers.step s.tm .post).1 } (log ++ [.quiet]) := by
  refine inv_log ?_ (fun a => lastHeard_quiet a log)
  cases hp : s.tm.pc with
  | posting t r =>
    have hst : Timers.step s.tm .post =
        ({ s.tm with queue := s.tm.queue ++ [(t, r)], pc := .draining }, .nothing) := by
      simp [Timers.step, hp]
    have hrev := Timers.revInv_step h.rev.choose_spec .post
    have hpend : pending (Timers.step s.tm .post).1 = pending s.tm := by
      rw [hst]; simp [pending, hp]
    rw [hst] at hrev hpend ⊢
    refine ⟨⟨_, hrev⟩, h.pos, h.small, h.tpos, ?_, h.absent, ?_, h.slot, ?_⟩
    rotate_left 2
    · intro u i hm
      simp only [hpend]
      exact h.armed u i hm
    · intro a e he
      obtain ⟨k1, k2, n, k3, k4⟩ := h.known a e he
      refine ⟨k1, k2, n, k3, ?_⟩
      rcases k4 with ⟨p1, p2⟩ | ⟨p1, p2, p3, p4⟩
      · exact Or.inl ⟨p1, ⟨p2.bound, p2.posok, p2.here, p2.only, by simp⟩⟩
      · refine Or.inr ⟨p1, p2, ?_, fun hn => ?_⟩
        · simp only [hpend]; exact p3
        · simp only [List.mem_append]; exact Or.inl (p4 hn)
    · intro u q hm
      simp only [hpend] at hm
      exact h.pend u q hm
  | idle =>
    have hst : Timers.step s.tm .post = (s.tm, .nothing) := by simp [Timers.step, hp]
    rw [hst]; exact h
  | draining =>
    have hst : Timers.step s.tm .post = (s.tm, .nothing) := by simp [Timers.step, hp]
    rw [hst]; exact h

theorem inv_drain {T : Nat} {s : State} {log : List Act} (h : Inv T s log) :
    Inv T { s with tm := (Timers.step s.tm .drain).1 } (log ++ [.quiet]) := by
  refine inv_log ?_ (fun a => lastHeard_quiet a log)
  have hrev := Timers.revInv_step h.rev.choose_spec .drain
  by_cases hp : s.tm.pc = .draining
  · have hpq : pending s.tm = s.tm.queue := by simp [pending, hp]
    cases hsl : s.tm.slot s.tm.pos with
    | nil =>
      have hst : Timers.step s.tm .drain = ({ s.tm with pc := .idle }, .nothing) := by
        simp [Timers.step, hp, hsl]
      have htr : ∀ t d, Tracked s.tm t d → Tracked (Timers.step s.tm .drain).1 t d := by
        intro t d hd
        have := Timers.tracked_step hd (op := .drain) rfl
        rw [hst] at this ⊢
        simpa using this
      rw [hst] at hrev htr ⊢
      refine ⟨⟨_, hrev⟩, h.pos, h.small, h.tpos, ?_, h.absent, ?_, h.slot, ?_⟩
      rotate_left 2
      · intro u i hm
        have := h.armed u i hm
        rw [hpq] at this
        simpa [pending] using this
      · intro a e he
        obtain ⟨k1, k2, n, k3, k4⟩ := h.known a e he
        refine ⟨k1, k2, n, k3, ?_⟩
        rcases k4 with ⟨p1, p2⟩ | ⟨p1, p2, p3, p4⟩
        · exact Or.inl ⟨p1, htr _ _ p2⟩
        · refine Or.inr ⟨p1, p2, ?_, p4⟩
          rw [hpq] at p3
          simpa [pending] using p3
      · intro u q hm
        apply h.pend u q
        rw [hpq]
        simpa [pending] using hm
    | cons t rest =>
      have hst : Timers.step s.tm .drain =
          ({ Timers.remove s.tm t with pc := .posting t (s.tm.rev t + 1) }, .expired t) := by
        simp [Timers.step, hp, hsl, Timers.remove]
      have htin : t ∈ s.tm.slot s.tm.pos := by rw [hsl]; simp
      obtain ⟨e0, t1, t2⟩ := h.slot t _ htin
      have htlt : t < s.next := by rw [← t2]; exact (h.known _ e0 t1).1
      have hpend : pending (Timers.step s.tm .drain).1 = pending s.tm ++ [(t, s.tm.rev t + 1)] := by
        rw [hst, hpq]; simp [pending, Timers.remove]
      have htr : ∀ u d, Tracked s.tm u d →
          (u ≠ t ∧ Tracked (Timers.step s.tm .drain).1 u d) ∨
          (u = t ∧ d = 0 ∧ Gone (Timers.step s.tm .drain).1 u) := by
        intro u d hd
        have := Timers.tracked_step hd (op := .drain) rfl
        rw [hst] at this ⊢
        rcases this with ⟨q, _⟩ | ⟨_, q, r⟩ | ⟨q, r, w⟩
        · simp at q
        · left
          refine ⟨?_, r⟩
          rintro rfl
          simp at q
        · right
          simp at q
          exact ⟨q.symm, r, w⟩
      have hgo : ∀ u, Gone s.tm u → Gone (Timers.step s.tm .drain).1 u :=
        fun u hu => (Timers.gone_step hu rfl).1
      have hrv : ∀ u, (Timers.step s.tm .drain).1.rev u =
          if u = t then s.tm.rev u + 1 else s.tm.rev u := by
        intro u; rw [hst]; rfl
      have hq : (Timers.step s.tm .drain).1.queue = s.tm.queue := by rw [hst]; rfl
      have hslot : ∀ u i, u ∈ (Timers.step s.tm .drain).1.slot i →
          u ∈ s.tm.slot i ∧ u ≠ t := by
        intro u i; rw [hst]; simp [Timers.remove]
      have hps : (Timers.step s.tm .drain).1.pos = s.tm.pos := by rw [hst]; rfl
      have hsz := Timers.step_size s.tm .drain
      generalize (Timers.step s.tm .drain).1 = tm' at *
      refine ⟨⟨_, hrev⟩, by simp only; rw [hps, hsz]; exact h.pos,
        by simp only; rw [hsz]; exact h.small, h.tpos, ?_, h.absent, ?_, ?_, ?_⟩
      · intro a e he
        obtain ⟨k1, k2, n, k3, k4⟩ := h.known a e he
        refine ⟨k1, k2, n, k3, ?_⟩
        rcases k4 with ⟨p1, p2⟩ | ⟨p1, p2, p3, p4⟩
        · rcases htr _ _ p2 with ⟨w1, w2⟩ | ⟨w1, w2, w3⟩
          · exact Or.inl ⟨p1, w2⟩
          · refine Or.inr ⟨by omega, w3, ?_, fun hn => absurd hn (by omega)⟩
            simp only [hpend, hrv, w1, if_pos]
            simp
        · have hne : e.tid ≠ t := by
            intro heq
            rw [heq] at p2
            exact p2 _ htin
          refine Or.inr ⟨p1, hgo _ p2, ?_, ?_⟩
          · simp only [hpend, hrv, if_neg hne, List.mem_append]
            exact Or.inl p3
          · intro hn
            simp only [hrv, if_neg hne, hq]
            exact p4 hn
      · intro u q hm
        simp only [hpend, List.mem_append, List.mem_singleton, Prod.mk.injEq] at hm
        rcases hm with hm | ⟨hm1, hm2⟩
        · obtain ⟨w1, w2⟩ := h.pend u q hm
          refine ⟨w1, ?_⟩
          intro hr
          simp only [hrv] at hr
          by_cases hu : u = t
          · subst hu
            exact ⟨e0, t1, t2⟩
          · rw [if_neg hu] at hr
            exact w2 hr
        · subst hm1
          exact ⟨htlt, fun _ => ⟨e0, t1, t2⟩⟩
      · intro u i hm
        exact h.slot u i (hslot u i hm).1
      · intro u i hm
        obtain ⟨q1, q2⟩ := hslot u i hm
        simp only [hpend, hrv, if_neg q2, List.mem_append, List.mem_singleton, Prod.mk.injEq]
        rintro (q | ⟨q, _⟩)
        · exact h.armed u i q1 q
        · exact q2 q
  · have hst : Timers.step s.tm .drain = (s.tm, .nothing) := by
      unfold Timers.step
      cases hp' : s.tm.pc <;> simp_all
    rw [hst]; exact h

/-- Taking a timeout off the queue never fails and keeps the invariant. -/
theorem inv_timeout {T : Nat} {s : State} {log : List Act} (h : Inv T s log) :
    ∃ s1, step T s .timeout = some (s1, .quiet) ∧ s1.circuits = s.circuits ∧
      Inv T s1 (log ++ [.quiet]) := by
  have hrev := Timers.revInv_step h.rev.choose_spec .dispatch
  cases hq : s.tm.queue with
  | nil =>
    have hst : Timers.step s.tm .dispatch = (s.tm, .nothing) := by simp [Timers.step, hq]
    refine ⟨s, by simp [step, hst], rfl, inv_log h (fun a => lastHeard_quiet a log)⟩
  | cons x q =>
    obtain ⟨t, r⟩ := x
    have hpp : pending s.tm = (t, r) :: pending { s.tm with queue := q } := by
      simp [pending, hq]
    have hin : (t, r) ∈ pending s.tm := by rw [hpp]; simp
    obtain ⟨w1, w2⟩ := h.pend t r hin
    by_cases hr : r = s.tm.rev t
    · have hst : Timers.step s.tm .dispatch = ({ s.tm with queue := q }, .delivered t) := by
        simp [Timers.step, hq, hr]
      rw [hst] at hrev
      obtain ⟨e0, t1, t2⟩ := w2 hr
      obtain ⟨v1, v2, n0, v3, v4⟩ := h.known _ e0 t1
      -- nothing else of this timer is pending
      have hlone : ∀ r', (t, r') ∈ pending { s.tm with queue := q } → r' ≠ s.tm.rev t := by
        intro r' hm heq
        obtain ⟨evs, hri⟩ := h.rev
        have hinc := hri.increasing
        rw [hpp, List.pairwise_cons] at hinc
        have := hinc.1 _ hm rfl
        simp at this; omega
      have hold : T ≤ n0 ∧ Gone s.tm t := by
        rw [t2] at v4
        rcases v4 with ⟨p1, p2⟩ | ⟨p1, p2, _⟩
        · exfalso
          have hin' := hin
          rw [hr] at hin'
          exact h.armed t _ p2.here hin'
        · exact ⟨p1, p2⟩
      refine ⟨State.mk { s.tm with queue := q } (fun x => if x = s.addr t then none else s.table x)
        s.addr s.next s.circuits, ?_, rfl, inv_log (log := log) ?_
        (fun a => lastHeard_quiet a log)⟩
      · simp only [step, hst, expire, t1]; rfl
      refine ⟨⟨_, hrev⟩, h.pos, h.small, h.tpos, ?_, ?_, ?_, ?_, ?_⟩
      rotate_left 4
      · intro u i hm hc
        refine h.armed u i hm ?_
        rw [hpp]
        exact List.mem_cons_of_mem _ hc
      · intro a e he
        simp only at he
        by_cases ha : a = s.addr t
        · rw [if_pos ha] at he; cases he
        · rw [if_neg ha] at he
          obtain ⟨k1, k2, n, k3, k4⟩ := h.known a e he
          refine ⟨k1, k2, n, k3, ?_⟩
          have hne : e.tid ≠ t := by rintro rfl; exact ha k2.symm
          rcases k4 with ⟨p1, p2⟩ | ⟨p1, p2, p3, p4⟩
          · exact Or.inl ⟨p1, ⟨p2.bound, p2.posok, p2.here, p2.only, p2.busy⟩⟩
          · refine Or.inr ⟨p1, p2, ?_, ?_⟩
            · rw [hpp] at p3
              simp only [List.mem_cons, Prod.mk.injEq] at p3
              rcases p3 with ⟨q1, _⟩ | q1
              · exact absurd q1 hne
              · exact q1
            · intro hn
              have := p4 hn
              rw [hq] at this
              simp only [List.mem_cons, Prod.mk.injEq] at this
              rcases this with ⟨q1, _⟩ | q1
              · exact absurd q1 hne
              · exact q1
      · intro a ha c n hn
        simp only at ha
        by_cases hb : a = s.addr t
        · rw [hb, v3] at hn
          cases hn
          exact hold.1
        · rw [if_neg hb] at ha
          exact h.absent a ha c n hn
      · intro u r' hm
        have hm' : (u, r') ∈ pending s.tm := by rw [hpp]; exact List.mem_cons_of_mem _ hm
        obtain ⟨k1, k2⟩ := h.pend u r' hm'
        refine ⟨k1, ?_⟩
        intro hr'
        obtain ⟨e, q1, q2⟩ := k2 hr'
        refine ⟨e, ?_, q2⟩
        have hut : u ≠ t := by
          rintro rfl
          exact hlone r' hm hr'
        have : s.addr u ≠ s.addr t := by
          intro hx
          rw [hx, t1] at q1
          cases q1
          exact hut (by rw [← q2, t2])
        simp only [if_neg this]
        exact q1
      · intro u i hm
        have hm : u ∈ s.tm.slot i := hm
        obtain ⟨e, q1, q2⟩ := h.slot u i hm
        refine ⟨e, ?_, q2⟩
        have : s.addr u ≠ s.addr t := by
          intro hx
          rw [hx, t1] at q1
          cases q1
          rw [← q2, t2] at hm
          exact hold.2 i hm
        simp only [if_neg this]
        exact q1
    · have hst : Timers.step s.tm .dispatch = ({ s.tm with queue := q }, .dropped t) := by
        simp [Timers.step, hq, hr]
      rw [hst] at hrev
      refine ⟨State.mk { s.tm with queue := q } s.table s.addr s.next s.circuits,
        by simp only [step, hst], rfl, inv_log (log := log) ?_
        (fun a => lastHeard_quiet a log)⟩
      refine ⟨⟨_, hrev⟩, h.pos, h.small, h.tpos, ?_, h.absent, ?_, h.slot, ?_⟩
      rotate_left 2
      · intro u i hm hc
        refine h.armed u i hm ?_
        rw [hpp]
        exact List.mem_cons_of_mem _ hc
      · intro a e he
        obtain ⟨k1, k2, n, k3, k4⟩ := h.known a e he
        refine ⟨k1, k2, n, k3, ?_⟩
        have hx : (e.tid, s.tm.rev e.tid) ≠ (t, r) := by
          intro hx
          simp only [Prod.mk.injEq] at hx
          exact hr (by rw [← hx.2, hx.1])
        rcases k4 with ⟨p1, p2⟩ | ⟨p1, p2, p3, p4⟩
        · exact Or.inl ⟨p1, ⟨p2.bound, p2.posok, p2.here, p2.only, p2.busy⟩⟩
        · refine Or.inr ⟨p1, p2, ?_, ?_⟩
          · rw [hpp] at p3
            rcases List.mem_cons.1 p3 with q1 | q1
            · exact absurd q1 hx
            · exact q1
          · intro hn
            have := p4 hn
            rw [hq] at this
            rcases List.mem_cons.1 this with q1 | q1
            · exact absurd q1 hx
            · exact q1
      · intro u r' hm
        exact h.pend u r' (by rw [hpp]; exact List.mem_cons_of_mem _ hm)

end Verif.Bridge
