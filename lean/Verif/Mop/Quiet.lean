import Verif.Mop.Session
import Verif.Mop.Client

/-!
# Console sessions without repetitions; receipt numbers of short histories
-/

namespace Verif.Mop

/-! ## Console sessions -/

/-- Nothing that makes a message twice. -/
def Undisturbed : SEv → Prop
  | .clientTimeout => False
  | .cmdRepeated => False
  | .respRepeated => False
  | _ => True

/-- What is on the way: nothing, the command asked, or its response. -/
inductive Way (x : Session) : Nat → Prop
  | idle (hm : x.client.msg = none) (hc : x.cmds = []) (hr : x.resps = [])
      (hq : x.server.seq = x.client.seq) : Way x x.taken.length
  | asked {p : Bytes} (hm : x.client.msg = some p) (hc : x.cmds = [(x.client.seq, p)])
      (hr : x.resps = []) (hq : x.server.seq = !x.client.seq) : Way x x.taken.length
  | answered {p r : Bytes} {T : List Bytes} (hm : x.client.msg = some p) (hc : x.cmds = [])
      (hr : x.resps = [(x.client.seq, r)]) (ht : x.taken = T ++ [r])
      (hq : x.server.seq = x.client.seq) : Way x T.length
  | lost {p : Bytes} {k : Nat} (hm : x.client.msg = some p) (hc : x.cmds = []) (hr : x.resps = [])
      (hk : k = x.taken.length ∨ k + 1 = x.taken.length) : Way x k

structure QInv (x : Session) (k : Nat) : Prop where
  way : Way x k
  out : x.server.out = some []
  shown : x.client.shown = (x.taken.take k).filter (fun b => decide (b ≠ []))

theorem way_le {x : Session} {k : Nat} (h : Way x k) : k ≤ x.taken.length ∧ x.taken.length ≤ k + 1 := by
  cases h with
  | idle => omega
  | asked => omega
  | answered _ _ _ ht => rw [ht]; simp
  | lost _ _ _ hk => omega

/-- Polling from the idle state. -/
theorem q_poll {x : Session} {c : Client} (hm : c.msg = none) (hc : x.cmds = [])
    (hq : x.server.seq = c.seq) (ho : x.server.out = some [])
    (hs : c.shown = x.taken.filter (fun b => decide (b ≠ []))) (l : List (Bool × Bytes)) (hl : l = [])
    (po : Bytes) :
    QInv { x with client := (sendPoll c).1, cmds := x.cmds ++ (sendPoll c).2, resps := l, posted := po }
      x.taken.length := by
  have e : sendPoll c = ({ c with retries := 5, seq := !c.seq, msg := some (c.pend.take c.cmdsize), pend := c.pend.drop c.cmdsize }, [(!c.seq, c.pend.take c.cmdsize)]) := by
    unfold sendPoll; rw [hm]
  rw [e]
  refine ⟨Way.asked rfl ?_ hl ?_, ho, ?_⟩
  · simp [hc]
  · simp [hq]
  · simp [hs]

theorem q_step {x : Session} {k : Nat} (h : QInv x k) (e : SEv) (he : Undisturbed e) :
    ∃ k', QInv (sstep x e) k' := by
  have hle := way_le h.way
  cases e with
  | clientTimeout => exact he.elim
  | cmdRepeated => exact he.elim
  | respRepeated => exact he.elim
  | cmdLost =>
    cases hw : h.way with
    | idle hm hc hr hq =>
      exact ⟨_, Way.idle hm (by simp [sstep, hc]) hr hq, h.out, h.shown⟩
    | asked hm hc hr hq =>
      exact ⟨_, Way.lost hm (by simp [sstep, hc]) hr (Or.inl rfl), h.out, h.shown⟩
    | answered hm hc hr ht hq =>
      exact ⟨_, Way.answered hm (by simp [sstep, hc]) hr ht hq, h.out, h.shown⟩
    | lost hm hc hr hk => exact ⟨_, Way.lost hm (by simp [sstep, hc]) hr hk, h.out, h.shown⟩
  | respLost =>
    cases hw : h.way with
    | idle hm hc hr hq =>
      exact ⟨_, Way.idle hm hc (by simp [sstep, hr]) hq, h.out, h.shown⟩
    | asked hm hc hr hq =>
      exact ⟨_, Way.asked hm hc (by simp [sstep, hr]) hq, h.out, h.shown⟩
    | answered hm hc hr ht hq =>
      exact ⟨_, Way.lost hm hc (by simp [sstep, hr]) (Or.inr (by simp [sstep, ht])), h.out, h.shown⟩
    | lost hm hc hr hk => exact ⟨_, Way.lost hm hc (by simp [sstep, hr]) hk, h.out, h.shown⟩
  | post b =>
    unfold sstep; dsimp only
    by_cases hcl : x.client.closed = true
    · rw [if_pos hcl]; exact ⟨_, h⟩
    rw [if_neg hcl]
    by_cases hc : x.client.pend ≠ [] ∨ x.client.msg ≠ none
    · have e : onPost x.client b = ({ x.client with pend := x.client.pend ++ b }, []) := by
        unfold onPost; rw [if_pos hc]
      rw [e]
      simp only [List.append_nil]
      refine ⟨k, ?_, h.out, h.shown⟩
      cases h.way with
      | idle hm hc hr hq => exact Way.idle (x := { x with client := { x.client with pend := x.client.pend ++ b }, posted := x.posted ++ b }) hm hc hr hq
      | asked hm hc hr hq => exact Way.asked (x := { x with client := { x.client with pend := x.client.pend ++ b }, posted := x.posted ++ b }) hm hc hr hq
      | answered hm hc hr ht hq => exact Way.answered (x := { x with client := { x.client with pend := x.client.pend ++ b }, posted := x.posted ++ b }) hm hc hr ht hq
      | lost hm hc hr hk => exact Way.lost (x := { x with client := { x.client with pend := x.client.pend ++ b }, posted := x.posted ++ b }) hm hc hr hk
    · have hmn : x.client.msg = none := Classical.byContradiction fun hn => hc (Or.inr hn)
      have e : onPost x.client b = sendPoll { x.client with pend := b } := by
        unfold onPost; rw [if_neg hc]
      rw [e]
      cases hw : h.way with
      | idle hm hc hr hq =>
        have hs := h.shown
        exact ⟨_, q_poll (c := { x.client with pend := b }) hm hc hq h.out (by simpa using hs) x.resps hr _⟩
      | asked hm => rw [hmn] at hm; cases hm
      | answered hm => rw [hmn] at hm; cases hm
      | lost hm => rw [hmn] at hm; cases hm
  | cmdArrives a rd =>
    unfold sstep; dsimp only
    cases hw : h.way with
    | idle hm hc hr hq => rw [hc]; exact ⟨_, h⟩
    | answered hm hc hr ht hq => rw [hc]; exact ⟨_, h⟩
    | lost hm hc hr hk => rw [hc]; exact ⟨_, h⟩
    | @asked p hm hc hr hq =>
      have e : command x.server x.client.seq p (some a) rd = ({ x.server with
            timer := true, inp := (x.server.inp ++ p).drop a, seq := !x.server.seq, out := some [],
            resp := some (!x.server.seq, ptyRead 0 rd) },
          [.typed ((x.server.inp ++ p).take a), .taken (ptyRead 0 rd),
            .response x.server.remote (!x.server.seq) (ptyRead 0 rd)]) := by
        unfold command
        rw [if_neg (by rw [hq]; cases x.client.seq <;> simp), h.out]
        simp [ptyWrite]
      rw [hc]
      simp only [e]
      refine ⟨x.taken.length, ?_, rfl, ?_⟩
      · refine Way.answered (T := x.taken) (r := ptyRead 0 rd) hm rfl ?_ ?_ ?_
        · simp [hr, responses, hq]
        · simp [takenOf]
        · simp [hq]
      · have hs := h.shown
        simp only [takenOf]
        rw [List.take_append_of_le_length (Nat.le_refl _)]
        exact hs
  | respArrives =>
    unfold sstep; dsimp only
    cases hw : h.way with
    | idle hm hc hr hq => rw [hr]; exact ⟨_, h⟩
    | asked hm hc hr hq => rw [hr]; exact ⟨_, h⟩
    | lost hm hc hr hk => rw [hr]; exact ⟨_, h⟩
    | @answered p r T hm hc hr ht hq =>
      rw [hr]
      dsimp only
      by_cases hcl : x.client.closed = true
      · rw [if_pos hcl]
        exact ⟨_, Way.lost (x := { x with resps := [] }) hm hc rfl (Or.inr (by simp [ht])), h.out, h.shown⟩
      rw [if_neg hcl]
      have hsh : (if r = [] then x.client.shown else x.client.shown ++ [r]) =
          x.taken.filter (fun b => decide (b ≠ [])) := by
        have hs := h.shown
        rw [ht, List.take_append_of_le_length (Nat.le_refl _), List.take_length] at hs
        rw [ht, List.filter_append, ← hs]
        by_cases hr0 : r = []
        · rw [if_pos hr0]; simp [hr0]
        · rw [if_neg hr0]; simp [hr0]
      by_cases hp : x.client.pend = []
      · have e : onResponse x.client x.client.seq r = ({ x.client with retries := 5, msg := none, shown := if r = [] then x.client.shown else x.client.shown ++ [r] }, []) := by
          unfold onResponse; rw [if_pos rfl]; simp only; rw [if_pos hp]
        rw [e]
        simp only [List.append_nil]
        refine ⟨_, Way.idle rfl hc rfl hq, h.out, ?_⟩
        simp only [hsh, List.take_length]
      · have e : onResponse x.client x.client.seq r = sendPoll { x.client with retries := 5, msg := none, shown := if r = [] then x.client.shown else x.client.shown ++ [r] } := by
          unfold onResponse; rw [if_pos rfl]; simp only; rw [if_neg hp]
        rw [e]
        exact ⟨_, q_poll (x := x) (c := { x.client with retries := 5, msg := none, shown := if r = [] then x.client.shown else x.client.shown ++ [r] }) rfl hc
          hq h.out hsh [] rfl x.posted⟩

theorem q_run (src : Bytes) (n : Nat) (es : List SEv) (he : ∀ e ∈ es, Undisturbed e) :
    ∃ k, QInv (srun (newSession src n) es) k := by
  suffices H : ∀ x, (∃ k, QInv x k) → ∃ k, QInv (srun x es) k by
    refine H _ ⟨0, Way.asked (p := []) ?_ ?_ rfl ?_, rfl, rfl⟩
    · simp [newSession, newClient, sendPoll]
    · simp [newSession, newClient, sendPoll]
    · simp [newSession, newClient, sendPoll, newServer]
  induction es with
  | nil => intro x h; exact h
  | cons e es ih =>
    rintro x ⟨k, h⟩
    exact ih (fun a ha => he a (by simp [ha])) (sstep x e) (q_step h e (he e (by simp)))

/-! ## Receipt numbers -/

/-- What is sent is numbered by the generator. -/
structure Numbered (gen n n' : Nat) (r : State × List Out) : Prop where
  le : n ≤ n'
  step : n' ≤ n + 2
  now : r.1.gen = genAfter gen n'
  sent : ∀ id k, Out.sent id k ∈ r.2 → ∃ i, n ≤ i ∧ i < n' ∧ k = genAfter gen i

theorem cancel_gen (s : State) (id : Nat) (c : Conn) : (cancel s id c).1.gen = s.gen := by
  unfold cancel
  cases c.rnum <;> rfl

theorem sendReq_numbered {gen n m : Nat} {s : State} (id : Nat) (c : Conn) (h : s.gen = genAfter gen m)
    (hm : n ≤ m) (hm' : m ≤ n + 1) : Numbered gen n (m + 1) (sendReq s id c) := by
  refine ⟨by omega, by omega, ?_, ?_⟩
  · simp [sendReq, setConn, h, genAfter]
  · intro i k hk
    simp only [sendReq, List.mem_singleton] at hk
    injection hk with _ e
    exact ⟨m, hm, by omega, e.trans h⟩

theorem silent_numbered {gen n : Nat} {s : State} {outs : List Out} (h : s.gen = genAfter gen n)
    (ho : ∀ id k, Out.sent id k ∉ outs) : Numbered gen n n (s, outs) :=
  ⟨Nat.le_refl _, by omega, h, fun id k hk => absurd hk (ho id k)⟩

theorem finished_silent (id : Nat) (c : Conn) (i k : Nat) : Out.sent i k ∉ finished id c := by
  unfold finished; split <;> simp

theorem foldl_endOne_gen (cl : Nat) (l : List Nat) (s : State) : (l.foldl (endOne cl) s).gen = s.gen := by
  induction l generalizing s with
  | nil => rfl
  | cons a l ih =>
    rw [List.foldl_cons, ih]
    unfold endOne
    split
    · rfl
    · split
      · exact cancel_gen _ _ _
      · rfl

theorem step_numbered {gen n : Nat} {s : State} (h : s.gen = genAfter gen n) (e : Ev) :
    ∃ n', Numbered gen n n' (step s e) := by
  cases e with
  | start id p f nm cl =>
    unfold step; dsimp only
    split
    · exact ⟨n, silent_numbered h (by simp)⟩
    · exact ⟨n + 1 + 1, sendReq_numbered id _ (m := n + 1) (by simp [genAfter, h]) (by omega) (by omega)⟩
  | reply r t =>
    unfold step; dsimp only
    split
    · exact ⟨n, silent_numbered h (by simp)⟩
    split
    · exact ⟨n, silent_numbered h (by simp)⟩
    split
    · exact ⟨n, silent_numbered h (by simp)⟩
    rename_i c _
    have hg : ∀ id, (cancel (popReq s r) id c).1.gen = genAfter gen n := by
      intro id; rw [cancel_gen]; exact h
    unfold connReply
    simp only
    split
    · exact ⟨n, silent_numbered (hg _) (finished_silent _ _)⟩
    split
    · exact ⟨n, silent_numbered (hg _) (by simp)⟩
    · exact ⟨n + 1, sendReq_numbered _ _ (hg _) (by omega) (by omega)⟩
  | timeout id =>
    unfold step; dsimp only
    split
    · exact ⟨n, silent_numbered h (by simp)⟩
    split
    swap
    · exact ⟨n, silent_numbered h (by simp)⟩
    rename_i c _ _
    have hg : (cancel s id { c with timer := false }).1.gen = genAfter gen n := by
      rw [cancel_gen]; exact h
    unfold connTimeout
    simp only
    split
    · split
      · exact ⟨n, silent_numbered hg (by simp)⟩
      split
      · exact ⟨n, silent_numbered hg (finished_silent _ _)⟩
      · exact ⟨n + 1, sendReq_numbered _ _ hg (by omega) (by omega)⟩
    · exact ⟨n + 1, sendReq_numbered _ _ hg (by omega) (by omega)⟩
  | endApi cl =>
    exact ⟨n, silent_numbered (by rw [foldl_endOne_gen]; exact h) (by simp)⟩

/-- All numbers sent so far come from the first `n` calls of the generator. -/
theorem run_numbered (gen : Nat) (es : List Ev) : ∃ n, n ≤ 2 * es.length ∧
    (run (init gen) es).1.gen = genAfter gen n ∧
    ∀ x ∈ (run (init gen) es).2, ∀ id k, Out.sent id k ∈ x.2 → ∃ i, i < n ∧ k = genAfter gen i := by
  rcases List.eq_nil_or_concat es with rfl | ⟨l, e, rfl⟩
  · exact ⟨0, Nat.le_refl _, rfl, by intro x hx; cases hx⟩
  · obtain ⟨n, h1, h2, h3⟩ := run_numbered gen l
    obtain ⟨n', hn⟩ := step_numbered h2 e
    rw [List.concat_eq_append, run_append]
    refine ⟨n', ?_, hn.now, ?_⟩
    · have := hn.step; rw [List.length_append]; simp; omega
    · intro x hx id k hk
      rcases List.mem_append.mp hx with hx | hx
      · obtain ⟨i, a, b⟩ := h3 x hx id k hk
        exact ⟨i, by have := hn.le; omega, b⟩
      · simp only [List.mem_singleton] at hx
        subst hx
        obtain ⟨i, _, a, b⟩ := hn.sent id k hk
        exact ⟨i, a, b⟩
termination_by es.length
decreasing_by subst_vars; simp

theorem output_out {id : Nat} {v : View} {outs : List Out} {r : Nat}
    (h : (outs.foldl (View.output id) v).out = some r) :
    v.out = some r ∨ Out.sent id r ∈ outs := by
  induction outs generalizing v with
  | nil => exact Or.inl h
  | cons o os ih =>
    rw [List.foldl_cons] at h
    rcases ih h with h | h
    · cases o with
      | sent i k =>
        by_cases hi : i = id
        · subst hi
          have e : (v.output i (.sent i k)).out = some k := by simp [View.output]
          rw [e] at h
          injection h with h
          right; simp [h]
        · left
          have e : v.output id (.sent i k) = v := by simp [View.output, hi]
          rwa [e] at h
      | result i ds =>
        left
        have e : (v.output id (.result i ds)).out = v.out := by simp only [View.output]; split <;> rfl
        rwa [e] at h
      | failed i n =>
        left
        have e : (v.output id (.failed i n)).out = v.out := by simp only [View.output]; split <;> rfl
        rwa [e] at h
      | looped i =>
        left
        have e : (v.output id (.looped i)).out = v.out := by simp only [View.output]; split <;> rfl
        rwa [e] at h
    · right; simp [h]

theorem input_out {id : Nat} {v : View} {e : Ev} {r : Nat} (h : (v.input id e).out = some r) :
    v.out = some r := by
  cases e with
  | start i p f n c => simp only [View.input] at h; split at h <;> exact h
  | reply k t =>
    simp only [View.input] at h
    split at h
    · cases h
    · exact h
  | timeout i =>
    simp only [View.input] at h
    split at h
    · cases h
    · exact h
  | endApi c =>
    simp only [View.input] at h
    split at h
    · cases h
    · exact h

/-- An unanswered request was sent. -/
theorem out_sent (id : Nat) (tr : List (Ev × List Out)) (r : Nat) (h : (view id tr).out = some r) :
    ∃ x ∈ tr, Out.sent id r ∈ x.2 := by
  rcases List.eq_nil_or_concat tr with rfl | ⟨l, x, rfl⟩
  · cases h
  · rw [List.concat_eq_append, view_append] at h
    rw [List.concat_eq_append]
    rcases output_out h with h | h
    · obtain ⟨y, hy, hs⟩ := out_sent id l r (input_out h)
      exact ⟨y, by simp [hy], hs⟩
    · exact ⟨x, by simp, h⟩
termination_by tr.length
decreasing_by subst_vars; simp

theorem outputs_keep (id : Nat) (v : View) (outs : List Out) :
    (outs.foldl (View.output id) v).started = v.started ∧
      (outs.foldl (View.output id) v).packets = v.packets ∧
      (outs.foldl (View.output id) v).gone = v.gone ∧
      (outs.foldl (View.output id) v).res = v.res := by
  induction outs generalizing v with
  | nil => exact ⟨rfl, rfl, rfl, rfl⟩
  | cons o os ih =>
    rw [List.foldl_cons, (ih _).1, (ih _).2.1, (ih _).2.2.1, (ih _).2.2.2]
    cases o <;> (simp only [View.output]; split <;> exact ⟨rfl, rfl, rfl, rfl⟩)

/-- A test has at least one packet. -/
theorem started_packets (id : Nat) (tr : List (Ev × List Out)) (h : (view id tr).started = true) :
    (view id tr).packets ≠ 0 := by
  rcases List.eq_nil_or_concat tr with rfl | ⟨l, x, rfl⟩
  · cases h
  · rw [List.concat_eq_append, view_append] at h ⊢
    have ih := started_packets id l
    unfold View.see at h ⊢
    rw [(outputs_keep _ _ _).1] at h
    rw [(outputs_keep _ _ _).2.1]
    cases hx : x.1 with
    | start i p f n c =>
      rw [hx] at h
      by_cases hc : i = id ∧ (view id l).started = false ∧ p ≠ 0
      · simp only [View.input, if_pos hc]; exact hc.2.2
      · simp only [View.input, if_neg hc] at h ⊢; exact ih h
    | reply r t =>
      rw [hx] at h
      simp only [View.input] at h ⊢
      split at h <;> (rename_i hc; first | rw [if_pos hc] | rw [if_neg hc]) <;> exact ih h
    | timeout i =>
      rw [hx] at h
      simp only [View.input] at h ⊢
      split at h <;> (rename_i hc; first | rw [if_pos hc] | rw [if_neg hc]) <;> exact ih h
    | endApi c =>
      rw [hx] at h
      simp only [View.input] at h ⊢
      split at h <;> (rename_i hc; first | rw [if_pos hc] | rw [if_neg hc]) <;> exact ih h
termination_by tr.length
decreasing_by subst_vars; simp

theorem NoReuse.snoc {tr : List (Ev × List Out)} {e : Ev} {outs : List Out} (h : NoReuse tr)
    (hl : ∀ id r, Out.sent id r ∈ outs → ∀ id', id' ≠ id → ((view id' tr).input id' e).out ≠ some r) :
    NoReuse (tr ++ [(e, outs)]) := by
  intro pre e' outs' post ht id r hs id' hi
  rcases List.eq_nil_or_concat post with rfl | ⟨l, x, rfl⟩
  · have := List.append_inj' (s₁ := pre) (s₂ := tr) (t₁ := [(e', outs')]) (t₂ := [(e, outs)]) ht.symm rfl
    obtain ⟨rfl, h2⟩ := this
    injection h2 with h2 _
    injection h2 with h3 h4
    subst h3; subst h4
    exact hl id r hs id' hi
  · rw [List.concat_eq_append, ← List.cons_append, ← List.append_assoc] at ht
    have := List.append_inj' ht rfl
    exact h pre e' outs' l this.1 id r hs id' hi

/-- With at most 32767 events no receipt number can come back while it is in use. -/
theorem noReuse_short {gen : Nat} (h1 : 1 ≤ gen) (h2 : gen ≤ 65535) (es : List Ev)
    (hl : 2 * es.length ≤ 65535) : NoReuse (run (init gen) es).2 := by
  rcases List.eq_nil_or_concat es with rfl | ⟨l, e, rfl⟩
  · intro pre e outs post h
    have : (run (init gen) []).2 = [] := rfl
    rw [this] at h
    simp at h
  · rw [List.concat_eq_append, List.length_append] at hl
    simp only [List.length_cons, List.length_nil] at hl
    rw [List.concat_eq_append, run_append]
    refine (noReuse_short h1 h2 l (by omega)).snoc ?_
    intro id r hs id' _ ho
    obtain ⟨n, a1, a2, a3⟩ := run_numbered gen l
    obtain ⟨n', hn⟩ := step_numbered a2 e
    obtain ⟨i, b1, b2, b3⟩ := hn.sent id r hs
    obtain ⟨x, hx, hsx⟩ := out_sent id' _ r (input_out ho)
    obtain ⟨j, c1, c2⟩ := a3 x hx id' r hsx
    have := hn.step
    rw [b3, genAfter_eq h1 h2, genAfter_eq h1 h2] at c2
    omega
termination_by es.length
decreasing_by subst_vars; simp

/-! ## Progress of a loop test -/

/-- A bound for the number of timeouts to the end of a test. -/
def togo (v : View) : Nat := 2 * (v.packets - v.res.length) + if v.out.isSome = true then 0 else 1

theorem outputs_final {id : Nat} {v : View} {outs : List Out} (h : v.final ≠ []) :
    (outs.foldl (View.output id) v).final ≠ [] := by
  induction outs generalizing v with
  | nil => exact h
  | cons o os ih =>
    rw [List.foldl_cons]
    apply ih
    cases o <;> (simp only [View.output]; split <;> simp [h])

theorem timeout_progress {s : State} {vs : Nat → View} (h : Inv s vs) (id : Nat)
    (hs : (vs id).started = true) (hg : (vs id).gone = false) :
    let v' := (vs id).see id (.timeout id, (step s (.timeout id)).2)
    v'.started = true ∧ v'.gone = false ∧ v'.packets = (vs id).packets ∧
      (v'.final ≠ [] ∨ ((vs id).final = [] ∧ togo v' < togo (vs id))) := by
  intro v'
  have hin : ((vs id).input id (.timeout id)).started = (vs id).started ∧
      ((vs id).input id (.timeout id)).gone = (vs id).gone ∧
      ((vs id).input id (.timeout id)).packets = (vs id).packets ∧
      ((vs id).input id (.timeout id)).final = (vs id).final := by
    simp only [View.input]; split <;> exact ⟨rfl, rfl, rfl, rfl⟩
  obtain ⟨k1, k2, k3, k4⟩ := outputs_keep id ((vs id).input id (.timeout id)) (step s (.timeout id)).2
  refine ⟨k1.trans (hin.1.trans hs), k3.trans (hin.2.1.trans hg), k2.trans hin.2.2.1, ?_⟩
  have hp := h.phase id
  cases hc : s.conns id with
  | none =>
    rw [hc] at hp
    generalize vs id = v at hp hs
    cases hp
    cases hs
  | some c =>
    rw [hc] at hp
    have hk2 : v'.packets = (vs id).packets := k2.trans hin.2.2.1
    have hk4 : v'.res = ((vs id).input id (.timeout id)).res := k4
    have hfin : (vs id).final ≠ [] → v'.final ≠ [] := fun hf =>
      outputs_final (by rw [hin.2.2.2]; exact hf)
    have hwait : c.timer = true → c.waiting = true → c.rnum = none → v'.out.isSome = true := by
      intro ht hw hr
      have e : ∃ k, (step s (.timeout id)).2 = [.sent id k] := by
        simp only [step, hc, if_pos ht, connTimeout, cancel, hr, hw]
        simp [sendReq]
      obtain ⟨k, e⟩ := e
      change (List.foldl (View.output id) _ (step s (.timeout id)).2).out.isSome = true
      rw [e]
      simp [View.output]
    clear_value v'
    generalize vs id = v at *
    cases hp with
    | active _ _ _ _ _ _ hl ho _ _ _ _ _ _ _ hfi =>
      right
      refine ⟨hfi, ?_⟩
      have hr : v'.res = v.res ++ [none] := by rw [hk4]; simp [View.input, ho]
      unfold togo
      rw [hk2, hr, ho, List.length_append]
      simp only [List.length_cons, List.length_nil, Option.isSome_some, if_true]
      split <;> omega
    | waiting _ _ _ _ _ _ hl ho hr ht hw _ _ _ _ hfi =>
      right
      refine ⟨hfi, ?_⟩
      have hr' : v'.res = v.res := by rw [hk4]; simp [View.input, ho]
      unfold togo
      rw [hk2, hr', ho, if_pos (hwait ht hw hr)]
      simp
    | over _ _ _ _ _ _ _ _ hfi => exact Or.inl (hfin (by simp [hfi]))
    | gone _ _ _ _ _ _ _ hgo => rw [hg] at hgo; cases hgo

theorem timeouts_progress {gen : Nat} (h1 : 1 ≤ gen) (h2 : gen ≤ 65535) (es : List Ev) (id n : Nat)
    (hn : NoReuse (run (init gen) (es ++ List.replicate n (.timeout id))).2)
    (hs : (view id (run (init gen) es).2).started = true)
    (hg : (view id (run (init gen) es).2).gone = false) :
    let v' := view id (run (init gen) (es ++ List.replicate n (.timeout id))).2
    v'.started = true ∧ v'.gone = false ∧ (v'.final ≠ [] ∨
      togo v' + n ≤ togo (view id (run (init gen) es).2)) := by
  induction n with
  | zero =>
    rw [List.replicate_zero, List.append_nil]
    exact ⟨hs, hg, Or.inr (Nat.le_refl _)⟩
  | succ n ih =>
    rw [List.replicate_succ', ← List.append_assoc, run_append] at hn
    obtain ⟨a1, a2, a3⟩ := ih hn.prefix
    have hi := inv_run h1 h2 _ hn.prefix
    rw [List.replicate_succ', ← List.append_assoc, run_append, view_append]
    obtain ⟨b1, b2, b3, b4⟩ := timeout_progress hi id a1 a2
    refine ⟨b1, b2, ?_⟩
    rcases b4 with b4 | ⟨b5, b4⟩
    · exact Or.inl b4
    · rcases a3 with a3 | a3
      · exact absurd b5 a3
      · right
        have : ∀ x y z : Nat, x < y → y + n ≤ z → x + (n + 1) ≤ z := by omega
        exact this _ _ _ b4 a3

end Verif.Mop
