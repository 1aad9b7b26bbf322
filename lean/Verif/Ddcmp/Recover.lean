import Verif.Ddcmp.Accepted
/-! Building a schedule that delivers everything, from any good state. -/
namespace Verif.Ddcmp

/-- Fields that acknowledgment processing and retransmission leave alone. -/
structure Same (s s' : Stn) : Prop where
  r : s'.r = s.r
  del : s'.delivered = s.delivered
  st : s'.st = s.st
  out : ∃ t, s'.out = s.out ++ t

theorem Same.rfl' (s : Stn) : Same s s := ⟨rfl, rfl, rfl, [], by simp⟩

theorem Same.trans {a b c : Stn} (h1 : Same a b) (h2 : Same b c) : Same a c := by
  obtain ⟨t, ht⟩ := h1.out
  obtain ⟨u, hu⟩ := h2.out
  exact ⟨by rw [h2.r, h1.r], by rw [h2.del, h1.del], by rw [h2.st, h1.st], t ++ u,
    by rw [hu, ht]; simp⟩

theorem same_send {qmax m queue s s'} (h : send qmax m queue s = some s') : Same s s' := by
  unfold send at h
  split at h
  · split at h
    · simp at h; subst h; exact ⟨rfl, rfl, rfl, [], by simp⟩
    · simp only at h
      split at h
      · simp at h
      · split at h
        · simp at h; subst h; exact ⟨rfl, rfl, rfl, [], by simp⟩
        · simp at h; subst h; exact ⟨rfl, rfl, rfl, _, rfl⟩
  · simp at h; subst h; exact Same.rfl' _

theorem same_release {k s s'} (h : release k s = some s') : Same s s' := by
  induction k generalizing s with
  | zero => simp [release] at h; subst h; exact Same.rfl' _
  | succ k ih =>
    simp only [release] at h
    split at h
    · simp at h
    · have := ih h
      exact ⟨this.r, this.del, this.st, this.out⟩

theorem same_flush {qmax queue l s s'} (h : flush qmax queue l s = some s') : Same s s' := by
  induction l generalizing s with
  | nil => simp [flush] at h; subst h; exact Same.rfl' _
  | cons m rest ih =>
    simp only [flush] at h
    split at h
    · rw [Option.bind_eq_some_iff] at h
      obtain ⟨s1, e1, e2⟩ := h
      have := same_send e1
      exact Same.trans ⟨this.r, this.del, this.st, this.out⟩ (ih e2)
    · simp at h; subst h; exact Same.rfl' _

theorem same_processAck {qmax b resp s s'} (h : processAck qmax b resp s = some s') :
    Same s s'.1 := by
  unfold processAck at h
  simp only at h
  split at h
  · simp at h; subst h; exact Same.rfl' _
  · rw [Option.bind_eq_some_iff] at h
    obtain ⟨s1, e1, h⟩ := h
    rw [Option.bind_eq_some_iff] at h
    obtain ⟨s2, e2, h⟩ := h
    simp at h; subst h
    exact (same_release e1).trans (same_flush e2)

theorem same_resend {k t s s'} (h : resend k t s = some s') : Same s s' := by
  induction k generalizing s t with
  | zero => simp [resend] at h; subst h; exact Same.rfl' _
  | succ k ih =>
    simp only [resend] at h
    split at h
    · simp at h
    · rename_i num m _
      refine Same.trans ?_ (ih h)
      exact ⟨rfl, rfl, rfl, _, rfl⟩

theorem same_ack (s : Stn) : Same s (ackIfNeeded s) := by
  unfold ackIfNeeded
  split
  · exact ⟨rfl, rfl, rfl, _, rfl⟩
  · exact Same.rfl' _

/-! ### Losing what is in flight -/

def loseAll (side : Bool) (k : Nat) : List (Bool × Act) := List.replicate k (side, .lose)

theorem run_append (qp qq : Nat) (s : Stn × Stn) (xs ys : List (Bool × Act)) :
    run qp qq s (xs ++ ys) = (run qp qq s xs).bind fun s' => run qp qq s' ys := by
  induction xs generalizing s with
  | nil => rfl
  | cons x xs ih =>
    simp only [List.cons_append, run]
    cases step qp qq s x with
    | none => rfl
    | some s1 => simp [ih]

theorem run_lose_true (qp qq : Nat) (p q : Stn) :
    run qp qq (p, q) (loseAll true q.out.length) = some (p, { q with out := [] }) := by
  obtain ⟨l, hl⟩ : ∃ l, l = q.out := ⟨_, rfl⟩
  induction l generalizing q with
  | nil => cases q; simp_all [loseAll, run]
  | cons f fs ih =>
    rw [← hl]
    simp only [List.length_cons, loseAll, List.replicate_succ, run, step, act, ← hl, List.tail_cons,
      Option.bind_some]
    have := ih { q with out := fs } rfl
    exact this

theorem run_lose_false (qp qq : Nat) (p q : Stn) :
    run qp qq (p, q) (loseAll false p.out.length) = some ({ p with out := [] }, q) := by
  obtain ⟨l, hl⟩ : ∃ l, l = p.out := ⟨_, rfl⟩
  induction l generalizing p with
  | nil => cases p; simp_all [loseAll, run]
  | cons f fs ih =>
    rw [← hl]
    simp only [List.length_cons, loseAll, List.replicate_succ, run, step, act, ← hl, List.tail_cons,
      Option.bind_some, Option.map_some, Prod.swap]
    have := ih { p with out := fs } rfl
    exact this

/-- No client activity. -/
def Quiet (xs : List (Bool × Act)) : Prop := ∀ x ∈ xs, ∀ m, x.2 ≠ .send m

theorem quiet_append {xs ys : List (Bool × Act)} (h1 : Quiet xs) (h2 : Quiet ys) :
    Quiet (xs ++ ys) := by
  intro x hx
  rw [List.mem_append] at hx
  rcases hx with hx | hx
  · exact h1 x hx
  · exact h2 x hx

theorem quiet_lose (side : Bool) (k : Nat) : Quiet (loseAll side k) := by
  intro x hx m
  simp [loseAll, List.mem_replicate] at hx
  rw [hx.2]; simp

theorem quiet_cons {b : Bool} {x : Act} {xs : List (Bool × Act)} (hx : ∀ m, x ≠ .send m)
    (h : Quiet xs) : Quiet ((b, x) :: xs) := by
  intro y hy
  rw [List.mem_cons] at hy
  rcases hy with rfl | hy
  · exact hx
  · exact h y hy

theorem quiet_nil : Quiet [] := by intro x hx; simp at hx

/-! ### Schedules as a relation -/

/-- `t` can be reached from `s` without client activity, both good, nothing accepted meanwhile. -/
def Reach (qp qq : Nat) (s t : Stn × Stn) : Prop :=
  ∃ xs, Quiet xs ∧ run qp qq s xs = some t

theorem Reach.refl {qp qq} (s : Stn × Stn) : Reach qp qq s s := ⟨[], quiet_nil, rfl⟩

theorem Reach.trans {qp qq} {s t u : Stn × Stn} (h1 : Reach qp qq s t) (h2 : Reach qp qq t u) :
    Reach qp qq s u := by
  obtain ⟨xs, q1, r1⟩ := h1
  obtain ⟨ys, q2, r2⟩ := h2
  exact ⟨xs ++ ys, quiet_append q1 q2, by rw [run_append, r1]; exact r2⟩

theorem Reach.act1 {qp qq} {p q p' q' : Stn} (x : Act) (hx : ∀ m, x ≠ .send m)
    (h : act qp p q x = some (p', q')) : Reach qp qq (p, q) (p', q') :=
  ⟨[(true, x)], quiet_cons hx quiet_nil, by simp [run, step, h]⟩

theorem Reach.act2 {qp qq} {p q p' q' : Stn} (x : Act) (hx : ∀ m, x ≠ .send m)
    (h : act qq q p x = some (q', p')) : Reach qp qq (p, q) (p', q') :=
  ⟨[(false, x)], quiet_cons hx quiet_nil, by simp [run, step, h]⟩

theorem Reach.swap {qp qq} {p q p' q' : Stn} (h : Reach qq qp (q, p) (q', p')) :
    Reach qp qq (p, q) (p', q') := by
  obtain ⟨xs, h1, h2⟩ := h
  have key : ∀ (xs : List (Bool × Act)) (s : Stn × Stn),
      run qp qq s.swap (xs.map fun x => (!x.1, x.2)) = (run qq qp s xs).map Prod.swap := by
    intro xs
    induction xs with
    | nil => intro s; rfl
    | cons x xs ih =>
      intro s
      obtain ⟨b, x⟩ := x
      have hs : step qp qq s.swap (!b, x) = (step qq qp s (b, x)).map Prod.swap := by
        cases b <;> simp [step, Prod.swap]
      simp only [List.map_cons, run, hs]
      cases step qq qp s (b, x) with
      | none => rfl
      | some s1 => simp [ih]
  refine ⟨xs.map fun x => (!x.1, x.2), ?_, ?_⟩
  · intro x hx m
    simp only [List.mem_map] at hx
    obtain ⟨y, hy, rfl⟩ := hx
    exact h1 y hy m
  · have := key xs (q, p)
    rw [h2] at this
    simpa using this

theorem reach_clear {qp qq} (p q : Stn) :
    Reach qp qq (p, q) ({ p with out := [] }, { q with out := [] }) := by
  refine Reach.trans (t := (p, { q with out := [] })) ?_ ?_
  · exact ⟨_, quiet_lose _ _, run_lose_true qp qq p q⟩
  · exact ⟨_, quiet_lose _ _, run_lose_false qp qq p _⟩

theorem reach_good {qp qq} {s t : Stn × Stn} (h : Reach qp qq s t) (hg : Good qp qq s.1 s.2) :
    Good qp qq t.1 t.2 := by
  obtain ⟨xs, _, hr⟩ := h
  obtain ⟨t', e1, e2⟩ := run_good hg xs
  rw [hr] at e1
  simp at e1; subst e1; exact e2

/-- Without client activity and without restarts the accepted logs stay as they are. -/
theorem acc_running' {qmax s i s'} (h : running qmax s i = some s') :
    s'.accepted = s.accepted ∨ s'.downs ≠ 0 := by
  by_cases hi : i = .packet .start
  · subst hi
    simp [running] at h; subst h
    right; simp [doRestart, connected, emit]
  · left
    unfold running at h
    split at h
    · rw [Option.bind_eq_some_iff] at h
      obtain ⟨⟨s1, b⟩, e1, h⟩ := h
      have := acc_processAck e1
      simp only at h this
      split at h
      · simp at h; rw [← h, this]
      · simp at h; rw [← h, acc_ack]; exact this
    · rw [Option.bind_eq_some_iff] at h
      obtain ⟨⟨s1, b⟩, e1, h⟩ := h
      simp at h; rw [← h, acc_ack]; exact acc_processAck e1
    · rw [Option.bind_eq_some_iff] at h
      obtain ⟨⟨s1, b⟩, e1, h⟩ := h
      have := acc_processAck e1
      simp only at h this
      split at h
      · rw [Option.bind_eq_some_iff] at h
        obtain ⟨s2, e2, h⟩ := h
        simp at h; rw [← h, acc_ack, acc_resend e2, this]
      · simp at h; rw [← h, acc_ack, this]
    · split at h
      · simp at h; rw [← h, acc_ack]
      · simp at h; rw [← h, acc_ack]; rfl
    · exact absurd rfl hi
    · simp at h; rw [← h, acc_ack]
    · simp at h; rw [← h, acc_ack]; rfl
    · rw [Option.bind_eq_some_iff] at h
      obtain ⟨⟨s1, b⟩, e1, h⟩ := h
      simp at h; rw [← h, acc_ack]; exact acc_processAck e1
    · simp at h; rw [← h, acc_ack]; rfl

theorem acc_handle' {qmax s i s'} (h : handle qmax s i = some s') :
    s'.accepted = s.accepted ∨ s'.downs ≠ 0 := by
  unfold handle at h
  split at h
  · left
    simp at h; rw [← h]
    unfold istart
    split <;> rfl
  · unfold astart at h
    split at h
    · left; simp at h; rw [← h]; rfl
    · left; simp at h; rw [← h]; rfl
    · split at h
      · have := acc_running' h; exact this
      · left; simp at h; rw [← h]
    · split at h
      · have := acc_running' h; exact this
      · left; simp at h; rw [← h]
    · left; simp at h; rw [← h]
  · exact acc_running' h

theorem acc_act' {qmax p q x p' q'} (h : act qmax p q x = some (p', q'))
    (hx : ∀ m, x ≠ .send m) (hd : p'.downs = 0) :
    p'.accepted = p.accepted ∧ q'.accepted = q.accepted := by
  have wrap : ∀ {i q2}, (handle qmax p i).map (fun p' => (p', q2)) = some (p', q') →
      q2.accepted = q.accepted → p'.accepted = p.accepted ∧ q'.accepted = q.accepted := by
    intro i q2 hm hq
    rw [Option.map_eq_some_iff] at hm
    obtain ⟨p1, e1, e2⟩ := hm
    simp at e2
    obtain ⟨rfl, rfl⟩ := e2
    refine ⟨?_, hq⟩
    rcases acc_handle' e1 with h | h
    · exact h
    · exact absurd hd h
  cases x with
  | send m => exact absurd rfl (hx m)
  | timeout => exact wrap h rfl
  | noise => exact wrap h rfl
  | lose => simp [act] at h; obtain ⟨rfl, rfl⟩ := h; exact ⟨rfl, rfl⟩
  | recv =>
    simp only [act] at h
    split at h
    · simp at h; obtain ⟨rfl, rfl⟩ := h; exact ⟨rfl, rfl⟩
    · exact wrap h rfl
  | badHeader =>
    simp only [act] at h
    split at h
    · simp at h; obtain ⟨rfl, rfl⟩ := h; exact ⟨rfl, rfl⟩
    · exact wrap h rfl
  | badData =>
    simp only [act] at h
    split at h
    · simp at h; obtain ⟨rfl, rfl⟩ := h; exact ⟨rfl, rfl⟩
    · exact wrap h rfl

theorem Good.downs {qp qq p q} (h : Good qp qq p q) : p.downs = 0 ∧ q.downs = 0 := by
  obtain ⟨A, lo, lf, B, lo', lf', hf, hi⟩ := h
  exact ⟨hi.h1.downs, hi.h2.downs⟩

theorem reach_accepted {qp qq} {s t : Stn × Stn} (h : Reach qp qq s t)
    (hg : Good qp qq s.1 s.2) :
    t.1.accepted = s.1.accepted ∧ t.2.accepted = s.2.accepted := by
  obtain ⟨xs, hq, hr⟩ := h
  induction xs generalizing s with
  | nil => simp [run] at hr; subst hr; exact ⟨rfl, rfl⟩
  | cons x xs ih =>
    simp only [run, Option.bind_eq_some_iff] at hr
    obtain ⟨s1, e1, e2⟩ := hr
    obtain ⟨s1', e1', g1⟩ := step_good hg x
    rw [e1] at e1'; simp at e1'; subst e1'
    obtain ⟨i1, i2⟩ := ih g1 (fun y hy => hq y (List.mem_cons_of_mem _ hy)) e2
    have hx := hq x (by simp)
    obtain ⟨b, x⟩ := x
    cases b with
    | true =>
      obtain ⟨a1, a2⟩ := acc_act' (p' := s1.1) (q' := s1.2) e1 hx g1.downs.1
      exact ⟨by rw [i1, a1], by rw [i2, a2]⟩
    | false =>
      simp only [step, Option.map_eq_some_iff] at e1
      obtain ⟨⟨q1, p1⟩, e1, rfl⟩ := e1
      obtain ⟨a1, a2⟩ := acc_act' e1 hx g1.downs.2
      exact ⟨by rw [i1]; exact a2, by rw [i2]; exact a1⟩

/-! ### One round delivers one more message -/

theorem good_cleared {qp qq p q} (h : Good qp qq p q) :
    Good qp qq { p with out := [] } { q with out := [] } :=
  reach_good (reach_clear p q) h

/-- The peer receives the next expected data frame. -/
theorem recv_next {qp qq p q} (hg : Good qp qq p q) (hq : q.st = .running) {resp m fs}
    (hout : p.out = .data (inc q.r) resp m :: fs) :
    ∃ p' q', Reach qp qq (p, q) (p', q') ∧ q'.delivered = q.delivered ++ [m] ∧
      q'.st = .running ∧ p'.st = p.st := by
  obtain ⟨q', p', e1, e2⟩ := act_good hg.symm .recv
  have e1' := e1
  simp only [act, hout, handle, hq, running, Option.map_eq_some_iff, Option.bind_eq_some_iff] at e1
  obtain ⟨q1, ⟨⟨q2, b⟩, h1, h2⟩, h3⟩ := e1
  simp at h3
  obtain ⟨rfl, rfl⟩ := h3
  have hs := same_processAck h1
  simp only at hs
  simp only [hs.r, ne_eq, not_true_eq_false, if_false, Option.some.injEq] at h2
  have h4 := same_ack { q2 with r := inc q.r, ackflag := true, delivered := q2.delivered ++ [m] }
  rw [h2] at h4
  refine ⟨_, _, Reach.act2 .recv (by simp) e1', ?_, ?_, rfl⟩
  · rw [h4.del]; simp [hs.del]
  · rw [h4.st]; simp only; rw [hs.st, hq]

/-- First frame after `resend`. -/
theorem resend_first {k t s s' num m} (h : resend (k + 1) t s = some s')
    (hu : s.unack (inc t) = some (num, m)) (ho : s.out = []) :
    ∃ fs, s'.out = .data num s.r m :: fs := by
  simp only [resend, hu] at h
  obtain ⟨t, ht⟩ := (same_resend h).out
  refine ⟨t, ?_⟩
  rw [ht]; simp [sendData, emit, ho]

theorem flush_first {qmax m rest s s'} (h : flush qmax false (m :: rest) s = some s')
    (hr : s.st = .running) (hc : cansend qmax s = true) (ho : s.out = []) :
    ∃ fs, s'.out = .data (inc s.n) s.r m :: fs := by
  simp only [flush, hc, if_true, Option.bind_eq_some_iff] at h
  obtain ⟨s1, e1, e2⟩ := h
  unfold send at e1
  rw [if_pos hr] at e1
  have hc' : cansend qmax { s with notsent := rest } = true := hc
  rw [hc'] at e1
  simp only [Bool.not_true, Bool.false_eq_true, if_false] at e1
  split at e1
  · simp at e1
  · simp at e1
    obtain ⟨t, ht⟩ := (same_flush e2).out
    refine ⟨t, ?_⟩
    rw [ht, ← e1]; simp [sendData, emit, ho]

theorem ackIfNeeded_out {s : Stn} {f fs} (h : s.out = f :: fs) :
    ∃ fs', (ackIfNeeded s).out = f :: fs' := by
  obtain ⟨t, ht⟩ := (same_ack s).out
  exact ⟨fs ++ t, by rw [ht, h]; simp⟩

theorem flush_queue_out {qmax l s s'} (h : flush qmax true l s = some s') : s'.out = s.out := by
  induction l generalizing s with
  | nil => simp [flush] at h; rw [← h]
  | cons m rest ih =>
    simp only [flush] at h
    split at h
    · rename_i hc
      rw [Option.bind_eq_some_iff] at h
      obtain ⟨s1, e1, e2⟩ := h
      rw [ih e2]
      unfold send at e1
      split at e1
      · split at e1
        · simp at e1; rw [← e1]
        · simp only at e1
          split at e1
          · simp at e1
          · simp at e1; rw [← e1]
      · simp at e1; rw [← e1]
    · simp at h; rw [← h]

theorem release_out {k s s'} (h : release k s = some s') :
    s'.out = s.out ∧ s'.notsent = s.notsent ∧ s'.n = s.n ∧ s'.st = s.st ∧ s'.sent = s.sent := by
  induction k generalizing s with
  | zero => simp [release] at h; subst h; exact ⟨rfl, rfl, rfl, rfl, rfl⟩
  | succ k ih =>
    simp only [release] at h
    split at h
    · simp at h
    · have := ih h; exact this

/-- The heart of a round: the peer's acknowledgment (or NAK) of all it has arrives; the next
message goes out first. -/
theorem next_goes_out {qp qq A lo lf B lo' lf' p q} (hi : Inv qp qq A lo lf B lo' lf' p q)
    (hf : Full qp A p) (hr : p.st = .running) (hout : p.out = [])
    (hlo : lo = q.delivered.length) (hmore : q.delivered.length < p.accepted.length) :
    ∃ f p' resp m fs, (f = .ack q.r ∨ f = .nak 3 q.r) ∧
      (f = .ack q.r ↔ p.n = q.r) ∧
      running qp p (.packet f) = some p' ∧ p'.st = .running ∧
      p'.out = .data (inc q.r) resp m :: fs := by
  have hqr : q.r = lo % 256 := by rw [hlo]; exact hi.d1.qr
  have halo := hi.d1.alo
  have hwin := hi.d1.win
  have hq2 := hi.qp2
  have hq1 := hi.qp1
  have hb := chain_le hi.d1.bwd
  have hc := chain_le hi.d1.fwd
  have hd := hi.d1.rlf
  have hacc : p.accepted.length = p.sent.length + p.notsent.length := by
    rw [hi.d1.acc]; simp
  by_cases hn : p.n = q.r
  · -- everything sent has arrived; something is waiting
    have hNR : p.sent.length = lo := by
      rw [hi.d1.pn, hqr] at hn; omega
    refine ⟨.ack q.r, ?_⟩
    obtain ⟨u, e1, e2⟩ := inv_release (lo - A) hi (by omega)
    have e : A + (lo - A) = lo := by omega
    rw [e] at e1 e2
    obtain ⟨p2, g1, g2, g3, g4⟩ := inv_flush false p.notsent e2 hr rfl
    have hcount : sub (lo % 256) p.a = lo - A := by rw [hi.d1.pa]; exact sub_mod halo (by omega)
    have hpend : sub p.n p.a = p.sent.length - A := by
      rw [hi.d1.pa, hi.d1.pn]; exact sub_mod (by omega) (by omega)
    have hpa : processAck qp false (lo % 256) p = some (p2, true) := by
      unfold processAck
      simp only [hcount, hpend]
      rw [if_neg (by omega), e1]
      simp [g1]
    cases hns : p.notsent with
    | nil => rw [hns] at hacc; simp at hacc; omega
    | cons m rest =>
      rw [hns] at g1
      have hcs := (cansend_iff e2).mpr (by show p.sent.length < _; omega)
      obtain ⟨fs, hfs⟩ := flush_first g1 hr hcs hout
      obtain ⟨fs', hfs'⟩ := ackIfNeeded_out hfs
      refine ⟨ackIfNeeded p2, p.r, m, fs', Or.inl rfl, by simp [hn], ?_, ?_, ?_⟩
      · rw [hqr]; simp [running, hpa]
      · rw [(same_ack p2).st]; exact g2
      · rw [hfs', ← hn]
  · refine ⟨.nak 3 q.r, ?_⟩
    have hNR : lo < p.sent.length := by
      have : p.sent.length ≠ lo := by
        intro h
        apply hn
        rw [hi.d1.pn, hqr, h]
      omega
    obtain ⟨u, e1, e2⟩ := inv_release (lo - A) hi (by omega)
    have e : A + (lo - A) = lo := by omega
    rw [e] at e1 e2
    obtain ⟨p2, g1, g2, g3, g4⟩ := inv_flush true p.notsent e2 hr rfl
    have hcount : sub (lo % 256) p.a = lo - A := by rw [hi.d1.pa]; exact sub_mod halo (by omega)
    have hpend : sub p.n p.a = p.sent.length - A := by
      rw [hi.d1.pa, hi.d1.pn]; exact sub_mod (by omega) (by omega)
    have hpa : processAck qp true (lo % 256) p = some (p2, true) := by
      unfold processAck
      simp only [hcount, hpend]
      rw [if_neg (by omega), e1]
      simp [g1]
    obtain ⟨p3, k1, k2, k3, k4⟩ := inv_retransmit g4 g2 g3
    have hout2 : p2.out = [] := by rw [flush_queue_out g1]; exact hout
    have hb2 := chain_le g4.d1.bwd
    have hc2 := chain_le g4.d1.fwd
    have hd2 := g4.d1.rlf
    have hwin2 := g4.d1.win
    -- the sent log only grew
    have hacc2 := g4.d1.acc
    have hsent2 : lo < p2.sent.length := by
      refine Classical.byContradiction fun hle => ?_
      have hlen : p2.accepted = p.accepted := by
        have := acc_flush g1; exact this
      have hnn : p2.notsent ≠ [] := by
        intro h0
        rw [h0] at hacc2; simp at hacc2
        rw [hlen] at hacc2
        rw [← hacc2, hacc] at hle
        omega
      have := g3 hnn
      omega
    obtain ⟨m, h1, h2⟩ := g4.d1.held (lo + 1) (by omega) (by omega)
    have hpend2 : sub p2.n p2.a = p2.sent.length - lo := by
      rw [g4.d1.pa, g4.d1.pn]; exact sub_mod (by omega) (by omega)
    have k1' := k1
    unfold retransmit at k1
    rw [hpend2] at k1
    obtain ⟨j, hj⟩ : ∃ j, p2.sent.length - lo = j + 1 := ⟨p2.sent.length - lo - 1, by omega⟩
    rw [hj] at k1
    have hinc : inc p2.a = (lo + 1) % 256 := by rw [g4.d1.pa, inc_mod]
    obtain ⟨fs, hfs⟩ := resend_first k1 (by rw [hinc]; exact h2) hout2
    obtain ⟨fs', hfs'⟩ := ackIfNeeded_out hfs
    refine ⟨ackIfNeeded p3, p2.r, m, fs', Or.inr rfl, by simp [hn], ?_, ?_, ?_⟩
    · rw [hqr]; simp [running, hpa, k1']
    · rw [(same_ack p3).st]; exact k2
    · rw [hfs', hqr, inc_mod]

/-- One round: with both ends running and something undelivered, one more message arrives. -/
theorem round {qp qq p q} (hg : Good qp qq p q) (hp : p.st = .running) (hq : q.st = .running)
    (hmore : q.delivered.length < p.accepted.length) :
    ∃ p' q', Reach qp qq (p, q) (p', q') ∧ p'.st = .running ∧ q'.st = .running ∧
      q'.delivered.length = q.delivered.length + 1 := by
  have hc := good_cleared hg
  generalize hP : ({ p with out := [] } : Stn) = P at hc
  generalize hQ : ({ q with out := [] } : Stn) = Q at hc
  have hclear : Reach qp qq (p, q) (P, Q) := by rw [← hP, ← hQ]; exact reach_clear p q
  have hPst : P.st = .running := by rw [← hP]; exact hp
  have hQst : Q.st = .running := by rw [← hQ]; exact hq
  have hPout : P.out = [] := by rw [← hP]
  have hQout : Q.out = [] := by rw [← hQ]
  have hPacc : P.accepted = p.accepted := by rw [← hP]
  have hQdel : Q.delivered = q.delivered := by rw [← hQ]
  -- the sender asks
  obtain ⟨p1, q1, e1, g1⟩ := act_good hc .timeout
  have e1' := e1
  simp only [act, handle, hPst, running, Option.map_some, Option.some.injEq, Prod.mk.injEq] at e1
  obtain ⟨rfl, rfl⟩ := e1
  have hs1 := same_ack (sendRep P)
  obtain ⟨t1, ht1⟩ := hs1.out
  have ho1 : (ackIfNeeded (sendRep P)).out = .rep P.n :: t1 := by
    rw [ht1]; simp [sendRep, emit, hPout]
  have r1 : Reach qp qq (P, Q) (ackIfNeeded (sendRep P), Q) := Reach.act1 .timeout (by simp) e1'
  -- the receiver answers
  obtain ⟨q2, p2, e2, g2⟩ := act_good g1.symm .recv
  have r2 : Reach qp qq (ackIfNeeded (sendRep P), Q) (p2, q2) := Reach.act2 .recv (by simp) e2
  simp only [act, ho1, handle, hQst, running, Option.map_eq_some_iff] at e2
  obtain ⟨q2', e2, e3⟩ := e2
  simp only [Prod.mk.injEq] at e3
  obtain ⟨rfl, hp2⟩ := e3
  -- everything else the sender transmitted is lost
  have r3 := Reach.trans r2 ⟨_, quiet_lose false p2.out.length, run_lose_false qp qq p2 q2'⟩
  have g3 := reach_good r3 g1
  simp only at g3
  generalize hp3 : ({ p2 with out := [] } : Stn) = p3 at r3 g3
  have hp3st : p3.st = .running := by
    rw [← hp3, ← hp2]; simp only; rw [hs1.st]; exact hPst
  have hp3n : p3.n = P.n := by
    rw [← hp3, ← hp2]; simp only
    unfold ackIfNeeded sendRep sendAck emit; split <;> rfl
  have hp3out : p3.out = [] := by rw [← hp3]
  have hp3acc : p3.accepted = P.accepted := by
    rw [← hp3, ← hp2]; simp only; rw [acc_ack]; rfl
  -- facts about the answer
  have hans : ∃ f fs, q2'.out = f :: fs ∧ q2'.delivered = Q.delivered ∧ q2'.r = Q.r ∧
      q2'.st = .running ∧ ((f = .ack Q.r ∧ P.n = Q.r) ∨ (f = .nak 3 Q.r ∧ P.n ≠ Q.r)) := by
    split at e2
    · rename_i hn
      simp [ackIfNeeded] at e2
      rw [← e2]
      exact ⟨.ack Q.r, [], by simp [sendAck, emit, hQout], rfl, rfl, by first | rfl | exact hQst, Or.inl ⟨rfl, hn⟩⟩
    · rename_i hn
      simp [ackIfNeeded, sendNak, emit] at e2
      rw [← e2]
      exact ⟨.nak 3 Q.r, [], by simp [hQout], rfl, rfl, by first | rfl | exact hQst, Or.inr ⟨rfl, hn⟩⟩
  obtain ⟨f, fs, hfo, hdel, hrr, hst2, hcase⟩ := hans
  -- the sender receives the answer
  obtain ⟨A, lo, lf, B, lo', lf', hf, hi⟩ := g3
  obtain ⟨lo2, lf2, h1, h2, h3⟩ := inv_pop hi hfo
  -- the label of the answer is the number of delivered messages
  have hresp : lo2 % 256 = q2'.r := by
    rcases hcase with ⟨rfl, _⟩ | ⟨rfl, _⟩
    · rw [hrr]; exact (h2 _ rfl).symm
    · rw [hrr]; exact (h2 _ rfl).symm
  have hle := chain_le h1.d1.bwd
  have hlo2 : lo2 = q2'.delivered.length := by
    have hqr := hi.d1.qr
    have hwin := h1.d1.win
    have halo := h1.d1.alo
    have hc := chain_le h1.d1.fwd
    have hd := h1.d1.rlf
    have := h1.qp2
    simp only at hle hd
    omega
  obtain ⟨f', p4, resp, m, fs4, hf1, hf2, hf3, hf4, hf5⟩ :=
    next_goes_out h1 hf hp3st hp3out hlo2 (by simp only; rw [hdel, hp3acc, hPacc, hQdel]; exact hmore)
  have hff : f' = f := by
    simp only [hrr, hp3n] at hf1 hf2
    rcases hcase with ⟨rfl, hn⟩ | ⟨rfl, hn⟩
    · exact hf2.mpr hn
    · rcases hf1 with h | h
      · exact absurd (hf2.mp h) hn
      · exact h
  subst hff
  have r4 : Reach qp qq (p3, q2') (p4, { q2' with out := fs }) := by
    refine Reach.act1 .recv (by simp) ?_
    simp only [act, hfo, handle, hp3st, hf3, Option.map_some]
  have rr := ((hclear.trans r1).trans r3).trans r4
  have g4 := reach_good rr hg
  obtain ⟨p5, q5, r5, hd5, hs5, hs5'⟩ := recv_next g4 hst2 hf5
  refine ⟨p5, q5, rr.trans r5, by rw [hs5', hf4], hs5, ?_⟩
  rw [hd5]; simp [hdel, hQdel]

theorem deliver_all {qp qq p q} (hg : Good qp qq p q) (hp : p.st = .running)
    (hq : q.st = .running) :
    ∃ p' q', Reach qp qq (p, q) (p', q') ∧ p'.st = .running ∧ q'.st = .running ∧
      q'.delivered = p.accepted := by
  obtain ⟨k, hk⟩ : ∃ k, k = p.accepted.length - q.delivered.length := ⟨_, rfl⟩
  induction k generalizing p q with
  | zero =>
    refine ⟨p, q, Reach.refl _, hp, hq, ?_⟩
    obtain ⟨A, lo, lf, B, lo', lf', hf, hi⟩ := hg
    have h1 := hi.d1.acc
    have h2 := hi.d1.pref
    have hlen : p.accepted.length = p.sent.length + p.notsent.length := by rw [h1]; simp
    have hc := chain_le hi.d1.fwd
    have hd := hi.d1.rlf
    have : p.notsent = [] := by
      rw [← List.length_eq_zero_iff]; omega
    have hle : p.sent.length ≤ q.delivered.length := by omega
    rw [h1, this, h2, List.take_of_length_le hle]; simp
  | succ k ih =>
    obtain ⟨p1, q1, r1, hp1, hq1, hd1⟩ := round hg hp hq (by omega)
    have g1 := reach_good r1 hg
    have ha := (reach_accepted r1 hg).1
    simp only at g1 ha
    obtain ⟨p2, q2, r2, hp2, hq2, hd2⟩ := ih g1 hp1 hq1 (by rw [ha]; omega)
    exact ⟨p2, q2, r1.trans r2, hp2, hq2, by rw [hd2, ha]⟩

end Verif.Ddcmp
