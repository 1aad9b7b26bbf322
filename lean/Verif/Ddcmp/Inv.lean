import Verif.Ddcmp.Lemmas
namespace Verif.Ddcmp

/-- Invariant of the pair of stations. -/
def Good (qp qq : Nat) (p q : Stn) : Prop :=
  ∃ A lo lf B lo' lf', Full qp A p ∧ Inv qp qq A lo lf B lo' lf' p q

theorem Good.symm {qp qq p q} (h : Good qp qq p q) : Good qq qp q p := by
  obtain ⟨A, lo, lf, B, lo', lf', hf, hi⟩ := h
  exact ⟨B, lo', lf', A, lo, lf, hi.f2,
    ⟨hi.d2, hi.d1, hi.h2, hi.h1, hf, hi.qq1, hi.qq2, hi.qp1, hi.qp2⟩⟩

section
variable {qp qq A lo lf B lo' lf' : Nat} {p q : Stn}

/-- Taking the first frame off the channel. -/
theorem inv_pop (h : Inv qp qq A lo lf B lo' lf' p q) {f fs} (hq : q.out = f :: fs) :
    ∃ lo2 lf2, Inv qp qq A lo2 lf B lo' lf2 p { q with out := fs } ∧
      Bwd lo2 f ∧ Fwd q.sent lf2 f := by
  have hb := h.d1.bwd
  have hf := h.d2.fwd
  rw [hq] at hb hf
  obtain ⟨k, b1, b2, b3⟩ := hb
  obtain ⟨k', c1, c2, c3⟩ := hf
  refine ⟨k, k', ?_, b2, c2⟩
  constructor
  · refine { h.d1 with bwd := b3, alo := ?_ }
    have := h.d1.alo; omega
  · refine { h.d2 with fwd := c3, rlf := ?_ }
    have := h.d2.rlf; omega
  · refine { h.h1 with knows := ?_ }
    intro hr
    refine ⟨(h.h1.knows hr).1, ?_⟩
    intro g hg
    exact (h.h1.knows hr).2 g (by rw [hq]; exact List.mem_cons_of_mem _ hg)
  · refine { h.h2 with sorted := ?_, ranks := ?_ }
    · have := h.h2.sorted; rw [hq, List.pairwise_cons] at this; exact this.2
    · intro g hg; exact h.h2.ranks g (by rw [hq]; exact List.mem_cons_of_mem _ hg)
  · exact h.f2
  · exact h.qp1
  · exact h.qp2
  · exact h.qq1
  · exact h.qq2

/-- Change of phase. -/
theorem inv_phase (h : Inv qp qq A lo lf B lo' lf' p q) (st : Phase)
    (hm : phaseRank p.st ≤ phaseRank st)
    (hk : st = .running → q.st ≠ .istart ∧ ∀ f ∈ q.out, f ≠ .start) :
    Inv qp qq A lo lf B lo' lf' { p with st := st } q where
  d1 := { h.d1 with }
  d2 := { h.d2 with }
  h1 := { h.h1 with
    idle := by
      intro hn
      apply h.h1.idle
      intro hp
      rw [hp] at hm
      cases st <;> simp [phaseRank] at hm hn
    ranks := by
      intro f hf
      exact Nat.le_trans (h.h1.ranks f hf) hm
    knows := hk }
  h2 := { h.h2 with
    knows := by
      intro hq
      refine ⟨?_, (h.h2.knows hq).2⟩
      have := (h.h2.knows hq).1
      intro hs
      have hs : st = .istart := hs
      subst hs
      revert hm this
      cases p.st <;> simp [phaseRank] }
  f2 := h.f2
  qp1 := h.qp1
  qp2 := h.qp2
  qq1 := h.qq1
  qq2 := h.qq2

/-- Result of a handler that keeps the invariant. -/
def Ok (qp qq : Nat) (q : Stn) (r : Option Stn) : Prop :=
  ∃ p', r = some p' ∧ Good qp qq p' q

theorem ok_of (hf : Full qp A p) (h : Inv qp qq A lo lf B lo' lf' p q) :
    Ok qp qq q (some p) := ⟨p, rfl, A, lo, lf, B, lo', lf', hf, h⟩

theorem full_ackIfNeeded (hf : Full qp A p) : Full qp A (ackIfNeeded p) := by
  unfold ackIfNeeded sendAck emit
  split <;> exact hf

theorem running_packet (h : Inv qp qq A lo lf B lo' lf' p q) (hf : Full qp A p)
    (hr : p.st = .running) {f : Frame} (hb : Bwd lo f) (hw : Fwd q.sent lf' f)
    (hs : f ≠ .start) : Ok qp qq q (running qp p (.packet f)) := by
  cases f with
  | start => exact absurd rfl hs
  | stack =>
    simp only [running]
    exact ok_of (full_ackIfNeeded (p := { p with ackflag := true }) hf)
      (inv_ackIfNeeded (inv_flag h true) hr)
  | ack resp =>
    have : resp = lo % 256 := hb _ rfl
    subst this
    obtain ⟨p', e1, e2, e3, e4⟩ := inv_processAck false h hr
    simp only [running, e1, Option.bind_some]
    exact ok_of (full_ackIfNeeded e3) (inv_ackIfNeeded e4 e2)
  | nak c resp =>
    have : resp = lo % 256 := hb _ rfl
    subst this
    obtain ⟨p', e1, e2, e3, e4⟩ := inv_processAck true h hr
    obtain ⟨p2, g1, g2, g3, g4⟩ := inv_retransmit e4 e2 e3
    simp only [running, e1, Option.bind_some, if_true, g1]
    exact ok_of (full_ackIfNeeded g3) (inv_ackIfNeeded g4 g2)
  | rep num =>
    simp only [running]
    split
    · exact ok_of (full_ackIfNeeded (p := { p with ackflag := true }) hf)
        (inv_ackIfNeeded (inv_flag h true) hr)
    · exact ok_of (full_ackIfNeeded (p := sendNak 3 p) hf)
        (inv_ackIfNeeded (inv_sendNak h hr 3) hr)
  | data num resp m =>
    have : resp = lo % 256 := hb _ rfl
    subst this
    obtain ⟨p', e1, e2, e3, e4⟩ := inv_processAck false h hr
    simp only [running, e1, Option.bind_some]
    split
    · exact ok_of e3 e4
    · rename_i hn
      have hn : num = inc p'.r := Classical.byContradiction hn
      obtain ⟨i, h1, h2, h3, h4, h5⟩ := hw
      have := inv_deliver e4 e2 h1 h2 h3 h5 (by rw [← h4]; exact hn)
      exact ok_of (full_ackIfNeeded (p := { p' with
        r := inc p'.r, ackflag := true, delivered := p'.delivered ++ [m] }) e3)
        (inv_ackIfNeeded this e2)

theorem running_err (h : Inv qp qq A lo lf B lo' lf' p q) (hf : Full qp A p)
    (hr : p.st = .running) (c : Nat) {o : Option Nat} (ho : ∀ x, o = some x → x = lo % 256) :
    Ok qp qq q (running qp p (.err c o)) := by
  cases o with
  | none =>
    simp only [running]
    exact ok_of (full_ackIfNeeded (p := sendNak c p) hf)
      (inv_ackIfNeeded (inv_sendNak h hr c) hr)
  | some resp =>
    have : resp = lo % 256 := ho _ rfl
    subst this
    obtain ⟨p', e1, e2, e3, e4⟩ := inv_processAck false h hr
    simp only [running, e1, Option.bind_some]
    exact ok_of (full_ackIfNeeded (p := sendNak c p') e3)
      (inv_ackIfNeeded (inv_sendNak e4 e2 c) e2)

theorem enter_running (h : Inv qp qq A lo lf B lo' lf' p q) (hf : Full qp A p)
    (hk : q.st ≠ .istart ∧ ∀ f ∈ q.out, f ≠ .start) (ack : Bool) :
    Inv qp qq A lo lf B lo' lf' (enterRunning ack p) q ∧ Full qp A (enterRunning ack p) := by
  have h' := inv_phase h .running (by cases p.st <;> simp [phaseRank]) (fun _ => hk)
  cases ack with
  | false => exact ⟨h', hf⟩
  | true => exact ⟨inv_sendAck h' rfl, hf⟩

theorem handle_timeout (h : Inv qp qq A lo lf B lo' lf' p q) (hf : Full qp A p) :
    Ok qp qq q (handle qp p .timeout) := by
  unfold handle
  cases hs : p.st with
  | istart =>
    refine ok_of (p := emit .start p) hf (inv_emit h .start ?_ trivial ?_ ?_)
    · simp [hs, rank, phaseRank]
    · intro x hx; simp [respOf] at hx
    · intro hq; exact absurd hs (h.h2.knows hq).1
  | astart =>
    refine ok_of (p := emit .stack p) hf (inv_emit h .stack ?_ trivial ?_ ?_)
    · simp [hs, rank, phaseRank]
    · intro x hx; simp [respOf] at hx
    · simp
  | running =>
    simp only [running]
    exact ok_of (full_ackIfNeeded (p := sendRep p) hf)
      (inv_ackIfNeeded (inv_sendRep h hs) hs)

theorem handle_err (h : Inv qp qq A lo lf B lo' lf' p q) (hf : Full qp A p)
    (c : Nat) {o : Option Nat} (ho : ∀ x, o = some x → x = lo % 256) :
    Ok qp qq q (handle qp p (.err c o)) := by
  unfold handle
  cases hs : p.st with
  | istart => exact ok_of hf h
  | astart => exact ok_of hf h
  | running => exact running_err h hf hs c ho

theorem handle_packet (h : Inv qp qq A lo lf B lo' lf' p q) (hf : Full qp A p)
    {f : Frame} (hb : Bwd lo f) (hw : Fwd q.sent lf' f)
    (hs : p.st = .running → f ≠ .start) (hrank : rank f ≤ phaseRank q.st)
    (hsort : ∀ g ∈ q.out, rank f ≤ rank g) : Ok qp qq q (handle qp p (.packet f)) := by
  have hk : 1 ≤ rank f → q.st ≠ .istart ∧ ∀ g ∈ q.out, g ≠ .start := by
    intro h1
    refine ⟨?_, ?_⟩
    · intro hq
      have : phaseRank q.st = 0 := by rw [hq]; rfl
      omega
    · intro g hg hgs
      have := hsort g hg
      have h0 : rank g = 0 := by rw [hgs]; rfl
      omega
  unfold handle
  cases hst : p.st with
  | istart =>
    cases f with
    | start =>
      simp only [istart]
      have h' := inv_phase h .astart (by simp [hst, phaseRank]) (by simp)
      refine ok_of (p := { emit .stack p with st := .astart }) hf
        (inv_emit h' .stack rfl trivial ?_ (by simp))
      intro x hx; simp [respOf] at hx
    | stack =>
      obtain ⟨h1, h2⟩ := enter_running h hf (hk (by simp [rank])) true
      exact ok_of h2 h1
    | _ => exact ok_of hf h
  | astart =>
    cases f with
    | start => exact ok_of hf h
    | stack =>
      obtain ⟨h1, h2⟩ := enter_running h hf (hk (by simp [rank])) true
      exact ok_of h2 h1
    | ack resp =>
      obtain ⟨h1, h2⟩ := enter_running h hf (hk (by simp [rank])) false
      simp only [astart]
      split
      · exact running_packet h1 h2 rfl hb hw (by simp)
      · exact ok_of hf h
    | data num resp m =>
      obtain ⟨h1, h2⟩ := enter_running h hf (hk (by simp [rank])) false
      simp only [astart]
      split
      · exact running_packet h1 h2 rfl hb hw (by simp)
      · exact ok_of hf h
    | _ => exact ok_of hf h
  | running => exact running_packet h hf hst hb hw (hs hst)

theorem client_send (h : Inv qp qq A lo lf B lo' lf' p q) (hf : Full qp A p) (m : Msg) :
    Ok qp qq q (clientSend qp m p) := by
  unfold clientSend
  by_cases hr : p.st = .running
  · rw [if_pos hr]
    by_cases hw : p.sent.length < A + qp
    · have hn : p.notsent = [] := by
        refine Classical.byContradiction fun hn => ?_
        have := hf hn; omega
      obtain ⟨p', e1, e2, e3, e4⟩ := inv_send (m := m) (rest := []) false h hr hw
      have hP : ({ p with notsent := [], accepted := p.sent ++ m :: [] } : Stn) =
          { p with accepted := p.accepted ++ [m] } := by
        rw [h.d1.acc, hn]; simp [← hn]
      rw [hP] at e1
      exact ⟨p', e1, A, lo, lf, B, lo', lf', fun hx => absurd e3 hx, e4⟩
    · have hc : cansend qp p = false := by
        rw [Bool.eq_false_iff]; intro hx; exact hw ((cansend_iff h).mp hx)
      have hc' : cansend qp { p with accepted := p.accepted ++ [m] } = false := hc
      have hwin := h.d1.win
      unfold send
      rw [if_pos hr, hc']
      refine ⟨_, rfl, A, lo, lf, B, lo', lf', ?_, ?_⟩
      · intro _; show p.sent.length = _; omega
      · constructor
        · refine { h.d1 with acc := ?_ }
          simp [h.d1.acc]
        · exact { h.d2 with }
        · refine { h.h1 with idle := fun hx => absurd hr hx }
        · exact { h.h2 with }
        · exact h.f2
        · exact h.qp1
        · exact h.qp2
        · exact h.qq1
        · exact h.qq2
  · rw [if_neg hr]
    unfold send
    rw [if_neg hr]
    exact ok_of hf h

end

theorem act_good {qp qq p q} (h : Good qp qq p q) (x : Act) :
    ∃ p' q', act qp p q x = some (p', q') ∧ Good qp qq p' q' := by
  obtain ⟨A, lo, lf, B, lo', lf', hf, hi⟩ := h
  have good : Good qp qq p q := ⟨A, lo, lf, B, lo', lf', hf, hi⟩
  have wrap : ∀ {q' : Stn} {r : Option Stn}, Ok qp qq q' r →
      ∃ p' q'', (r.map fun p' => (p', q')) = some (p', q'') ∧ Good qp qq p' q'' := by
    rintro q' r ⟨p', e1, e2⟩
    exact ⟨p', q', by rw [e1]; rfl, e2⟩
  cases x with
  | send m => exact wrap (client_send hi hf m)
  | timeout => exact wrap (handle_timeout hi hf)
  | noise => exact wrap (handle_err hi hf 1 (by simp))
  | lose =>
    simp only [act]
    refine ⟨_, _, rfl, ?_⟩
    cases hq : q.out with
    | nil =>
      have : ({ q with out := ([] : List Frame).tail } : Stn) = q := by
        cases q; simp at hq; simp [hq]
      rw [this]; exact good
    | cons f fs =>
      obtain ⟨lo2, lf2, h1, _, _⟩ := inv_pop hi hq
      exact ⟨_, _, _, _, _, _, hf, h1⟩
  | recv =>
    simp only [act]
    split
    · exact ⟨_, _, rfl, good⟩
    · rename_i f fs hq
      obtain ⟨lo2, lf2, h1, h2, h3⟩ := inv_pop hi hq
      refine wrap (handle_packet h1 hf h2 h3 ?_ ?_ ?_)
      · intro hr; exact (hi.h1.knows hr).2 f (by rw [hq]; simp)
      · exact hi.h2.ranks f (by rw [hq]; simp)
      · have := hi.h2.sorted; rw [hq, List.pairwise_cons] at this; exact this.1
  | badHeader =>
    simp only [act]
    split
    · exact ⟨_, _, rfl, good⟩
    · rename_i f fs hq
      obtain ⟨lo2, lf2, h1, h2, h3⟩ := inv_pop hi hq
      exact wrap (handle_err h1 hf 1 (by simp))
  | badData =>
    simp only [act]
    split
    · exact ⟨_, _, rfl, good⟩
    · rename_i f fs hq
      obtain ⟨lo2, lf2, h1, h2, h3⟩ := inv_pop hi hq
      cases f with
      | data num resp m =>
        exact wrap (handle_err h1 hf 2 (fun x hx => h2 x (by simpa [respOf] using hx)))
      | _ => exact wrap (handle_err h1 hf 1 (by simp))

theorem step_good {qp qq} {s : Stn × Stn} (h : Good qp qq s.1 s.2) (x : Bool × Act) :
    ∃ s', step qp qq s x = some s' ∧ Good qp qq s'.1 s'.2 := by
  obtain ⟨b, x⟩ := x
  cases b with
  | true =>
    obtain ⟨p', q', e1, e2⟩ := act_good h x
    exact ⟨(p', q'), e1, e2⟩
  | false =>
    obtain ⟨p', q', e1, e2⟩ := act_good h.symm x
    exact ⟨(q', p'), by simp [step, e1], e2.symm⟩

theorem run_good {qp qq} {s : Stn × Stn} (h : Good qp qq s.1 s.2) (xs : List (Bool × Act)) :
    ∃ s', run qp qq s xs = some s' ∧ Good qp qq s'.1 s'.2 := by
  induction xs generalizing s with
  | nil => exact ⟨s, rfl, h⟩
  | cons x xs ih =>
    obtain ⟨s1, e1, e2⟩ := step_good h x
    obtain ⟨s2, g1, g2⟩ := ih e2
    exact ⟨s2, by simp [run, e1, g1], g2⟩

theorem good_init {qp qq : Nat} (h1 : 1 ≤ qp) (h2 : qp ≤ 255) (h3 : 1 ≤ qq) (h4 : qq ≤ 255) :
    Good qp qq init.1 init.2 := by
  have d : ∀ k, Dir k 0 0 0 (connected [] 0) (connected [] 0) := by
    intro k
    constructor <;> simp [connected, emit, Chain, Fwd, Bwd, respOf]
    omega
  have hph : Ph (connected [] 0) (connected [] 0) := by
    constructor <;> simp [connected, emit, rank]
  exact ⟨0, 0, 0, 0, 0, 0, fun h => absurd rfl h,
    ⟨d _, d _, hph, hph, fun h => absurd rfl h, h1, h2, h3, h4⟩⟩

end Verif.Ddcmp
