import Verif.Ddcmp.Model
namespace Verif.Ddcmp

/-! ### Sequence number arithmetic -/

theorem sub_mod {x y : Nat} (h : y ≤ x) (hb : x ≤ y + 255) : sub (x % 256) (y % 256) = x - y := by
  unfold sub; omega

theorem inc_mod (x : Nat) : inc (x % 256) = (x + 1) % 256 := by
  unfold inc; omega

/-! ### Channels -/

/-- The frames of a channel can be labelled with nondecreasing numbers between `lo` and `hi` so
that each frame satisfies `P` at its label. -/
def Chain (P : Nat → Frame → Prop) (lo hi : Nat) : List Frame → Prop
  | [] => lo ≤ hi
  | f :: fs => ∃ k, lo ≤ k ∧ P k f ∧ Chain P k hi fs

theorem chain_le {P lo hi fs} (h : Chain P lo hi fs) : lo ≤ hi := by
  induction fs generalizing lo with
  | nil => exact h
  | cons f fs ih => obtain ⟨k, h1, _, h3⟩ := h; have := ih h3; omega

theorem chain_lo {P lo lo' hi fs} (h : Chain P lo hi fs) (hl : lo' ≤ lo) : Chain P lo' hi fs := by
  cases fs with
  | nil => exact Nat.le_trans hl h
  | cons f fs => obtain ⟨k, h1, h2, h3⟩ := h; exact ⟨k, by omega, h2, h3⟩

theorem chain_hi {P lo hi hi' fs} (h : Chain P lo hi fs) (hl : hi ≤ hi') : Chain P lo hi' fs := by
  induction fs generalizing lo with
  | nil => exact Nat.le_trans h hl
  | cons f fs ih => obtain ⟨k, h1, h2, h3⟩ := h; exact ⟨k, h1, h2, ih h3⟩

theorem chain_mono {P P' : Nat → Frame → Prop} {lo hi fs} (h : Chain P lo hi fs)
    (hp : ∀ k f, P k f → P' k f) : Chain P' lo hi fs := by
  induction fs generalizing lo with
  | nil => exact h
  | cons f fs ih => obtain ⟨k, h1, h2, h3⟩ := h; exact ⟨k, h1, hp _ _ h2, ih h3⟩

theorem chain_snoc {P lo hi fs f} (h : Chain P lo hi fs) (hf : P hi f) :
    Chain P lo hi (fs ++ [f]) := by
  induction fs generalizing lo with
  | nil => exact ⟨hi, h, hf, Nat.le_refl _⟩
  | cons g fs ih => obtain ⟨k, h1, h2, h3⟩ := h; exact ⟨k, h1, h2, ih h3⟩

/-- A data frame sent when `k` messages had been sent: it is message `i` of the sender. -/
def Fwd (sent : List Msg) (k : Nat) : Frame → Prop
  | .data num _ m => ∃ i, 1 ≤ i ∧ i ≤ k ∧ k ≤ i + 254 ∧ num = i % 256 ∧ sent[i-1]? = some m
  | _ => True

def respOf : Frame → Option Nat
  | .ack r => some r
  | .nak _ r => some r
  | .data _ r _ => some r
  | _ => none

/-- A frame sent when `k` messages had been received: it acknowledges that. -/
def Bwd (k : Nat) (f : Frame) : Prop := ∀ x, respOf f = some x → x = k % 256

/-! ### Invariant -/

/-- One direction of transfer: `p` sends, `q` receives.  `A` messages are acknowledged, all
frames from `q` acknowledge at least `lo`, all data frames from `p` were sent when at least `lf`
messages had been sent. -/
structure Dir (qmax A lo lf : Nat) (p q : Stn) : Prop where
  pa : p.a = A % 256
  pn : p.n = p.sent.length % 256
  qr : q.r = q.delivered.length % 256
  alo : A ≤ lo
  rlf : q.delivered.length ≤ lf
  win : p.sent.length ≤ A + qmax
  pref : q.delivered = p.sent.take q.delivered.length
  acc : p.accepted = p.sent ++ p.notsent
  held : ∀ i, A < i → i ≤ p.sent.length →
    ∃ m, p.sent[i-1]? = some m ∧ p.unack (i % 256) = some (i % 256, m)
  free : ∀ i, p.sent.length < i → i ≤ A + 256 → p.unack (i % 256) = none
  fwd : Chain (Fwd p.sent) lf p.sent.length p.out
  bwd : Chain Bwd lo q.delivered.length q.out

def rank : Frame → Nat
  | .start => 0
  | .stack => 1
  | _ => 2

def phaseRank : Phase → Nat
  | .istart => 0
  | .astart => 1
  | .running => 2

/-- Start-up: order of the frames sent by `p`, and what `p` knows about `q`. -/
structure Ph (p q : Stn) : Prop where
  idle : p.st ≠ .running → p.sent = [] ∧ p.delivered = [] ∧ p.notsent = []
  sorted : p.out.Pairwise (fun f g => rank f ≤ rank g)
  ranks : ∀ f ∈ p.out, rank f ≤ phaseRank p.st
  knows : p.st = .running → q.st ≠ .istart ∧ ∀ f ∈ q.out, f ≠ .start
  downs : p.downs = 0

/-- Messages wait only when the window is full. -/
def Full (qmax A : Nat) (p : Stn) : Prop := p.notsent ≠ [] → p.sent.length = A + qmax

structure Inv (qp qq A lo lf B lo' lf' : Nat) (p q : Stn) : Prop where
  d1 : Dir qp A lo lf p q
  d2 : Dir qq B lo' lf' q p
  h1 : Ph p q
  h2 : Ph q p
  f2 : Full qq B q
  qp1 : 1 ≤ qp
  qp2 : qp ≤ 255
  qq1 : 1 ≤ qq
  qq2 : qq ≤ 255

section
variable {qp qq A lo lf B lo' lf' : Nat} {p q : Stn}

theorem Inv.an (h : Inv qp qq A lo lf B lo' lf' p q) : A ≤ p.sent.length := by
  have h1 := h.d1.alo
  have h2 := chain_le h.d1.bwd
  have h3 := chain_le h.d1.fwd
  have h4 := h.d1.rlf
  omega

/-- Emission of any frame while running (or of start-up frames in their phases). -/
theorem inv_emit (h : Inv qp qq A lo lf B lo' lf' p q) (f : Frame)
    (hr : rank f = phaseRank p.st) (hf : Fwd p.sent p.sent.length f)
    (hb : Bwd p.delivered.length f) (hk : q.st = .running → f ≠ .start) :
    Inv qp qq A lo lf B lo' lf' (emit f p) q where
  d1 := { h.d1 with fwd := chain_snoc h.d1.fwd hf }
  d2 := { h.d2 with bwd := chain_snoc h.d2.bwd hb }
  h1 := { h.h1 with
    sorted := by
      simp only [emit, List.pairwise_append]
      refine ⟨h.h1.sorted, by simp, ?_⟩
      intro a ha b hb
      simp at hb; subst hb
      have := h.h1.ranks a ha
      omega
    ranks := by
      intro g hg
      simp [emit] at hg
      rcases hg with hg | hg
      · exact h.h1.ranks g hg
      · subst hg; simp [emit]; omega }
  h2 := { h.h2 with
    knows := by
      intro hq
      refine ⟨(h.h2.knows hq).1, ?_⟩
      intro g hg
      simp [emit] at hg
      rcases hg with hg | hg
      · exact (h.h2.knows hq).2 g hg
      · subst hg; exact hk hq }
  f2 := h.f2
  qp1 := h.qp1
  qp2 := h.qp2
  qq1 := h.qq1
  qq2 := h.qq2

theorem inv_flag (h : Inv qp qq A lo lf B lo' lf' p q) (b : Bool) :
    Inv qp qq A lo lf B lo' lf' { p with ackflag := b } q where
  d1 := { h.d1 with }
  d2 := { h.d2 with }
  h1 := { h.h1 with }
  h2 := { h.h2 with }
  f2 := h.f2
  qp1 := h.qp1
  qp2 := h.qp2
  qq1 := h.qq1
  qq2 := h.qq2

theorem inv_sendAck (h : Inv qp qq A lo lf B lo' lf' p q) (hr : p.st = .running) :
    Inv qp qq A lo lf B lo' lf' (sendAck p) q := by
  refine inv_emit (inv_flag h false) _ ?_ ?_ ?_ ?_
  · simp [rank, hr, phaseRank]
  · trivial
  · intro x hx; simp [respOf] at hx; rw [← hx]; exact h.d2.qr
  · simp

theorem inv_sendNak (h : Inv qp qq A lo lf B lo' lf' p q) (hr : p.st = .running) (c : Nat) :
    Inv qp qq A lo lf B lo' lf' (sendNak c p) q := by
  refine inv_emit (inv_flag h false) _ ?_ ?_ ?_ ?_
  · simp [rank, hr, phaseRank]
  · trivial
  · intro x hx; simp [respOf] at hx; rw [← hx]; exact h.d2.qr
  · simp

theorem inv_sendRep (h : Inv qp qq A lo lf B lo' lf' p q) (hr : p.st = .running) :
    Inv qp qq A lo lf B lo' lf' (sendRep p) q := by
  refine inv_emit h _ ?_ ?_ ?_ ?_
  · simp [rank, hr, phaseRank]
  · trivial
  · intro x hx; simp [respOf] at hx
  · simp

theorem inv_ackIfNeeded (h : Inv qp qq A lo lf B lo' lf' p q) (hr : p.st = .running) :
    Inv qp qq A lo lf B lo' lf' (ackIfNeeded p) q := by
  unfold ackIfNeeded
  split
  · exact inv_sendAck h hr
  · exact h

theorem inv_sendData (h : Inv qp qq A lo lf B lo' lf' p q) (hr : p.st = .running)
    {i : Nat} {m : Msg} (h1 : A < i) (h2 : i ≤ p.sent.length) (h3 : p.sent[i-1]? = some m) :
    Inv qp qq A lo lf B lo' lf' (sendData (i % 256) m p) q := by
  refine inv_emit (inv_flag h false) _ ?_ ?_ ?_ ?_
  · simp [rank, hr, phaseRank]
  · refine ⟨i, by omega, h2, ?_, rfl, h3⟩
    have := h.d1.win
    have := h.qp2
    show p.sent.length ≤ _
    omega
  · intro x hx; simp [respOf] at hx; rw [← hx]; exact h.d2.qr
  · simp

/-- Release of acknowledged messages. -/
theorem inv_release (k : Nat) (h : Inv qp qq A lo lf B lo' lf' p q) (hk : A + k ≤ lo) :
    ∃ u, release k p = some { p with a := (A + k) % 256, unack := u } ∧
      Inv qp qq (A + k) lo lf B lo' lf' { p with a := (A + k) % 256, unack := u } q := by
  induction k generalizing p A with
  | zero =>
    refine ⟨p.unack, ?_, ?_⟩
    · simp only [release, Nat.add_zero, ← h.d1.pa]
    · simp only [Nat.add_zero, ← h.d1.pa]; exact h
  | succ k ih =>
    have hN : A + 1 ≤ p.sent.length := by
      have h2 := chain_le h.d1.bwd
      have h3 := chain_le h.d1.fwd
      have h4 := h.d1.rlf
      omega
    obtain ⟨m, _, hm⟩ := h.d1.held (A + 1) (by omega) hN
    have hinc : inc p.a = (A + 1) % 256 := by rw [h.d1.pa, inc_mod]
    have hw := h.d1.win
    have hq := h.qp2
    have step : Inv qp qq (A + 1) lo lf B lo' lf' { p with
        a := (A + 1) % 256
        unack := fun j => if j = (A + 1) % 256 then none else p.unack j } q := by
      constructor
      · refine { h.d1 with pa := rfl, alo := by omega, win := ?_, held := ?_, free := ?_ }
        · show p.sent.length ≤ _; omega
        · intro i h1 h2
          have h2 : i ≤ p.sent.length := h2
          obtain ⟨m', e1, e2⟩ := h.d1.held i (by omega) h2
          refine ⟨m', e1, ?_⟩
          have : i % 256 ≠ (A + 1) % 256 := by omega
          simp only [this, if_false]; exact e2
        · intro i h1 h2
          have h1 : p.sent.length < i := h1
          simp only
          by_cases hi : i % 256 = (A + 1) % 256
          · simp [hi]
          · simp only [hi, if_false]
            by_cases hi2 : i ≤ A + 256
            · exact h.d1.free i h1 hi2
            · omega
      · exact { h.d2 with }
      · exact { h.h1 with }
      · exact { h.h2 with }
      · exact h.f2
      · exact h.qp1
      · exact h.qp2
      · exact h.qq1
      · exact h.qq2
    obtain ⟨u, e1, e2⟩ := ih step (by omega)
    have e : A + 1 + k = A + (k + 1) := by omega
    rw [e] at e1 e2
    refine ⟨u, ?_, e2⟩
    simp only [release, hinc, hm]
    exact e1

theorem cansend_iff (h : Inv qp qq A lo lf B lo' lf' p q) :
    cansend qp p = true ↔ p.sent.length < A + qp := by
  have h1 := h.an
  have h2 := h.d1.win
  have h3 := h.qp2
  unfold cansend
  rw [h.d1.pn, h.d1.pa, sub_mod h1 (by omega)]
  simp; omega

/-- The state after `send` has put message `m` into the retransmission buffer. -/
def numbered (p : Stn) (m : Msg) : Stn :=
  { p with
    n := inc p.n
    unack := fun j => if j = inc p.n then some (inc p.n, m) else p.unack j
    sent := p.sent ++ [m] }

/-- A message is numbered: taken from the head of the queue, or straight from the client. -/
theorem inv_numbered {A : Nat} {m : Msg} {rest : List Msg}
    (d1 : Inv qp qq A lo lf B lo' lf' p q) (hr : p.st = .running)
    (hw : p.sent.length < A + qp) {p' : Stn}
    (hp' : p' = numbered { p with notsent := rest, accepted := p.sent ++ m :: rest } m) :
    p.unack (inc p.n) = none ∧
    Inv qp qq A lo lf B lo' lf' p' q := by
  subst hp'
  have hin : inc p.n = (p.sent.length + 1) % 256 := by rw [d1.d1.pn, inc_mod]
  have hq := d1.qp2
  have han := d1.an
  refine ⟨?_, ?_⟩
  · rw [hin]; exact d1.d1.free _ (by omega) (by omega)
  · have hfwd : ∀ k f, Fwd p.sent k f → Fwd (p.sent ++ [m]) k f := by
      intro k f hf
      cases f with
      | data num r m' =>
        obtain ⟨i, a1, a2, a3, a4, a5⟩ := hf
        refine ⟨i, a1, a2, a3, a4, ?_⟩
        rw [List.getElem?_append_left]
        · exact a5
        · exact (List.getElem?_eq_some_iff.mp a5).1
      | _ => trivial
    have hlen := chain_le d1.d1.fwd
    have hrl := d1.d1.rlf
    constructor
    · constructor
      · exact d1.d1.pa
      · simp [numbered, hin]
      · exact d1.d1.qr
      · exact d1.d1.alo
      · exact d1.d1.rlf
      · simp [numbered]; omega
      · have := d1.d1.pref
        simp only [numbered]
        rw [List.take_append_of_le_length (by omega)]
        exact this
      · simp [numbered]
      · intro i h1 h2
        simp [numbered] at h2
        simp only [numbered, hin]
        by_cases hi : i = p.sent.length + 1
        · subst hi
          exact ⟨m, by simp, by simp⟩
        · obtain ⟨m', e1, e2⟩ := d1.d1.held i h1 (by omega)
          refine ⟨m', ?_, ?_⟩
          · rw [List.getElem?_append_left (by omega)]; exact e1
          · have : i % 256 ≠ (p.sent.length + 1) % 256 := by omega
            simp only [this, if_false]; exact e2
      · intro i h1 h2
        simp [numbered] at h1
        simp only [numbered, hin]
        have : i % 256 ≠ (p.sent.length + 1) % 256 := by omega
        simp only [this, if_false]
        exact d1.d1.free i (by omega) h2
      · simp only [numbered]
        exact chain_hi (chain_mono d1.d1.fwd hfwd) (by simp)
      · exact d1.d1.bwd
    · exact { d1.d2 with }
    · refine { d1.h1 with idle := ?_ }
      intro hn; exact absurd hr hn
    · exact { d1.h2 with }
    · exact d1.f2
    · exact d1.qp1
    · exact d1.qp2
    · exact d1.qq1
    · exact d1.qq2

/-- `send` when the window is open. -/
theorem inv_send {m : Msg} {rest : List Msg} (queue : Bool)
    (d1 : Inv qp qq A lo lf B lo' lf' p q) (hr : p.st = .running)
    (hw : p.sent.length < A + qp) :
    ∃ p', send qp m queue { p with notsent := rest, accepted := p.sent ++ m :: rest } = some p' ∧
      p'.st = .running ∧ p'.notsent = rest ∧
      Inv qp qq A lo lf B lo' lf' p' q := by
  obtain ⟨e1, e2⟩ := inv_numbered (m := m) (rest := rest) d1 hr hw rfl
  have hc : cansend qp p = true := (cansend_iff d1).mpr hw
  have hc' : cansend qp { p with notsent := rest, accepted := p.sent ++ m :: rest } = true := hc
  generalize hP : ({ p with notsent := rest, accepted := p.sent ++ m :: rest } : Stn) = P at *
  have hPr : P.st = .running := by subst hP; exact hr
  have hPn : P.n = p.n := by subst hP; rfl
  have hPu : P.unack (inc P.n) = none := by subst hP; exact e1
  have hns : P.notsent = rest := by subst hP; rfl
  have key : send qp m queue P = if queue then some (numbered P m)
      else some (sendData (inc P.n) m (numbered P m)) := by
    unfold send
    rw [if_pos hPr, hc']
    simp only [Bool.not_true, Bool.false_eq_true, if_false, hPu, Option.isSome_none]
    rfl
  rw [key]
  cases queue with
  | true => exact ⟨_, rfl, hPr, hns, e2⟩
  | false =>
    refine ⟨_, rfl, hPr, hns, ?_⟩
    have hPs : P.sent = p.sent := by subst hP; rfl
    have hin : inc p.n = (p.sent.length + 1) % 256 := by rw [d1.d1.pn, inc_mod]
    have han := d1.an
    have := inv_sendData (i := p.sent.length + 1) (m := m) e2 hPr (by omega)
      (by simp [numbered, hPs]) (by simp [numbered, hPs])
    rw [← hin, ← hPn] at this
    exact this

theorem inv_flush (queue : Bool) (l : List Msg)
    (d1 : Inv qp qq A lo lf B lo' lf' p q) (hr : p.st = .running) (hl : p.notsent = l) :
    ∃ p', flush qp queue l p = some p' ∧ p'.st = .running ∧
      Full qp A p' ∧ Inv qp qq A lo lf B lo' lf' p' q := by
  induction l generalizing p with
  | nil => exact ⟨p, rfl, hr, fun h => absurd hl h, d1⟩
  | cons m rest ih =>
    by_cases hw : p.sent.length < A + qp
    · have hc : cansend qp p = true := (cansend_iff d1).mpr hw
      obtain ⟨p1, e1, e2, e3, e4⟩ := inv_send (m := m) (rest := rest) queue d1 hr hw
      have hacc : p.accepted = p.sent ++ m :: rest := by rw [d1.d1.acc, hl]
      rw [← hacc] at e1
      obtain ⟨p2, g1, g2, g3, g4⟩ := ih e4 e2 e3
      refine ⟨p2, ?_, g2, g3, g4⟩
      simp only [flush, hc, if_true]
      have e1' : send qp m queue { p with notsent := rest } = some p1 := e1
      rw [e1']
      exact g1
    · have hc : cansend qp p = false := by
        rw [Bool.eq_false_iff]; intro h; exact hw ((cansend_iff d1).mp h)
      refine ⟨p, by simp [flush, hc], hr, ?_, d1⟩
      intro _
      have := d1.d1.win
      omega

/-- Processing of an acknowledgment number `lo` found in a frame from the peer. -/
theorem inv_processAck (isNak : Bool) (d1 : Inv qp qq A lo lf B lo' lf' p q)
    (hr : p.st = .running) :
    ∃ p', processAck qp isNak (lo % 256) p = some (p', true) ∧ p'.st = .running ∧
      Full qp lo p' ∧ Inv qp qq lo lo lf B lo' lf' p' q := by
  have h1 := d1.d1.alo
  have h2 := chain_le d1.d1.bwd
  have h3 := chain_le d1.d1.fwd
  have h4 := d1.d1.rlf
  have h5 := d1.d1.win
  have h6 := d1.qp2
  have hcount : sub (lo % 256) p.a = lo - A := by rw [d1.d1.pa]; exact sub_mod h1 (by omega)
  have hpend : sub p.n p.a = p.sent.length - A := by
    rw [d1.d1.pa, d1.d1.pn]; exact sub_mod (by omega) (by omega)
  obtain ⟨u, e1, e2⟩ := inv_release (lo - A) d1 (by omega)
  have e : A + (lo - A) = lo := by omega
  rw [e] at e1 e2
  obtain ⟨p', g1, g2, g3, g4⟩ := inv_flush isNak p.notsent e2 hr rfl
  refine ⟨p', ?_, g2, g3, g4⟩
  unfold processAck
  simp only [hcount, hpend]
  rw [if_neg (by omega), e1]
  simp [g1]

theorem inv_resend (k : Nat) (t : Nat) (d1 : Inv qp qq A lo lf B lo' lf' p q)
    (hr : p.st = .running) (ht : A ≤ t) (hk : t + k ≤ p.sent.length) (hf : Full qp A p) :
    ∃ p', resend k (t % 256) p = some p' ∧ p'.st = .running ∧ Full qp A p' ∧
      Inv qp qq A lo lf B lo' lf' p' q := by
  induction k generalizing p t with
  | zero => exact ⟨p, rfl, hr, hf, d1⟩
  | succ k ih =>
    obtain ⟨m, e1, e2⟩ := d1.d1.held (t + 1) (by omega) (by omega)
    have := inv_sendData (i := t + 1) (m := m) d1 hr (by omega) (by omega) e1
    obtain ⟨p', g1, g2, g3, g4⟩ := ih (t + 1) this hr (by omega)
      (by show t + 1 + k ≤ p.sent.length; omega) hf
    refine ⟨p', ?_, g2, g3, g4⟩
    simp only [resend, inc_mod, e2]
    exact g1

theorem inv_retransmit (d1 : Inv qp qq A lo lf B lo' lf' p q)
    (hr : p.st = .running) (hf : Full qp A p) :
    ∃ p', retransmit p = some p' ∧ p'.st = .running ∧ Full qp A p' ∧
      Inv qp qq A lo lf B lo' lf' p' q := by
  have h5 := d1.d1.win
  have h6 := d1.qp2
  have h7 := d1.an
  have hpend : sub p.n p.a = p.sent.length - A := by
    rw [d1.d1.pa, d1.d1.pn]; exact sub_mod (by omega) (by omega)
  have := inv_resend (p.sent.length - A) A d1 hr (Nat.le_refl _) (by omega) hf
  unfold retransmit
  rw [hpend, d1.d1.pa]
  exact this

/-- Acceptance of message `i` by the receiver. -/
theorem inv_deliver (d1 : Inv qp qq A lo lf B lo' lf' p q) (hr : p.st = .running)
    {i : Nat} {m : Msg} (h1 : 1 ≤ i) (h2 : i ≤ lf') (h3 : lf' ≤ i + 254)
    (h4 : q.sent[i-1]? = some m) (h5 : i % 256 = inc p.r) :
    Inv qp qq A lo lf B lo' lf'
      { p with r := inc p.r, ackflag := true, delivered := p.delivered ++ [m] } q := by
  have hlf := d1.d2.rlf
  have hwin := d1.d2.win
  have hq2 := d1.qq2
  have hb := d1.d2.alo
  have hc := chain_le d1.d2.bwd
  have hd := chain_le d1.d2.fwd
  have hi : i = p.delivered.length + 1 := by
    rw [d1.d2.qr, inc_mod] at h5
    omega
  subst hi
  constructor
  · exact { d1.d1 with }
  · refine { d1.d2 with qr := ?_, rlf := ?_, pref := ?_, bwd := ?_ }
    · simp [d1.d2.qr, inc_mod]
    · simp; omega
    · simp only [List.length_append, List.length_cons, List.length_nil, Nat.zero_add]
      rw [List.take_add_one]
      congr 1
      · exact d1.d2.pref
      · simp at h4; rw [h4]; rfl
    · simp only [List.length_append, List.length_cons, List.length_nil, Nat.zero_add]
      exact chain_hi d1.d2.bwd (by omega)
  · refine { d1.h1 with idle := fun hn => absurd hr hn }
  · exact { d1.h2 with }
  · exact d1.f2
  · exact d1.qp1
  · exact d1.qp2
  · exact d1.qq1
  · exact d1.qq2

end
end Verif.Ddcmp
