import Verif.Ddcmp.Lemmas
/-!
# C62: one DDCMP station against any peer

Nothing is assumed about the other end: any frames with any numbers, errors and timeouts in any
order.
-/
namespace Verif.Ddcmp

/-- What can happen to one station: a call by the client or a work item. -/
inductive Ev where
  | client (m : Msg)
  | input (i : Input)

def one (qmax : Nat) (s : Stn) : Ev → Option Stn
  | .client m => clientSend qmax m s
  | .input i => handle qmax s i

/-- Any sequence of them. -/
def runOne (qmax : Nat) (s : Stn) : List Ev → Option Stn
  | [] => some s
  | e :: es => (one qmax s e).bind fun s' => runOne qmax s' es

/-- The buffer: messages number `A + 1` to the last one sent are held in their slots, all other slots are
free. -/
structure Buf (qmax A : Nat) (s : Stn) : Prop where
  pa : s.a = A % 256
  pn : s.n = s.sent.length % 256
  le : A ≤ s.sent.length
  win : s.sent.length ≤ A + qmax
  acc : s.accepted = s.sent ++ s.notsent
  held : ∀ i, A < i → i ≤ s.sent.length →
    ∃ m, s.sent[i-1]? = some m ∧ s.unack (i % 256) = some (i % 256, m)
  free : ∀ i, s.sent.length < i → i ≤ A + 256 → s.unack (i % 256) = none
  qr : s.r = s.delivered.length % 256

section
variable {qmax A : Nat} {s : Stn}

theorem Buf.cong (h : Buf qmax A s) {s' : Stn} (h1 : s'.a = s.a) (h2 : s'.n = s.n) (h3 : s'.sent = s.sent)
    (h4 : s'.accepted = s.accepted) (h5 : s'.notsent = s.notsent) (h6 : s'.unack = s.unack) (h7 : s'.r = s.r)
    (h8 : s'.delivered = s.delivered) : Buf qmax A s' := by
  constructor
  · rw [h1]; exact h.pa
  · rw [h2, h3]; exact h.pn
  · rw [h3]; exact h.le
  · rw [h3]; exact h.win
  · rw [h4, h3, h5]; exact h.acc
  · rw [h3, h6]; exact h.held
  · rw [h3, h6]; exact h.free
  · rw [h7, h8]; exact h.qr

theorem Buf.ackIfNeeded (h : Buf qmax A s) : Buf qmax A (ackIfNeeded s) := by
  unfold Ddcmp.ackIfNeeded
  split
  · exact h.cong rfl rfl rfl rfl rfl rfl rfl rfl
  · exact h

theorem Buf.slot (h : Buf qmax A s) (hq : qmax ≤ 255) (h1 : s.sent.length < A + 256) :
    s.unack (inc s.n) = none := by
  rw [h.pn, inc_mod]
  exact h.free _ (by omega) (by omega)

theorem Buf.pend (h : Buf qmax A s) (hq : qmax ≤ 255) : sub s.n s.a = s.sent.length - A := by
  rw [h.pa, h.pn]
  exact sub_mod h.le (by have := h.win; omega)

theorem Buf.release (hq : qmax ≤ 255) (k : Nat) (h : Buf qmax A s) (hk : A + k ≤ s.sent.length) :
    ∃ s', release k s = some s' ∧ Buf qmax (A + k) s' ∧ s'.sent = s.sent ∧ s'.notsent = s.notsent ∧
      s'.r = s.r ∧ s'.delivered = s.delivered ∧ s'.st = s.st ∧ s'.downs = s.downs := by
  induction k generalizing s A with
  | zero => exact ⟨s, rfl, h, rfl, rfl, rfl, rfl, rfl, rfl⟩
  | succ k ih =>
    obtain ⟨m, h1, h2⟩ := h.held (A + 1) (by omega) (by omega)
    have hinc : inc s.a = (A + 1) % 256 := by rw [h.pa, inc_mod]
    simp only [Ddcmp.release]
    rw [hinc, h2]
    have hb : Buf qmax (A + 1) { s with
        a := (A + 1) % 256
        unack := fun j => if j = (A + 1) % 256 then none else s.unack j } := by
      refine ⟨rfl, h.pn, by show A + 1 ≤ s.sent.length; omega, ?_, h.acc, ?_, ?_, h.qr⟩
      · show s.sent.length ≤ A + 1 + qmax
        have := h.win; omega
      · intro i h3 h4
        obtain ⟨m', h5, h6⟩ := h.held i (by omega) h4
        refine ⟨m', h5, ?_⟩
        have : i % 256 ≠ (A + 1) % 256 := by
          have := h.win
          have h4' : i ≤ s.sent.length := h4
          omega
        show (if i % 256 = (A + 1) % 256 then none else s.unack (i % 256)) = _
        rw [if_neg this, h6]
      · intro i h3 h4
        show (if i % 256 = (A + 1) % 256 then none else s.unack (i % 256)) = none
        split
        · rfl
        · refine h.free i h3 ?_
          have h3' : s.sent.length < i := h3
          omega
    obtain ⟨s', e1, e2, e3⟩ := ih hb (by show A + 1 + k ≤ s.sent.length; omega)
    refine ⟨s', e1, ?_, e3⟩
    have : A + 1 + k = A + (k + 1) := by omega
    rw [← this]
    exact e2

theorem Buf.take (hq : qmax ≤ 255) (h : Buf qmax A s) (m : Msg) (rest : List Msg) (hc : cansend qmax s = true)
    (hn : s.notsent = m :: rest) :
    s.unack (inc s.n) = none ∧ Buf qmax A { s with
      notsent := rest
      n := inc s.n
      unack := fun j => if j = inc s.n then some (inc s.n, m) else s.unack j
      sent := s.sent ++ [m] } := by
  have hp := h.pend hq
  have hlt : s.sent.length - A < qmax := by
    rw [← hp]; simpa [cansend] using hc
  have hinc : inc s.n = (s.sent.length + 1) % 256 := by rw [h.pn, inc_mod]
  have hle := h.le
  refine ⟨h.slot hq (by omega), ?_⟩
  constructor
  · exact h.pa
  · show inc s.n = (s.sent ++ [m]).length % 256
    rw [hinc]; simp
  · show A ≤ (s.sent ++ [m]).length
    simp; omega
  · show (s.sent ++ [m]).length ≤ A + qmax
    simp; omega
  · show s.accepted = s.sent ++ [m] ++ rest
    rw [h.acc, hn]; simp
  · intro i h1 h2
    have h2' : i ≤ s.sent.length + 1 := by simpa using h2
    show ∃ m', (s.sent ++ [m])[i-1]? = some m' ∧
      (if i % 256 = inc s.n then some (inc s.n, m) else s.unack (i % 256)) = some (i % 256, m')
    by_cases h3 : i = s.sent.length + 1
    · subst h3
      refine ⟨m, by simp, ?_⟩
      rw [hinc, if_pos rfl]
    · obtain ⟨m', h5, h6⟩ := h.held i h1 (by omega)
      refine ⟨m', ?_, ?_⟩
      · rw [List.getElem?_append_left (by omega)]; exact h5
      · rw [if_neg, h6]
        rw [hinc]; omega
  · intro i h1 h2
    have h1' : s.sent.length + 1 < i := by simpa using h1
    show (if i % 256 = inc s.n then some (inc s.n, m) else s.unack (i % 256)) = none
    rw [if_neg]
    · exact h.free i (by omega) h2
    · rw [hinc]; omega
  · exact h.qr

/-- The state after a message was given the next number. -/
def taken (m : Msg) (s : Stn) : Stn :=
  { s with
    n := inc s.n
    unack := fun j => if j = inc s.n then some (inc s.n, m) else s.unack j
    sent := s.sent ++ [m] }

theorem send_open {m : Msg} {queue : Bool} (hr : s.st = .running) (hc : cansend qmax s = true)
    (hf : s.unack (inc s.n) = none) :
    send qmax m queue s = some (if queue then taken m s else sendData (inc s.n) m (taken m s)) := by
  unfold send taken
  rw [if_pos hr, hc]
  simp only [hf, Bool.not_true, Bool.false_eq_true, if_false, Option.isSome_none]
  cases queue <;> rfl

theorem Buf.flush (hq : qmax ≤ 255) (queue : Bool) (l : List Msg) (h : Buf qmax A s) (hr : s.st = .running)
    (hl : s.notsent = l) :
    ∃ s', flush qmax queue l s = some s' ∧ Buf qmax A s' ∧ s'.st = .running ∧ s'.r = s.r ∧
      s'.delivered = s.delivered ∧ s'.downs = s.downs ∧ Full qmax A s' ∧ s.sent <+: s'.sent := by
  induction l generalizing s with
  | nil => exact ⟨s, rfl, h, hr, rfl, rfl, rfl, fun hn => absurd hl hn, List.prefix_refl _⟩
  | cons m rest ih =>
    simp only [Ddcmp.flush]
    cases hc : cansend qmax s
    · refine ⟨s, by simp, h, hr, rfl, rfl, rfl, fun _ => ?_, List.prefix_refl _⟩
      have hp := h.pend hq
      have h1 := h.le
      have h2 := h.win
      simp only [cansend, decide_eq_false_iff_not] at hc
      omega
    · obtain ⟨h1, h2⟩ := h.take hq m rest hc hl
      rw [if_pos rfl, send_open (s := { s with notsent := rest }) hr hc h1, Option.bind_some]
      cases queue
      · obtain ⟨s', e1, e2, e3, e4, e5, e6, e7, e8⟩ :=
          ih (s := sendData (inc s.n) m (taken m { s with notsent := rest }))
            (h2.cong rfl rfl rfl rfl rfl rfl rfl rfl) hr rfl
        exact ⟨s', e1, e2, e3, e4, e5, e6, e7, (List.prefix_append _ _).trans e8⟩
      · obtain ⟨s', e1, e2, e3, e4, e5, e6, e7, e8⟩ :=
          ih (s := taken m { s with notsent := rest }) (h2.cong rfl rfl rfl rfl rfl rfl rfl rfl) hr rfl
        exact ⟨s', e1, e2, e3, e4, e5, e6, e7, (List.prefix_append _ _).trans e8⟩

/-- The number of messages an acknowledgement number releases: it must name one of the messages
`A + 1` to `N`, or the last one acknowledged. -/
def Releases (A N resp k : Nat) : Prop :=
  (k ≤ N - A ∧ resp % 256 = (A + k) % 256) ∨ (k = 0 ∧ ∀ j, j ≤ N - A → resp % 256 ≠ (A + j) % 256)

theorem Buf.processAck (hq : qmax ≤ 255) (isNak : Bool) (resp : Nat) (hresp : resp < 256) (h : Buf qmax A s)
    (hf : Full qmax A s) (hr : s.st = .running) :
    ∃ s' b k, processAck qmax isNak resp s = some (s', b) ∧ Buf qmax (A + k) s' ∧ Releases A s.sent.length resp k ∧
      s'.st = .running ∧ s'.r = s.r ∧ s'.delivered = s.delivered ∧ s'.downs = s.downs ∧ s.sent <+: s'.sent ∧
      Full qmax (A + k) s' := by
  have hp := h.pend hq
  have hle := h.le
  have hw := h.win
  have hsub : sub resp s.a = (resp + 256 - A % 256) % 256 := by rw [h.pa]; rfl
  unfold Ddcmp.processAck
  simp only
  rw [hp, hsub]
  by_cases hc : (resp + 256 - A % 256) % 256 > s.sent.length - A
  · rw [if_pos hc]
    refine ⟨s, false, 0, rfl, h, Or.inr ⟨rfl, ?_⟩, hr, rfl, rfl, rfl, List.prefix_refl _, hf⟩
    intro j hj
    omega
  · rw [if_neg hc]
    generalize hk : (resp + 256 - A % 256) % 256 = k at hc ⊢
    obtain ⟨s1, e1, e2, e3, e4, e5, e6, e7, e8⟩ := h.release hq k (by omega)
    obtain ⟨s2, f1, f2, f3, f4, f5, f6, f7, f8⟩ := e2.flush hq isNak s1.notsent (e7.trans hr) rfl
    rw [e1, Option.bind_some, f1, Option.bind_some]
    refine ⟨s2, true, k, rfl, f2, Or.inl ⟨by omega, by omega⟩, f3, f4.trans e5, f5.trans e6, f6.trans e8, ?_, f7⟩
    rw [← e3]; exact f8

theorem Buf.resend (hq : qmax ≤ 255) (k t : Nat) (h : Buf qmax A s) (ht : A ≤ t) (hk : t + k ≤ s.sent.length) :
    ∃ s', resend k (t % 256) s = some s' ∧ Buf qmax A s' ∧ s'.st = s.st ∧ s'.r = s.r ∧ s'.delivered = s.delivered ∧
      s'.downs = s.downs ∧ s'.sent = s.sent ∧ s'.notsent = s.notsent := by
  induction k generalizing s t with
  | zero => exact ⟨s, rfl, h, rfl, rfl, rfl, rfl, rfl, rfl⟩
  | succ k ih =>
    obtain ⟨m, h1, h2⟩ := h.held (t + 1) (by omega) (by omega)
    simp only [Ddcmp.resend, inc_mod, h2]
    obtain ⟨s', e1, e2⟩ := ih (s := sendData ((t + 1) % 256) m s) (t := t + 1)
      (h.cong rfl rfl rfl rfl rfl rfl rfl rfl) (by omega) (by show t + 1 + k ≤ s.sent.length; omega)
    exact ⟨s', e1, e2⟩

theorem Buf.retransmit (hq : qmax ≤ 255) (h : Buf qmax A s) :
    ∃ s', retransmit s = some s' ∧ Buf qmax A s' ∧ s'.st = s.st ∧ s'.r = s.r ∧ s'.delivered = s.delivered ∧
      s'.downs = s.downs ∧ s'.sent = s.sent ∧ s'.notsent = s.notsent := by
  unfold Ddcmp.retransmit
  rw [h.pend hq, h.pa]
  exact h.resend hq _ _ (Nat.le_refl _) (by have := h.le; omega)

end

/-- The numbers in a frame fit in a byte, as they do on the wire. -/
def Frame.ok : Frame → Prop
  | .ack r => r < 256
  | .nak _ r => r < 256
  | .rep n => n < 256
  | .data n r _ => n < 256 ∧ r < 256
  | _ => True

def Input.ok : Input → Prop
  | .packet f => f.ok
  | .err _ (some r) => r < 256
  | _ => True

def Ev.ok : Ev → Prop
  | .input i => i.ok
  | _ => True

/-- The acknowledgement a work item carries. -/
def Input.resp : Input → Option Nat
  | .packet f => respOf f
  | .err _ r => r
  | .timeout => none

/-- The message a work item carries, if its number is the one after the first `d`. -/
def Input.news (d : Nat) : Input → List Msg
  | .packet (.data num _ m) => if num = (d + 1) % 256 then [m] else []
  | _ => []

/-- Effect of a work item in the running state, with the number of messages it releases and the messages it
delivers. -/
structure Eff (qmax A : Nat) (i : Input) (s s' : Stn) : Prop where
  buf : ∃ k, (Buf qmax (A + k) s' ∧ Full qmax (A + k) s') ∧
    (match i.resp with | some resp => Releases A s.sent.length resp k | none => k = 0)
  st : s'.st = .running
  downs : s'.downs = s.downs
  sent : s.sent <+: s'.sent
  del : s'.delivered = s.delivered ++ i.news s.delivered.length

theorem same_ackIfNeeded (s : Stn) : (ackIfNeeded s).st = s.st ∧ (ackIfNeeded s).downs = s.downs ∧
    (ackIfNeeded s).sent = s.sent ∧ (ackIfNeeded s).delivered = s.delivered ∧
    (ackIfNeeded s).notsent = s.notsent := by
  unfold ackIfNeeded
  split <;> exact ⟨rfl, rfl, rfl, rfl, rfl⟩

theorem Full.cong {qmax A : Nat} {s s' : Stn} (h : Full qmax A s) (h1 : s'.notsent = s.notsent)
    (h2 : s'.sent = s.sent) : Full qmax A s' := by
  unfold Full; rw [h1, h2]; exact h

theorem running_eff {qmax A : Nat} {s : Stn} (hq : qmax ≤ 255) (h : Buf qmax A s) (hf : Full qmax A s)
    (hr : s.st = .running) {i : Input} (hi : i.ok) (hs : i ≠ .packet .start) :
    ∃ s', running qmax s i = some s' ∧ Eff qmax A i s s' := by
  have fin : ∀ s1 : Stn, Eff qmax A i s s1 → Eff qmax A i s (ackIfNeeded s1) := by
    intro s1 he
    obtain ⟨k, h1, h2⟩ := he.buf
    obtain ⟨e1, e2, e3, e4, e5⟩ := same_ackIfNeeded s1
    exact ⟨⟨k, ⟨h1.1.ackIfNeeded, h1.2.cong e5 e3⟩, h2⟩, e1.trans he.st, e2.trans he.downs,
      by rw [e3]; exact he.sent, by rw [e4]; exact he.del⟩
  cases i with
  | timeout =>
    exact ⟨_, rfl, fin _ ⟨⟨0, ⟨h.cong rfl rfl rfl rfl rfl rfl rfl rfl, hf⟩, rfl⟩, hr, rfl, List.prefix_refl _, by
      simp [sendRep, emit, Input.news]⟩⟩
  | err code r =>
    cases r with
    | none =>
      exact ⟨_, rfl, fin _ ⟨⟨0, ⟨h.cong rfl rfl rfl rfl rfl rfl rfl rfl, hf⟩, rfl⟩, hr, rfl, List.prefix_refl _, by
        simp [sendNak, emit, Input.news]⟩⟩
    | some r =>
      obtain ⟨s1, b, k, e1, e2, e3, e4, e5, e6, e7, e8, e9⟩ := h.processAck hq false r hi hf hr
      refine ⟨ackIfNeeded (sendNak code s1), by simp [running, e1], fin _ ?_⟩
      exact ⟨⟨k, ⟨e2.cong rfl rfl rfl rfl rfl rfl rfl rfl, e9⟩, e3⟩, e4, e7, e8, by
        simp [sendNak, emit, e6, Input.news]⟩
  | packet f =>
    cases f with
    | start => exact absurd rfl hs
    | stack =>
      exact ⟨_, rfl, fin _ ⟨⟨0, ⟨h.cong rfl rfl rfl rfl rfl rfl rfl rfl, hf⟩, rfl⟩, hr, rfl, List.prefix_refl _, by
        simp [Input.news]⟩⟩
    | ack r =>
      obtain ⟨s1, b, k, e1, e2, e3, e4, e5, e6, e7, e8, e9⟩ := h.processAck hq false r hi hf hr
      refine ⟨ackIfNeeded s1, by simp [running, e1], fin _ ?_⟩
      exact ⟨⟨k, ⟨e2, e9⟩, e3⟩, e4, e7, e8, by simp [e6, Input.news]⟩
    | nak code r =>
      obtain ⟨s1, b, k, e1, e2, e3, e4, e5, e6, e7, e8, e9⟩ := h.processAck hq true r hi hf hr
      cases b
      · refine ⟨ackIfNeeded s1, by simp [running, e1], fin _ ?_⟩
        exact ⟨⟨k, ⟨e2, e9⟩, e3⟩, e4, e7, e8, by simp [e6, Input.news]⟩
      · obtain ⟨s2, f1, f2, f3, f4, f5, f6, f7, f8⟩ := e2.retransmit hq
        refine ⟨ackIfNeeded s2, by simp [running, e1, f1], fin _ ?_⟩
        exact ⟨⟨k, ⟨f2, e9.cong f8 f7⟩, e3⟩, f3.trans e4, f6.trans e7, by rw [f7]; exact e8, by
          simp [f5, e6, Input.news]⟩
    | rep num =>
      by_cases hn : num = s.r
      · exact ⟨ackIfNeeded { s with ackflag := true }, by simp [running, hn], fin _
          ⟨⟨0, ⟨h.cong rfl rfl rfl rfl rfl rfl rfl rfl, hf⟩, rfl⟩, hr, rfl, List.prefix_refl _, by simp [Input.news]⟩⟩
      · exact ⟨ackIfNeeded (sendNak 3 s), by simp [running, hn], fin _
          ⟨⟨0, ⟨h.cong rfl rfl rfl rfl rfl rfl rfl rfl, hf⟩, rfl⟩, hr, rfl, List.prefix_refl _, by
            simp [sendNak, emit, Input.news]⟩⟩
    | data num r m =>
      obtain ⟨s1, b, k, e1, e2, e3, e4, e5, e6, e7, e8, e9⟩ := h.processAck hq false r hi.2 hf hr
      have hinc : inc s1.r = (s.delivered.length + 1) % 256 := by rw [e5, h.qr, inc_mod]
      by_cases hn : num = inc s1.r
      · refine ⟨ackIfNeeded { s1 with r := inc s1.r, ackflag := true, delivered := s1.delivered ++ [m] },
          by simp [running, e1, hn], fin _ ⟨⟨k, ⟨?_, e9⟩, e3⟩, e4, e7, e8, ?_⟩⟩
        · refine ⟨e2.pa, e2.pn, e2.le, e2.win, e2.acc, e2.held, e2.free, ?_⟩
          show inc s1.r = (s1.delivered ++ [m]).length % 256
          rw [hinc, e6]; simp
        · rw [hinc] at hn
          simp [hn, e6, Input.news]
      · refine ⟨s1, by simp [running, e1, hn], ⟨⟨k, ⟨e2, e9⟩, e3⟩, e4, e7, e8, ?_⟩⟩
        rw [hinc] at hn
        simp [hn, e6, Input.news]

/-- State of a station at any time: buffer in order; nothing in it unless running. -/
structure Safe (qmax : Nat) (s : Stn) : Prop where
  buf : ∃ A, Buf qmax A s ∧ Full qmax A s
  idle : s.st ≠ .running → s.sent = [] ∧ s.notsent = [] ∧ s.delivered = [] ∧ s.accepted = []

theorem safe_connected (qmax : Nat) (out : List Frame) (d : Nat) : Safe qmax (connected out d) := by
  refine ⟨⟨0, ?_, fun h => absurd rfl h⟩, fun _ => ⟨rfl, rfl, rfl, rfl⟩⟩
  constructor <;> simp [connected, emit]
  intros; omega

theorem safe_idle {qmax : Nat} {s s' : Stn} (h : Safe qmax s) (hs : s.st ≠ .running) (h1 : s'.a = s.a) (h2 : s'.n = s.n)
    (h3 : s'.sent = s.sent) (h4 : s'.accepted = s.accepted) (h5 : s'.notsent = s.notsent) (h6 : s'.unack = s.unack)
    (h7 : s'.r = s.r) (h8 : s'.delivered = s.delivered) : Safe qmax s' := by
  obtain ⟨A, hA, hF⟩ := h.buf
  refine ⟨⟨A, hA.cong h1 h2 h3 h4 h5 h6 h7 h8, hF.cong h5 h3⟩, fun _ => ?_⟩
  obtain ⟨i1, i2, i3, i4⟩ := h.idle hs
  exact ⟨h3.trans i1, h5.trans i2, h8.trans i3, h4.trans i4⟩

theorem Buf.safe {qmax A : Nat} {s : Stn} (h : Buf qmax A s) (hf : Full qmax A s) (hr : s.st = .running) :
    Safe qmax s :=
  ⟨⟨A, h, hf⟩, fun h' => absurd hr h'⟩

theorem running_safe {qmax : Nat} {s : Stn} (hq : qmax ≤ 255) (h : Safe qmax s) (hr : s.st = .running) {i : Input}
    (hi : i.ok) : ∃ s', running qmax s i = some s' ∧ Safe qmax s' := by
  obtain ⟨A, hA, hF⟩ := h.buf
  by_cases hs : i = .packet .start
  · subst hs
    exact ⟨_, rfl, safe_connected _ _ _⟩
  · obtain ⟨s', e1, e2⟩ := running_eff hq hA hF hr hi hs
    obtain ⟨k, hk, _⟩ := e2.buf
    exact ⟨s', e1, hk.1.safe hk.2 e2.st⟩

theorem client_safe {qmax : Nat} {s : Stn} (hq : qmax ≤ 255) (h : Safe qmax s) (m : Msg) :
    ∃ s', clientSend qmax m s = some s' ∧ Safe qmax s' ∧ s'.a = s.a ∧ s'.st = s.st ∧ s'.delivered = s.delivered ∧
      s'.downs = s.downs ∧ s'.accepted = s.accepted ++ (if s.st = .running then [m] else []) := by
  by_cases hr : s.st = .running
  · obtain ⟨A, hA, hF⟩ := h.buf
    have hp := hA.pend hq
    have h1 := hA.le
    have h2 := hA.win
    simp only [clientSend, if_pos hr]
    cases hc : cansend qmax s
    · refine ⟨{ s with accepted := s.accepted ++ [m], notsent := s.notsent ++ [m] }, ?_, ?_, rfl, rfl, rfl, rfl, rfl⟩
      · unfold send
        rw [if_pos hr, if_pos]
        show (!cansend qmax s) = true
        rw [hc]; rfl
      · refine Buf.safe (A := A) ⟨hA.pa, hA.pn, hA.le, hA.win, ?_, hA.held, hA.free, hA.qr⟩ ?_ hr
        · show s.accepted ++ [m] = s.sent ++ (s.notsent ++ [m])
          rw [hA.acc]; simp
        · intro _
          show s.sent.length = A + qmax
          simp only [cansend, decide_eq_false_iff_not] at hc
          omega
    · have hn : s.notsent = [] := by
        refine Classical.byContradiction fun hn => ?_
        have := hF hn
        simp only [cansend, decide_eq_true_eq] at hc
        omega
      have hB : Buf qmax A { s with accepted := s.accepted ++ [m], notsent := [m] } := by
        refine ⟨hA.pa, hA.pn, hA.le, hA.win, ?_, hA.held, hA.free, hA.qr⟩
        show s.accepted ++ [m] = s.sent ++ [m]
        rw [hA.acc, hn]; simp
      obtain ⟨f1, f2⟩ := hB.take hq m [] hc rfl
      have f1' : s.unack (inc s.n) = none := f1
      refine ⟨_, send_open (s := { s with accepted := s.accepted ++ [m] }) hr hc f1', ?_, rfl, rfl, rfl, rfl, rfl⟩
      simp only [Bool.false_eq_true, if_false]
      refine Buf.safe (A := A) (f2.cong rfl rfl rfl rfl ?_ rfl rfl rfl) ?_ hr
      · exact hn
      · intro h'; exact absurd hn h'
  · exact ⟨s, by simp [clientSend, hr, send], h, rfl, rfl, rfl, rfl, by simp [hr]⟩

theorem one_safe {qmax : Nat} {s : Stn} (hq : qmax ≤ 255) (h : Safe qmax s) (e : Ev) (he : e.ok) :
    ∃ s', one qmax s e = some s' ∧ Safe qmax s' := by
  have hent : ∀ (b : Bool), s.st ≠ .running → Safe qmax (enterRunning b s) := by
    intro b hn
    cases b <;> exact safe_idle h hn rfl rfl rfl rfl rfl rfl rfl rfl
  cases e with
  | client m =>
    obtain ⟨s', e1, e2, _⟩ := client_safe hq h m
    exact ⟨s', e1, e2⟩
  | input i =>
    simp only [one, handle]
    cases hst : s.st with
    | running => exact running_safe hq h hst he
    | istart =>
      have hn : s.st ≠ .running := by rw [hst]; decide
      refine ⟨_, rfl, ?_⟩
      cases i with
      | timeout => exact safe_idle h hn rfl rfl rfl rfl rfl rfl rfl rfl
      | err c r => exact h
      | packet f =>
        cases f with
        | start => exact safe_idle h hn rfl rfl rfl rfl rfl rfl rfl rfl
        | stack => exact hent true hn
        | ack r => exact h
        | nak c r => exact h
        | rep n => exact h
        | data n r m => exact h
    | astart =>
      have hn : s.st ≠ .running := by rw [hst]; decide
      cases i with
      | timeout => exact ⟨_, rfl, safe_idle h hn rfl rfl rfl rfl rfl rfl rfl rfl⟩
      | err c r => exact ⟨s, rfl, h⟩
      | packet f =>
        cases f with
        | start => exact ⟨s, rfl, h⟩
        | stack => exact ⟨_, rfl, hent true hn⟩
        | nak c r => exact ⟨s, rfl, h⟩
        | rep n => exact ⟨s, rfl, h⟩
        | ack r =>
          simp only [astart]
          by_cases h0 : r = 0
          · rw [if_pos h0]
            exact running_safe hq (hent false hn) rfl he
          · rw [if_neg h0]; exact ⟨s, rfl, h⟩
        | data n r m =>
          simp only [astart]
          by_cases h0 : r = 0
          · rw [if_pos h0]
            exact running_safe hq (hent false hn) rfl he
          · rw [if_neg h0]; exact ⟨s, rfl, h⟩

theorem runOne_safe {qmax : Nat} {s : Stn} (hq : qmax ≤ 255) (h : Safe qmax s) (es : List Ev) (he : ∀ e ∈ es, e.ok) :
    ∃ s', runOne qmax s es = some s' ∧ Safe qmax s' := by
  induction es generalizing s with
  | nil => exact ⟨s, rfl, h⟩
  | cons e es ih =>
    obtain ⟨s1, e1, h1⟩ := one_safe hq h e (he e (by simp))
    obtain ⟨s2, e2, h2⟩ := ih h1 (fun e' h' => he e' (by simp [h']))
    exact ⟨s2, by simp [runOne, e1, e2], h2⟩

end Verif.Ddcmp
