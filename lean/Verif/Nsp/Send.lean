import Verif.Nsp.SeqLemmas
import Mathlib.Data.List.Basic

/-! The invariant of the sending half of the data subchannel. -/
namespace Verif.Nsp

/-- a slice: BOM, EOM, payload -/
abbrev Sg := Bool × Bool × Bytes

/-- change the acknowledgment bookkeeping only -/
def tweak (c : Conn) (a h a' h' : Bool) : Conn :=
  { c with data := { c.data with ackpending := a, hold := h },
           other := { c.other with ackpending := a', hold := h' } }

theorem tweak_self (c : Conn) :
    tweak c c.data.ackpending c.data.hold c.other.ackpending c.other.hold = c := rfl

theorem setAcks_form (c : Conn) (ch : Chan) (m : Msg) (ex : Bool) :
    ∃ a h a' h' k1 k2, setAcks c ch m ex = (tweak c a h a' h', { m with ack := k1, ack2 := k2 }) ∧
      (k1 = m.ack ∨ k1 = some ⟨(c.sub ch).acknum, 0⟩) ∧
      (k2 = m.ack2 ∨ k2 = some ⟨(c.sub ch.cross).acknum, 2⟩) := by
  cases ch
  · unfold setAcks setAcks1 setAcks2
    split_ifs
    · exact ⟨false, false, false, false, _, _, rfl, Or.inr rfl, Or.inr rfl⟩
    · exact ⟨false, false, _, _, _, _, rfl, Or.inr rfl, Or.inl rfl⟩
    · exact ⟨_, _, false, false, _, _, rfl, Or.inl rfl, Or.inr rfl⟩
    · exact ⟨_, _, _, _, _, _, rfl, Or.inl rfl, Or.inl rfl⟩
  · unfold setAcks setAcks1 setAcks2
    split_ifs
    · exact ⟨false, false, false, false, _, _, rfl, Or.inr rfl, Or.inr rfl⟩
    · exact ⟨_, _, false, false, _, _, rfl, Or.inr rfl, Or.inl rfl⟩
    · exact ⟨false, false, _, _, _, _, rfl, Or.inl rfl, Or.inr rfl⟩
    · exact ⟨_, _, _, _, _, _, rfl, Or.inl rfl, Or.inl rfl⟩

/-- what `txqentry.send` may do to the packet -/
structure Refill (c : Conn) (ch : Chan) (m m' : Msg) : Prop where
  dst : m'.dst = m.dst
  src : m'.src = m.src
  body : m'.body = m.body ∨
    ∃ r r' f i s p, m.body = .connInit r f i s p ∧ m'.body = .connInit r' f i s p
  ack : m'.ack = m.ack ∨ m'.ack = some ⟨(c.sub ch).acknum, 0⟩
  ack2 : m'.ack2 = m.ack2 ∨ m'.ack2 = some ⟨(c.sub ch.cross).acknum, 2⟩

theorem Refill.data {c : Conn} {ch : Chan} {m m' : Msg} (h : Refill c ch m m')
    (hd : m.body.isAckHdr = true) : m'.body = m.body := by
  rcases h.body with h | ⟨r, r', f, i, s, p, h1, h2⟩
  · exact h
  · rw [h1] at hd; simp [Body.isAckHdr] at hd

theorem Refill.hdr {c : Conn} {ch : Chan} {m m' : Msg} (h : Refill c ch m m') :
    m'.body.isAckHdr = m.body.isAckHdr := by
  rcases h.body with h | ⟨r, r', f, i, s, p, h1, h2⟩
  · rw [h]
  · rw [h1, h2]; rfl

theorem prep_form (c : Conn) (ch : Chan) (x : QEnt) :
    ∃ a h a' h' m', prep c ch x = (tweak c a h a' h', m') ∧ Refill c ch x.msg m' := by
  unfold prep
  cases hb : x.msg.body with
  | connInit r f i s p =>
    exact ⟨_, _, _, _, _, rfl, rfl, rfl, Or.inr ⟨_, _, _, _, _, _, hb, rfl⟩, Or.inl rfl, Or.inl rfl⟩
  | dataSeg => 
    obtain ⟨a, h, a', h', k1, k2, e, e1, e2⟩ := setAcks_form c ch x.msg false
    exact ⟨a, h, a', h', _, e, rfl, rfl, Or.inl rfl, e1, e2⟩
  | intMsg => 
    obtain ⟨a, h, a', h', k1, k2, e, e1, e2⟩ := setAcks_form c ch x.msg false
    exact ⟨a, h, a', h', _, e, rfl, rfl, Or.inl rfl, e1, e2⟩
  | linkSvc => 
    obtain ⟨a, h, a', h', k1, k2, e, e1, e2⟩ := setAcks_form c ch x.msg false
    exact ⟨a, h, a', h', _, e, rfl, rfl, Or.inl rfl, e1, e2⟩
  | ackData => 
    obtain ⟨a, h, a', h', k1, k2, e, e1, e2⟩ := setAcks_form c ch x.msg false
    exact ⟨a, h, a', h', _, e, rfl, rfl, Or.inl rfl, e1, e2⟩
  | ackOther => 
    obtain ⟨a, h, a', h', k1, k2, e, e1, e2⟩ := setAcks_form c ch x.msg false
    exact ⟨a, h, a', h', _, e, rfl, rfl, Or.inl rfl, e1, e2⟩
  | ackConn => exact ⟨_, _, _, _, _, rfl, rfl, rfl, Or.inl rfl, Or.inl rfl, Or.inl rfl⟩
  | connConf => exact ⟨_, _, _, _, _, rfl, rfl, rfl, Or.inl rfl, Or.inl rfl, Or.inl rfl⟩
  | discInit => exact ⟨_, _, _, _, _, rfl, rfl, rfl, Or.inl rfl, Or.inl rfl, Or.inl rfl⟩
  | discConf => exact ⟨_, _, _, _, _, rfl, rfl, rfl, Or.inl rfl, Or.inl rfl, Or.inl rfl⟩

/-- the entry after `txqentry.send` -/
def fired (x : QEnt) (m : Msg) : QEnt :=
  { x with msg := m, tries := x.tries + 1, sent := true, timer := true }

theorem qsend_form (c : Conn) (ch : Chan) (x : QEnt) :
    ∃ a h a' h' m', qsend c ch x = ((tweak c a h a' h').emit (.tx m'), fired x m') ∧
      Refill c ch x.msg m' := by
  obtain ⟨a, h, a', h', m', e, hr⟩ := prep_form c ch x
  exact ⟨a, h, a', h', m', by unfold qsend fired; rw [e], hr⟩

theorem sendAck_form (c : Conn) (ch : Chan) :
    ∃ a h a' h' k2, sendAck c ch = (tweak c a h a' h').emit (.tx
      { mk c (ackBody ch) with
        ack := some ⟨(c.sub ch).acknum, 0⟩, ack2 := k2 }) ∧
      (k2 = none ∨ k2 = some ⟨(c.sub ch.cross).acknum, 2⟩) := by
  have : ∃ a h a' h' k2, setAcks c ch
      (mk c (ackBody ch)) true =
      (tweak c a h a' h',
        { mk c (ackBody ch) with
          ack := some ⟨(c.sub ch).acknum, 0⟩, ack2 := k2 }) ∧
      (k2 = none ∨ k2 = some ⟨(c.sub ch.cross).acknum, 2⟩) := by
    cases ch
    · unfold setAcks setAcks1 setAcks2
      simp only [Bool.true_or, if_true]
      split_ifs
      · exact ⟨false, false, false, false, _, rfl, Or.inr rfl⟩
      · exact ⟨false, false, _, _, none, rfl, Or.inl rfl⟩
    · unfold setAcks setAcks1 setAcks2
      simp only [Bool.true_or, if_true]
      split_ifs
      · exact ⟨false, false, false, false, _, rfl, Or.inr rfl⟩
      · exact ⟨_, _, false, false, none, rfl, Or.inl rfl⟩
  obtain ⟨a, h, a', h', k2, e, hk⟩ := this
  exact ⟨a, h, a', h', k2, by unfold sendAck; rw [e], hk⟩

/-- replace the data transmit queue -/
def withQ (c : Conn) (q : List QEnt) : Conn := { c with data := { c.data with pending := q } }

/-- A control packet in the data transmit queue. -/
def IsCtl (q : QEnt) : Prop := q.segnum = 0 ∧ q.msg.body.isAckHdr = false

/-- The queue entry for segment number `k` of the stream `segs`. -/
structure IsDat (segs : List Sg) (k : Nat) (q : QEnt) : Prop where
  num : q.segnum = k
  msgnum : q.msgnum = 1 + (segs.take (k - 1)).countP (·.2.1)
  body : ∃ dly s, segs[k - 1]? = some s ∧ q.msg.body = .dataSeg k dly s.1 s.2.1 s.2.2

/-- Sending half of the data subchannel: `segs` are the slices accepted so far, `f` is the
number of the first one not yet acknowledged. -/
structure SIx (segs : List Sg) (ctl dat : List QEnt) (f : Nat) (c : Conn) : Prop where
  pend : c.data.pending = ctl ++ dat
  ctlOk : ∀ x ∈ ctl, IsCtl x
  datOk : ∀ i x, dat[i]? = some x → IsDat segs (f + i) x
  len : segs.length + 1 = c.data.nextseg
  next : f + dat.length = c.data.nextseg
  nm : c.data.nextmsg = 1 + segs.countP (·.2.1)
  fpos : 1 ≤ f
  lo : f ≤ c.data.maxseqsent + 1
  hi : c.data.maxseqsent < c.data.nextseg
  win : c.data.maxseqsent + 1 ≤ f + c.cfg.qmax
  tried : ∀ x ∈ dat, 0 < x.tries → x.segnum ≤ c.data.maxseqsent
  armed : ∀ x ∈ ctl ++ dat, x.sent = true ∨ x.timer = true → 0 < x.tries
  txok : ∀ m, Out.tx m ∈ c.log → ∀ k dly b e p, m.body = .dataSeg k dly b e p →
    1 ≤ k ∧ k ≤ c.data.maxseqsent ∧ segs[k - 1]? = some (b, e, p)

def SI (segs : List Sg) (f : Nat) (c : Conn) : Prop := ∃ ctl dat, SIx segs ctl dat f c

/-- The parts of the connection `SI` looks at. -/
structure SameSend (c c' : Conn) : Prop where
  cfg : c'.cfg = c.cfg
  pending : c'.data.pending = c.data.pending
  nextseg : c'.data.nextseg = c.data.nextseg
  nextmsg : c'.data.nextmsg = c.data.nextmsg
  maxseqsent : c'.data.maxseqsent = c.data.maxseqsent
  log : ∀ m, Out.tx m ∈ c'.log → m.body.isData = true → Out.tx m ∈ c.log

theorem SameSend.refl (c : Conn) : SameSend c c := ⟨rfl, rfl, rfl, rfl, rfl, fun _ h _ => h⟩

theorem SameSend.trans {a b c : Conn} (h : SameSend a b) (h' : SameSend b c) : SameSend a c :=
  ⟨h'.cfg.trans h.cfg, h'.pending.trans h.pending, h'.nextseg.trans h.nextseg,
    h'.nextmsg.trans h.nextmsg, h'.maxseqsent.trans h.maxseqsent,
    fun m hm hd => h.log m (h'.log m hm hd) hd⟩

theorem SIx.same {segs : List Sg} {ctl dat : List QEnt} {f : Nat} {c c' : Conn}
    (h : SIx segs ctl dat f c) (s : SameSend c c') : SIx segs ctl dat f c' where
  pend := by rw [s.pending]; exact h.pend
  ctlOk := h.ctlOk
  datOk := h.datOk
  len := by rw [s.nextseg]; exact h.len
  next := by rw [s.nextseg]; exact h.next
  nm := by rw [s.nextmsg]; exact h.nm
  fpos := h.fpos
  lo := by rw [s.maxseqsent]; exact h.lo
  hi := by rw [s.maxseqsent, s.nextseg]; exact h.hi
  win := by rw [s.maxseqsent, s.cfg]; exact h.win
  tried := by rw [s.maxseqsent]; exact h.tried
  armed := h.armed
  txok := by
    rw [s.maxseqsent]
    intro m hm k dly b e p hb
    exact h.txok m (s.log m hm (by rw [hb]; rfl)) k dly b e p hb

theorem SI.same {segs : List Sg} {f : Nat} {c c' : Conn} (h : SI segs f c) (s : SameSend c c') :
    SI segs f c' := by
  obtain ⟨ctl, dat, h⟩ := h
  exact ⟨ctl, dat, h.same s⟩

theorem sameSend_emit {c : Conn} {o : Out} (ho : ∀ m, o = .tx m → m.body.isData = false) :
    SameSend c (c.emit o) :=
  ⟨rfl, rfl, rfl, rfl, rfl, fun m hm hd => by
    simp only [Conn.emit, List.mem_append, List.mem_singleton] at hm
    rcases hm with hm | hm
    · exact hm
    · rw [ho m hm.symm] at hd; exact absurd hd (by decide)⟩

theorem sameSend_tweak (c : Conn) (a h a' h' : Bool) : SameSend c (tweak c a h a' h') :=
  ⟨rfl, rfl, rfl, rfl, rfl, fun _ h _ => h⟩

theorem sameSend_sendAck (c : Conn) (ch : Chan) : SameSend c (sendAck c ch) := by
  obtain ⟨a, h, a', h', k2, e, -⟩ := sendAck_form c ch
  rw [e]
  refine (sameSend_tweak c a h a' h').trans (sameSend_emit ?_)
  intro m hm
  cases hm
  cases ch <;> rfl

/-- maxUpd in label terms -/
theorem maxUpd_ok {c : Conn} {ch : Chan} {k : Nat} (h1 : k ≤ (c.sub ch).maxseqsent + 2047)
    (h2 : (c.sub ch).maxseqsent ≤ k + 2047) :
    maxUpd c ch k = .ok (c.setSub ch { c.sub ch with maxseqsent := max (c.sub ch).maxseqsent k }) := by
  unfold maxUpd
  rw [seqGt_eq]
  rcases Nat.lt_or_ge (c.sub ch).maxseqsent k with h | h
  · rw [dist_of_le (by omega) (by omega), if_neg (by omega), ok_bind,
      decide_eq_true (by omega), if_pos rfl, Nat.max_eq_right (by omega)]
  · rcases Nat.lt_or_ge k (c.sub ch).maxseqsent with h' | h'
    · rw [dist_of_lt h' (by omega), if_neg (by omega), ok_bind, decide_eq_false (by omega),
        Nat.max_eq_left (by omega)]
      cases ch <;> rfl
    · have : k = (c.sub ch).maxseqsent := by omega
      rw [dist_of_le (by omega) (by omega), if_neg (by omega), ok_bind, decide_eq_false (by omega),
        Nat.max_eq_left (by omega)]
      cases ch <;> rfl

theorem headSeg_le {segs : List Sg} {ctl dat : List QEnt} {f : Nat} {c : Conn}
    (h : SIx segs ctl dat f c) : headSeg (ctl ++ dat) ≤ f := by
  cases ctl with
  | nil =>
    cases dat with
    | nil => exact Nat.zero_le _
    | cons x l => exact Nat.le_of_eq (h.datOk 0 x rfl).num
  | cons x l =>
    have := (h.ctlOk x (by simp)).1
    simp only [List.cons_append, headSeg, this]; omega

theorem flowOk_window {c : Conn} {hd : Nat} {x : QEnt} (h : flowOk c hd x = true) :
    x.segnum + 1 ≤ hd + c.cfg.qmax := by
  unfold flowOk at h
  simp only [Bool.and_eq_true, decide_eq_true_eq] at h
  have := h.1.1
  omega

theorem IsDat.refill {segs : List Sg} {k : Nat} {x : QEnt} {c : Conn} {m : Msg}
    (h : IsDat segs k x) (hr : Refill c .data x.msg m) : IsDat segs k (fired x m) := by
  obtain ⟨dly, s, hs, hb⟩ := h.body
  exact ⟨h.num, h.msgnum, dly, s, hs, by
    show m.body = _
    rw [hr.data (by rw [hb]; rfl), hb]⟩

/-- Sending one data entry of the queue. -/
theorem SIx.fire_dat {segs : List Sg} {ctl d1 d2 : List QEnt} {x : QEnt} {f : Nat} {c : Conn}
    {hd : Nat} {q : List QEnt} {k : Nat} {dly b e : Bool} {p : Bytes}
    (hq : c.cfg.qmax ≤ 2047)
    (h : SIx segs ctl (d1 ++ x :: d2) f (withQ c q)) (hb : x.msg.body = .dataSeg k dly b e p)
    (hfl : flowOk c hd x = true) (hhd : hd ≤ f) :
    ∃ c' m', maxUpd (qsend c .data x).1 .data k = .ok c' ∧ (qsend c .data x).2 = fired x m' ∧
      SIx segs ctl (d1 ++ fired x m' :: d2) f (withQ c' (ctl ++ (d1 ++ fired x m' :: d2))) ∧
      c'.cfg = c.cfg := by
  obtain ⟨a, h1, a', h1', m', eq, hr⟩ := qsend_form c .data x
  have hdat := h.datOk d1.length x (by simp)
  obtain ⟨dly', s, hs, hb'⟩ := hdat.body
  rw [hb] at hb'
  obtain ⟨rfl, rfl, rfl, rfl, rfl⟩ := Body.dataSeg.inj hb'
  have hwin := flowOk_window hfl
  have hnum := hdat.num
  have hlo : f ≤ c.data.maxseqsent + 1 := h.lo
  have hhi : c.data.maxseqsent < c.data.nextseg := h.hi
  have hw : c.data.maxseqsent + 1 ≤ f + c.cfg.qmax := h.win
  have hnext := h.next
  simp only [List.length_append, List.length_cons] at hnext
  have hnext' : f + (d1.length + (d2.length + 1)) = c.data.nextseg := hnext
  refine ⟨((tweak c a h1 a' h1').emit (.tx m')).setSub .data
    { ((tweak c a h1 a' h1').emit (.tx m')).sub .data with
      maxseqsent := max c.data.maxseqsent (f + d1.length) }, m', ?_, by rw [eq], ?_, ?_⟩
  · rw [eq]
    exact maxUpd_ok (by show _ ≤ c.data.maxseqsent + 2047; omega)
      (by show c.data.maxseqsent ≤ _; omega)
  · refine ⟨rfl, h.ctlOk, ?_, h.len, ?_, h.nm, h.fpos, ?_, ?_, ?_, ?_, ?_, ?_⟩
    · intro i y hy
      by_cases hi : i = d1.length
      · subst hi
        rw [List.getElem?_append_right (Nat.le_refl _), Nat.sub_self] at hy
        cases hy
        exact hdat.refill hr
      · apply h.datOk i y
        rw [← hy]
        rcases Nat.lt_or_ge i d1.length with hlt | hge
        · rw [List.getElem?_append_left hlt, List.getElem?_append_left hlt]
        · rw [List.getElem?_append_right hge, List.getElem?_append_right hge]
          obtain ⟨j, hj⟩ : ∃ j, i - d1.length = j + 1 := ⟨i - d1.length - 1, by omega⟩
          rw [hj]; rfl
    · simp only [List.length_append, List.length_cons]
      exact hnext'
    · show f ≤ max c.data.maxseqsent (f + d1.length) + 1; omega
    · show max c.data.maxseqsent (f + d1.length) < c.data.nextseg; omega
    · show max c.data.maxseqsent (f + d1.length) + 1 ≤ f + c.cfg.qmax
      omega
    · intro y hy ht
      show y.segnum ≤ max c.data.maxseqsent (f + d1.length)
      rw [List.mem_append, List.mem_cons] at hy
      rcases hy with hy | rfl | hy
      · have : y.segnum ≤ c.data.maxseqsent := h.tried y (by simp [hy]) ht
        omega
      · show x.segnum ≤ _
        omega
      · have : y.segnum ≤ c.data.maxseqsent := h.tried y (by simp [hy]) ht
        omega
    · intro y hy hs'
      simp only [List.mem_append, List.mem_cons] at hy
      rcases hy with hy | hy | rfl | hy
      · exact h.armed y (by simp [hy]) hs'
      · exact h.armed y (by simp [hy]) hs'
      · exact Nat.succ_pos _
      · exact h.armed y (by simp [hy]) hs'
    · intro m hm k2 dly2 b2 e2 p2 hb2
      show 1 ≤ k2 ∧ k2 ≤ max c.data.maxseqsent (f + d1.length) ∧ _
      have hm' : Out.tx m ∈ c.log ++ [.tx m'] := hm
      rw [List.mem_append, List.mem_singleton] at hm'
      rcases hm' with hm' | hm'
      · obtain ⟨t1, t2, t3⟩ := h.txok m hm' k2 dly2 b2 e2 p2 hb2
        have t2' : k2 ≤ c.data.maxseqsent := t2
        exact ⟨t1, by omega, t3⟩
      · obtain rfl : m = m' := by simpa using hm'
        rw [hr.data (by rw [hb]; rfl), hb] at hb2
        obtain ⟨rfl, rfl, rfl, rfl, rfl⟩ := Body.dataSeg.inj hb2
        have := h.fpos
        exact ⟨by omega, by omega, hs⟩
  · rfl

end Verif.Nsp
