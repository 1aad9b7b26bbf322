import Verif.Nsp.Send5
import Mathlib.Logic.Relation

/-! Every event of a connection is a sequence of small changes.  The relation `Mi` lists the kinds
of changes; `step_mis` (in `Micro2`) shows that a step consists of nothing else.  Invariants that
hold at every moment are then checked against the list. -/
namespace Verif.Nsp

/-- The subchannel and sequence number of a packet that has one. -/
def Body.seq : Body → Option (Chan × Nat)
  | .dataSeg k .. => some (.data, k)
  | .intMsg k _ => some (.other, k)
  | .linkSvc k .. => some (.other, k)
  | _ => none

/-- Packets sent without being queued. -/
def Body.unqueued : Body → Bool
  | .ackData | .ackOther | .ackConn | .connConf .. | .discConf _ => true
  | _ => false

/-- Packets queued on the data subchannel that are not data. -/
def Body.ctl : Body → Bool
  | .connInit .. | .connConf .. | .discInit .. => true
  | _ => false

/-- The ack fields of a packet the connection sends now on subchannel `ch`. -/
def AckFresh (c : Conn) (ch : Chan) (m : Msg) : Prop :=
  (m.ack = none ∨ m.ack = some ⟨(c.sub ch).acknum, 0⟩) ∧
  (m.ack2 = none ∨ m.ack2 = some ⟨(c.sub ch.cross).acknum, 2⟩)

/-- `finish` of `dataLs` without the `send_blocked` call. -/
def lsFin (fcmod : Nat) (fcval : Int) (c : Conn) : Conn :=
  if fcmod ≠ 0 then { c.emit (.ls fcmod 0 fcval true) with
    data := { (c.emit (.ls fcmod 0 fcval true)).data with xon := fcmod == 2 } }
  else c.emit (.ls fcmod 0 fcval true)

/-- Whether a link service message for the data subchannel is acted on. -/
def lsOk (c : Conn) (fcval : Int) : Bool :=
  if c.data.flow = 2 then decide (0 ≤ fcval ∧ c.data.maxmsg + fcval < c.data.maxackseg + 128)
  else if c.data.flow = 1 then decide ((c.data.maxackseg : Int) ≤ c.data.maxseg + fcval ∧
        c.data.maxseg + fcval < c.data.maxackseg + 128)
  else true

/-- The credit update. -/
def lsCredit (c : Conn) (fcval : Int) : Conn :=
  if c.data.flow = 2 then { c with data := { c.data with maxmsg := c.data.maxmsg + fcval } }
  else if c.data.flow = 1 then { c with data := { c.data with maxseg := c.data.maxseg + fcval } }
  else c

/-- The effect of a link service message before blocked segments are tried again. -/
def lsEff (c : Conn) (fcmod fcvalInt : Nat) (fcval : Int) : Conn :=
  if fcvalInt = 0 then
    if lsOk c fcval then lsFin fcmod fcval (lsCredit c fcval)
    else c.emit (.ls fcmod 0 fcval false)
  else otherLs c fcmod fcvalInt fcval

/-- What passing an in-sequence packet up does at once. -/
def deliver (c : Conn) (m : Msg) : Conn :=
  match m.body with
  | .dataSeg _ _ bom eom p => toScData c bom eom p
  | .intMsg _ p => c.emit (.scInt p)
  | .linkSvc _ fcmod fcvalInt fcval => lsEff c fcmod fcvalInt fcval
  | _ => c

/-- `accept1` up to the `deliver` call. -/
def book (c : Conn) (ch : Chan) (m : Msg) : Conn :=
  (c.setSub ch { c.sub ch with acknum := (c.sub ch).acknum + 1, ackpending := true }).emit (.up ch m)

/-- take a number out of the out of order cache -/
def eraseO (c : Conn) (ch : Chan) (w : Nat) : Conn :=
  c.setSub ch { c.sub ch with ooo := oooErase (c.sub ch).ooo w }

/-- The packet received, if any, with the number last accepted on its subchannel at that moment. -/
abbrev Inp := Option (Msg × Nat)

/-- One small change while processing an event; `inp` describes the packet received, if any. -/
inductive Mi (inp : Inp) : Conn → Conn → Prop
  | flags (c : Conn) (hs : c.state ≠ .closed) (a h a' h' : Bool) : Mi inp c (tweak c a h a' h')
  | timer (c : Conn) (hs : c.state ≠ .closed) (b : Bool) : Mi inp c { c with timer := b }
  | opt (c : Conn) (b : Bool) : Mi inp c ({ c with rsts := b }.emit (.opt b))
  | send (c : Conn) (hs : c.state ≠ .closed) (ch : Chan) (m : Msg) (hb : m.body.unqueued = true)
      (ha : AckFresh c ch m) (hch : m.body = .ackData ∧ ch = .data ∨ m.body = .ackOther ∧ ch = .other ∨
        m.ack = none ∧ m.ack2 = none) : Mi inp c (c.emit (.tx m))
  | fire (c : Conn) (hs : c.state ≠ .closed) (ch : Chan) (i : Nat) (x : QEnt) (m : Msg)
      (hx : (c.sub ch).pending[i]? = some x) (ht : x.sent = false ∨ x.tries < c.cfg.retransmits)
      (hr : Refill c ch x.msg m)
      (hf : x.msg.body.isData = true → flowOk c (headSeg (c.sub ch).pending) x = true) :
      Mi inp c ((setPending c ch ((c.sub ch).pending.set i (fired x m))).emit (.tx m))
  | block (c : Conn) (hs : c.state ≠ .closed) (ch : Chan) (i : Nat) (x : QEnt)
      (hx : (c.sub ch).pending[i]? = some x) (ht : x.tries < c.cfg.retransmits) :
      Mi inp c (setPending c ch ((c.sub ch).pending.set i { x with sent := false, timer := false }))
  | idle (c : Conn) (hs : c.state ≠ .closed) (ch : Chan) (i : Nat) (x : QEnt)
      (hx : (c.sub ch).pending[i]? = some x) :
      Mi inp c (setPending c ch ((c.sub ch).pending.set i { x with timer := false }))
  | enqCtl (c : Conn) (hs : c.state ≠ .closed) (b : Body) (hb : b.ctl = true) :
      Mi inp c (withQ c (c.data.pending ++ [{ msg := mk c b }]))
  | enqData (c : Conn) (hs : c.state = .run) (hd : c.shutdown = false) (bom eom : Bool) (p : Bytes) :
      Mi inp c { c with data := { c.data with
        nextseg := c.data.nextseg + 1,
        nextmsg := if eom then c.data.nextmsg + 1 else c.data.nextmsg,
        pending := c.data.pending ++ [dataEnt c bom eom p] } }
  | enqInt (c : Conn) (hs : c.state = .run) (hd : c.shutdown = false) (p : Bytes) (hp : p.length ≤ 16)
      (hc : (c.other.nextmsg : Int) ≤ c.other.maxmsg) (hi : inp = none) :
      Mi inp c { c with other := { c.other with
        nextmsg := c.other.nextmsg + 1, seqnum := c.other.seqnum + 1,
        pending := c.other.pending ++
          [{ msg := mk c (.intMsg c.other.seqnum p), msgnum := c.other.nextmsg }] } }
  | enqLs (c : Conn) (hs : c.state ≠ .closed) (hi : inp = none) :
      Mi inp c { c with other := { c.other with
        nextmsg := c.other.nextmsg + 1, seqnum := c.other.seqnum + 1,
        pending := c.other.pending ++
          [{ msg := mk c (.linkSvc c.other.seqnum 0 0 0), msgnum := c.other.nextmsg }] } }
  | setMax (c : Conn) (hs : c.state ≠ .closed) (ch : Chan) (k : Nat)
      (hk : ch = .other → c.other.seqnum = k + 1) :
      Mi inp c (c.setSub ch { c.sub ch with maxseqsent := k })
  | drop (c : Conn) (hs : c.state ≠ .closed) (ch : Chan) (n k : Nat) :
      Mi inp c (c.setSub ch { c.sub ch with pending := (c.sub ch).pending.drop n, maxackseg := k })
  | upNew (c : Conn) (hs : c.state = .run ∨ c.state = .di) (ch : Chan) (m : Msg) (k : Nat)
      (hi : inp = some (m, (c.sub ch).acknum)) (hm : m.body.seq = some (ch, k))
      (hk : wire k = wire ((c.sub ch).acknum + 1))
      (ho : oooFind (c.sub ch).ooo (wire ((c.sub ch).acknum + 1)) = none) :
      Mi inp c (deliver (book c ch m) m)
  | upOld (c : Conn) (hs : c.state = .run ∨ c.state = .di) (ch : Chan) (m : Msg)
      (hi : inp.isSome = true) (hm : oooFind (c.sub ch).ooo (wire ((c.sub ch).acknum + 1)) = some m) :
      Mi inp c (deliver (book (eraseO c ch (wire ((c.sub ch).acknum + 1))) ch m) m)
  | oooAdd (c : Conn) (hs : c.state = .run ∨ c.state = .di) (ch : Chan) (m : Msg) (k : Nat)
      (hi : inp = some (m, (c.sub ch).acknum)) (hm : m.body.seq = some (ch, k))
      (h1 : seqLe k (c.sub ch).acknum = .ok false)
      (h2 : wire k ≠ wire ((c.sub ch).acknum + 1)) :
      Mi inp c (c.setSub ch
        { c.sub ch with ooo := oooErase (c.sub ch).ooo (wire k) ++ [(wire k, m)] })
  | confirm (c : Conn) (hs : c.state = .ci ∨ c.state = .cd) (m : Msg) (n : Nat) (hi : inp = some (m, n))
      (fcopt info segsize : Nat) (b : Bytes) (hb : m.body = .connConf fcopt info segsize b) :
      Mi inp c { setPhase { c with dstaddr := m.src } info with
        data := { c.data with flow := fcopt }, segsize := min segsize MSS }
  | setDst (c : Conn) (hs : c.state = .ci ∨ c.state = .cd) (a : Nat) :
      Mi inp c { c with dstaddr := a }
  | accepted (c : Conn) (hs : c.state = .ci ∨ c.state = .cd) (b : Bytes) :
      Mi inp c { c.emit (.scAccept b) with state := .run }
  | toCd (c : Conn) (hs : c.state = .ci) : Mi inp c { c with state := .cd }
  | toCc (c : Conn) (hs : c.state = .cr) : Mi inp c { c with state := .cc }
  | crRun (c : Conn) (hs : c.state = .cr) : Mi inp c { c with state := .run }
  | ccRun (c : Conn) (hs : c.state = .cc) : Mi inp c ({ c with state := .run }.emit .scRun)
  | clear (c : Conn) (hs : c.state = .di) :
      Mi inp c { c with timer := false, data := closeSub c.data, other := closeSub c.other }
  | toDi (c : Conn) (hs : c.state = .cr ∨ c.state = .run ∨ c.state = .di) :
      Mi inp c { c with state := .di }
  | shut (c : Conn) (hs : c.state = .run) (r : Int) (p : Bytes) :
      Mi inp c { c with shutdown := true, pendingDisc := (r, p) }
  | tell (c : Conn) (hs : c.state ≠ .closed) (r : Nat) (b : Bytes) (rej : Bool) :
      Mi inp c (c.emit (.scDisc r b rej))
  | close (c : Conn) (hs : c.state ≠ .closed) : Mi inp c (Nsp.close c)

abbrev Mis (inp : Inp) := Relation.ReflTransGen (Mi inp)

variable {inp : Inp}

theorem Mis.one {c c' : Conn} (h : Mi inp c c') : Mis inp c c' := Relation.ReflTransGen.single h

theorem mis_sendAck (c : Conn) (ch : Chan) (hs : c.state ≠ .closed) : Mis inp c (sendAck c ch) := by
  obtain ⟨a, h, a', h', k2, e, h2⟩ := sendAck_form c ch
  rw [e]
  refine (Mis.one (.flags c hs a h a' h')).tail
    (Mi.send (tweak c a h a' h') (by exact hs) ch
      { mk c (ackBody ch) with ack := some ⟨(c.sub ch).acknum, 0⟩, ack2 := k2 }
      (by cases ch <;> rfl) ⟨Or.inr ?_, ?_⟩ ?_)
  · cases ch <;> rfl
  · rcases h2 with rfl | rfl
    · exact Or.inl rfl
    · right; cases ch <;> rfl
  · cases ch
    · exact Or.inl ⟨rfl, rfl⟩
    · exact Or.inr (Or.inl ⟨rfl, rfl⟩)

theorem withQ_withQ (c : Conn) (p q : List QEnt) : withQ (withQ c p) q = withQ c q := rfl

/-- Firing an entry of the data queue: the rest of the connection is as `qsend` leaves it. -/
theorem mis_fire (c : Conn) (q1 q2 : List QEnt) (x : QEnt) (hs : c.state ≠ .closed)
    (ht : x.sent = false ∨ x.tries < c.cfg.retransmits)
    (hf : x.msg.body.isData = true → flowOk c (headSeg (q1 ++ x :: q2)) x = true) :
    Mis inp (withQ c (q1 ++ x :: q2))
      (withQ (qsend c .data x).1 (q1 ++ (qsend c .data x).2 :: q2)) := by
  obtain ⟨a, h, a', h', m', e, hr⟩ := qsend_form c .data x
  rw [e]
  have h1 : Mi inp (withQ c (q1 ++ x :: q2)) (tweak (withQ c (q1 ++ x :: q2)) a h a' h') :=
    Mi.flags (withQ c (q1 ++ x :: q2)) (by exact hs) a h a' h'
  have h2 := Mi.fire (inp := inp) (tweak (withQ c (q1 ++ x :: q2)) a h a' h') hs .data q1.length x m'
    (by show (q1 ++ x :: q2)[q1.length]? = _; simp) ht
    ⟨hr.dst, hr.src, hr.body, hr.ack, hr.ack2⟩ hf
  have e3 : ((setPending (tweak (withQ c (q1 ++ x :: q2)) a h a' h') .data
      ((q1 ++ x :: q2).set q1.length (fired x m'))).emit (.tx m')) =
      withQ ((tweak c a h a' h').emit (.tx m')) (q1 ++ fired x m' :: q2) := by
    rw [List.set_append_right _ _ (Nat.le_refl _), Nat.sub_self]; rfl
  refine (Mis.one h1).tail ?_
  show Mi inp _ (withQ ((tweak c a h a' h').emit (.tx m')) (q1 ++ fired x m' :: q2))
  rw [← e3]
  exact h2

theorem mis_fireO (c : Conn) (q1 q2 : List QEnt) (x : QEnt) (hs : c.state ≠ .closed)
    (ht : x.sent = false ∨ x.tries < c.cfg.retransmits) (hf : x.msg.body.isData = false) :
    Mis inp { c with other := { c.other with pending := q1 ++ x :: q2 } }
      { (qsend c .other x).1 with other := { (qsend c .other x).1.other with
          pending := q1 ++ (qsend c .other x).2 :: q2 } } := by
  obtain ⟨a, h, a', h', m', e, hr⟩ := qsend_form c .other x
  rw [e]
  have h1 : Mi inp { c with other := { c.other with pending := q1 ++ x :: q2 } }
    (tweak { c with other := { c.other with pending := q1 ++ x :: q2 } } a h a' h') :=
    Mi.flags { c with other := { c.other with pending := q1 ++ x :: q2 } } (by exact hs) a h a' h'
  have h2 := Mi.fire (inp := inp)
    (tweak { c with other := { c.other with pending := q1 ++ x :: q2 } } a h a' h') hs .other
    q1.length x m'
    (by show (q1 ++ x :: q2)[q1.length]? = _; simp) ht
    ⟨hr.dst, hr.src, hr.body, hr.ack, hr.ack2⟩ (fun h => absurd (h.symm.trans hf) Bool.noConfusion)
  have e3 : ((setPending (tweak { c with other := { c.other with pending := q1 ++ x :: q2 } } a h a' h')
      .other ((q1 ++ x :: q2).set q1.length (fired x m'))).emit (.tx m')) =
      { (tweak c a h a' h').emit (.tx m') with other :=
        { ((tweak c a h a' h').emit (.tx m')).other with pending := q1 ++ fired x m' :: q2 } } := by
    rw [List.set_append_right _ _ (Nat.le_refl _), Nat.sub_self]; rfl
  refine (Mis.one h1).tail ?_
  show Mi inp _ { (tweak c a h a' h').emit (.tx m') with other :=
        { ((tweak c a h a' h').emit (.tx m')).other with pending := q1 ++ fired x m' :: q2 } }
  rw [← e3]
  exact h2

theorem mis_maxUpd {c c' : Conn} {ch : Chan} {k : Nat} (hs : c.state ≠ .closed)
    (hk : ch = .other → c.other.seqnum = k + 1) (he : maxUpd c ch k = .ok c') : Mis inp c c' := by
  unfold maxUpd at he
  rw [bind_ok] at he
  obtain ⟨b, -, he⟩ := he
  split_ifs at he
  · cases he; exact Mis.one (.setMax c hs ch k hk)
  · cases he; exact .refl

theorem mis_maxUpdQ {c c' : Conn} {k : Nat} (q : List QEnt) (hs : c.state ≠ .closed)
    (he : maxUpd c .data k = .ok c') : Mis inp (withQ c q) (withQ c' q) := by
  unfold maxUpd at he
  rw [bind_ok] at he
  obtain ⟨b, -, he⟩ := he
  split_ifs at he
  · cases he; exact Mis.one (.setMax (withQ c q) hs .data k (fun h => by cases h))
  · cases he; exact .refl

theorem headSeg_append {q1 q2 : List QEnt} {x y : QEnt} (h : y.segnum = x.segnum) :
    headSeg (q1 ++ y :: q2) = headSeg (q1 ++ x :: q2) := by
  cases q1 with
  | nil => exact h
  | cons a l => rfl

theorem mis_blockedLoop {hd : Nat} : ∀ (rest done : List QEnt) (c : Conn) (r : Conn × List QEnt),
    c.state ≠ .closed → headSeg (done ++ rest) = hd → blockedLoop hd c done rest = .ok r →
    Mis inp (withQ c (done ++ rest)) (withQ r.1 r.2) := by
  intro rest
  induction rest with
  | nil =>
    intro done c r hs hh h
    cases h; rw [List.append_nil]
  | cons x rest ih =>
    intro done c r hs hh h
    have hassoc : ∀ y, done ++ y :: rest = (done ++ [y]) ++ rest := by simp
    unfold blockedLoop at h
    by_cases h1 : x.sent = true
    · rw [if_pos h1] at h
      split at h
      · rw [bind_ok] at h
        obtain ⟨c1, e1, h⟩ := h
        refine (mis_maxUpdQ _ hs e1).trans ?_
        rw [hassoc] at hh ⊢
        exact ih _ c1 r (by rw [(fr_maxUpd e1).state]; exact hs) hh h
      · rw [hassoc] at hh ⊢
        exact ih _ c r hs hh h
    · have h1' : x.sent = false := by simpa using h1
      rw [if_neg h1] at h
      split at h
      · rename_i hb
        by_cases h2 : flowOk c hd x = true
        · rw [if_pos h2, bind_ok] at h
          obtain ⟨c1, e1, h⟩ := h
          have hfire := mis_fire (inp := inp) c done rest x hs (Or.inl h1') (fun _ => by rw [hh]; exact h2)
          refine hfire.trans ((mis_maxUpdQ _ (by rw [(fr_qsend c .data x).state]; exact hs) e1).trans ?_)
          have hseg : (qsend c .data x).2.segnum = x.segnum := rfl
          have hh' : headSeg (done ++ (qsend c .data x).2 :: rest) = hd := by
            rw [headSeg_append hseg]; exact hh
          rw [hassoc] at hh' ⊢
          refine ih _ c1 r ?_ hh' h
          rw [(fr_maxUpd e1).state, (fr_qsend c .data x).state]; exact hs
        · rw [if_neg h2] at h; cases h; exact .refl
      · have hfire := mis_fire (inp := inp) c done rest x hs (Or.inl h1') (fun hd' => by
          rename_i hb
          obtain ⟨k, dly, bo, eo, p, e⟩ := isData_iff.1 hd'
          exact absurd e (hb _ _ _ _ _))
        refine hfire.trans ?_
        have hseg : (qsend c .data x).2.segnum = x.segnum := rfl
        have hh' : headSeg (done ++ (qsend c .data x).2 :: rest) = hd := by
          rw [headSeg_append hseg]; exact hh
        rw [hassoc] at hh' ⊢
        refine ih _ _ r ?_ hh' h
        rw [(fr_qsend c .data x).state]; exact hs

theorem mis_sendBlocked {c c' : Conn} (hs : c.state ≠ .closed) (h : sendBlocked c = .ok c') :
    Mis inp c c' := by
  unfold sendBlocked at h
  rw [bind_ok] at h
  obtain ⟨r, h1, h2⟩ := h
  cases h2
  exact mis_blockedLoop c.data.pending [] c r hs rfl h1

theorem mis_ack {c c' : Conn} {ch : Chan} {a : Nat} (hs : c.state ≠ .closed)
    (h : ack c ch a = .ok c') : Mis inp c c' := by
  rcases ack_form h with rfl | ⟨n, k, -, rfl⟩
  · exact .refl
  · exact Mis.one (.drop c hs ch n k)

theorem mis_procAckBase {c c' : Conn} {ch : Chan} {a : Option AckNum} (hs : c.state ≠ .closed)
    (h : procAckBase c ch a = .ok c') : Mis inp c c' := by
  cases a with
  | none => cases h; exact .refl
  | some n =>
    unfold procAckBase at h
    dsimp only at h
    split_ifs at h <;> exact mis_ack hs h

theorem mis_sendCtl (c : Conn) (b : Body) (hs : c.state ≠ .closed) (hb : b.ctl = true) :
    Mis inp c (sendCtl c b) := by
  have h1 : Mi inp c (withQ c (c.data.pending ++ [{ msg := mk c b }])) := .enqCtl c hs b hb
  exact (Mis.one h1).trans (mis_fire c c.data.pending [] { msg := mk c b } hs (Or.inl rfl)
    (fun h => by cases b <;> exact absurd h (by first | exact Bool.noConfusion | simp [Body.ctl] at hb)))

theorem mis_discRej {c c' : Conn} {r : Int} {p : Bytes} (hs : c.state = .di)
    (h : discRej c r p = .ok c') : Mis inp c c' := by
  obtain ⟨-, rfl⟩ := discRej_ok h
  exact (Mis.one (.clear c hs)).trans (mis_sendCtl _ _ (fun h => by rw [hs] at h; cases h) rfl)

/-- The state does not matter to `disc_rej`: it can be changed before as well as after. -/
theorem discRej_di {c c' : Conn} {r : Int} {p : Bytes} (h : discRej c r p = .ok c') :
    discRej { c with state := .di } r p = .ok { c' with state := .di } := by
  obtain ⟨hr, rfl⟩ := discRej_ok h
  unfold discRej at h ⊢
  split_ifs at h ⊢
  rfl

theorem mis_discRej_di {c c' : Conn} {r : Int} {p : Bytes}
    (hs : c.state = .cr ∨ c.state = .run ∨ c.state = .di)
    (h : discRej c r p = .ok c') : Mis inp c { c' with state := .di } :=
  (Mis.one (.toDi c hs)).trans (mis_discRej rfl (discRej_di h))

/-- The numbers last accepted are unchanged. -/
def SameAck (c c' : Conn) : Prop := ∀ ch, (c'.sub ch).acknum = (c.sub ch).acknum

theorem SameAck.trans {a b c : Conn} (h : SameAck a b) (h' : SameAck b c) : SameAck a c :=
  fun ch => (h' ch).trans (h ch)

theorem sendCtl_state (c : Conn) (b : Body) : (sendCtl c b).state = c.state :=
  (fr_qsend c .data { msg := mk c b }).state

theorem mis_shutdownCheck {c c' : Conn} (hs : c.state = .run ∨ c.state = .di)
    (h : shutdownCheck c = .ok c') : Mis inp c c' ∧ (c'.state = .run ∨ c'.state = .di) := by
  have hs' : c.state ≠ .closed := by rcases hs with h | h <;> rw [h] <;> decide
  unfold shutdownCheck at h
  split_ifs at h with hc
  · rw [bind_ok] at h
    obtain ⟨c2, h1, h2⟩ := h
    cases h2
    exact ⟨mis_discRej_di (Or.inr hs) h1, Or.inr rfl⟩
  · cases h; exact ⟨.refl, hs⟩

theorem mis_procAck {c c' : Conn} {ch : Chan} {a : Option AckNum}
    (hs : c.state = .run ∨ c.state = .di) (h : procAck c ch a = .ok c') :
    Mis inp c c' ∧ (c'.state = .run ∨ c'.state = .di) := by
  have hs' : c.state ≠ .closed := by rcases hs with h | h <;> rw [h] <;> decide
  have hst : ∀ {ch : Chan} {c1 : Conn}, procAckBase c ch a = .ok c1 → c1.state = c.state := by
    intro ch c1 h
    cases a with
    | none => cases h; rfl
    | some n =>
      unfold procAckBase at h
      dsimp only at h
      split_ifs at h <;> exact (fr_ack h).state
  cases ch with
  | other =>
    have h' : procAckBase c .other a = .ok c' := h
    exact ⟨mis_procAckBase hs' h', by rw [hst h']; exact hs⟩
  | data =>
    unfold procAck at h
    rw [bind_ok] at h
    obtain ⟨c1, e1, h⟩ := h
    rw [bind_ok] at h
    obtain ⟨c2, e2, h⟩ := h
    have s1 := hst e1
    have s2 := (fr_sendBlocked e2).state
    obtain ⟨h3, h4⟩ := mis_shutdownCheck (inp := inp) (by rw [s2, s1]; exact hs) h
    exact ⟨(mis_procAckBase hs' e1).trans ((mis_sendBlocked (by rw [s1]; exact hs') e2).trans h3), h4⟩

end Verif.Nsp
