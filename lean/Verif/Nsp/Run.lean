import Verif.Nsp.Micro3

/-! Runs of one connection and the invariants that do not mention data. -/
namespace Verif.Nsp

variable {inp : Inp}

theorem Mis.inv {P : Conn → Prop} (h : ∀ c c', Mi inp c c' → P c → P c') {c c' : Conn}
    (hm : Mis inp c c') (hp : P c) : P c' := by
  induction hm with
  | refl => exact hp
  | tail _ h2 ih => exact h _ _ h2 ih

theorem Refill.isData {c : Conn} {ch : Chan} {m m' : Msg} (h : Refill c ch m m') :
    m'.body.isData = m.body.isData := by
  rcases h.body with h | ⟨r, r', f, i, s, p, h1, h2⟩
  · rw [h]
  · rw [h1, h2]; rfl

/-- What a small change does to the transmit queue of a subchannel: entries are removed, get a new
transmission state, or one is added. -/
theorem deliver_sub (c : Conn) (m : Msg) (ch : Chan) :
    ((deliver c m).sub ch).pending = (c.sub ch).pending ∧
    ((deliver c m).sub ch).hold = (c.sub ch).hold ∧
    ((deliver c m).sub ch).maxseqsent = (c.sub ch).maxseqsent ∧
    ((deliver c m).sub ch).nextmsg = (c.sub ch).nextmsg ∧
    ((deliver c m).sub ch).nextseg = (c.sub ch).nextseg := by
  have ht : ∀ b e p, ((toScData c b e p).sub ch) = c.sub ch := by
    intro b e p
    have e3 : ∀ b : Bool, (if b = true then c.emit (.scData p) else { c with asm := [p] }).sub ch =
        c.sub ch := by
      intro b; cases b <;> cases ch <;> rfl
    unfold toScData
    split_ifs
    · cases ch <;> rfl
    · cases ch <;> rfl
    · exact e3 true
    · exact e3 e
  unfold deliver
  split
  · rw [ht]; exact ⟨rfl, rfl, rfl, rfl, rfl⟩
  · rw [sub_emit]; exact ⟨rfl, rfl, rfl, rfl, rfl⟩
  · unfold lsEff lsFin lsCredit otherLs
    split_ifs <;> cases ch <;> exact ⟨rfl, rfl, rfl, rfl, rfl⟩
  · exact ⟨rfl, rfl, rfl, rfl, rfl⟩

theorem book_sub (c : Conn) (m : Msg) (ch ch' : Chan) :
    ((book c ch m).sub ch').pending = (c.sub ch').pending ∧
    ((book c ch m).sub ch').hold = (c.sub ch').hold ∧
    ((book c ch m).sub ch').maxseqsent = (c.sub ch').maxseqsent ∧
    ((book c ch m).sub ch').nextmsg = (c.sub ch').nextmsg ∧
    ((book c ch m).sub ch').nextseg = (c.sub ch').nextseg := by
  cases ch <;> cases ch' <;> exact ⟨rfl, rfl, rfl, rfl, rfl⟩

theorem eraseO_sub (c : Conn) (w : Nat) (ch ch' : Chan) :
    ((eraseO c ch w).sub ch').pending = (c.sub ch').pending ∧
    ((eraseO c ch w).sub ch').hold = (c.sub ch').hold ∧
    ((eraseO c ch w).sub ch').maxseqsent = (c.sub ch').maxseqsent ∧
    ((eraseO c ch w).sub ch').nextmsg = (c.sub ch').nextmsg ∧
    ((eraseO c ch w).sub ch').nextseg = (c.sub ch').nextseg := by
  cases ch <;> cases ch' <;> exact ⟨rfl, rfl, rfl, rfl, rfl⟩

/-- What a small change can do to a transmit queue. -/
inductive QCh (inp : Inp) (c : Conn) (ch : Chan) : List QEnt → List QEnt → Prop
  | same (q) : QCh inp c ch q q
  | fire (q i x m) (hx : q[i]? = some x) (ht : x.sent = false ∨ x.tries < c.cfg.retransmits)
      (hr : Refill c ch x.msg m)
      (hf : x.msg.body.isData = true → flowOk c (headSeg q) x = true) :
      QCh inp c ch q (q.set i (fired x m))
  | block (q i x) (hx : q[i]? = some x) (ht : x.tries < c.cfg.retransmits) :
      QCh inp c ch q (q.set i { x with sent := false, timer := false })
  | idle (q i x) (hx : q[i]? = some x) : QCh inp c ch q (q.set i { x with timer := false })
  | ctl (q b) (hb : b.ctl = true) (hc : ch = .data) : QCh inp c ch q (q ++ [{ msg := mk c b }])
  | data (q bom eom p) (hs : c.state = .run) (hc : ch = .data) :
      QCh inp c ch q (q ++ [dataEnt c bom eom p])
  | int (q p) (hp : p.length ≤ 16) (hs : c.state = .run) (hm : (c.other.nextmsg : Int) ≤ c.other.maxmsg)
      (hc : ch = .other) : QCh inp c ch q
        (q ++ [{ msg := mk c (.intMsg c.other.seqnum p), msgnum := c.other.nextmsg }])
  | ls (q) (hc : ch = .other) : QCh inp c ch q
        (q ++ [{ msg := mk c (.linkSvc c.other.seqnum 0 0 0), msgnum := c.other.nextmsg }])
  | drop (q n) : QCh inp c ch q (q.drop n)
  | clear (q) : QCh inp c ch q []

theorem Mi.queue {c c' : Conn} (h : Mi inp c c') (ch : Chan) :
    QCh inp c ch (c.sub ch).pending (c'.sub ch).pending := by
  cases h with
  | flags hs a h a' h' => cases ch <;> exact .same _
  | timer hs b => cases ch <;> exact .same _
  | opt b => cases ch <;> exact .same _
  | send hs ch' m hb ha hch => cases ch <;> exact .same _
  | fire hs ch' i x m hx ht hr hf =>
    cases ch <;> cases ch'
    · exact .fire _ i x m hx ht hr hf
    · exact .same _
    · exact .same _
    · exact .fire _ i x m hx ht hr hf
  | block hs ch' i x hx ht =>
    cases ch <;> cases ch'
    · exact .block _ i x hx ht
    · exact .same _
    · exact .same _
    · exact .block _ i x hx ht
  | idle hs ch' i x hx =>
    cases ch <;> cases ch'
    · exact .idle _ i x hx
    · exact .same _
    · exact .same _
    · exact .idle _ i x hx
  | enqCtl hs b hb =>
    cases ch
    · exact .ctl _ b hb rfl
    · exact .same _
  | enqData hs hd bom eom p =>
    cases ch
    · exact .data _ bom eom p hs rfl
    · exact .same _
  | enqInt hs hd p hp hc =>
    cases ch
    · exact .same _
    · exact .int _ p hp hs hc rfl
  | enqLs hs =>
    cases ch
    · exact .same _
    · exact .ls _ rfl
  | setMax hs ch' k => cases ch <;> cases ch' <;> exact .same _
  | drop hs ch' n k =>
    cases ch <;> cases ch'
    · exact .drop _ n
    · exact .same _
    · exact .same _
    · exact .drop _ n
  | upNew hs ch' m k hi hm hk ho =>
    rw [(deliver_sub _ m ch).1, (book_sub c m ch' ch).1]; exact .same _
  | upOld hs ch' m hi hm =>
    rw [(deliver_sub _ m ch).1, (book_sub _ m ch' ch).1, (eraseO_sub c _ ch' ch).1]; exact .same _
  | oooAdd hs ch' m k hi hm h1 h2 => cases ch <;> cases ch' <;> exact .same _
  | confirm hs m n hi f i s b hb => cases ch <;> exact .same _
  | setDst hs a => cases ch <;> exact .same _
  | accepted hs b => cases ch <;> exact .same _
  | toCd hs => cases ch <;> exact .same _
  | toCc hs => cases ch <;> exact .same _
  | crRun hs => cases ch <;> exact .same _
  | ccRun hs => cases ch <;> exact .same _
  | clear hs => cases ch <;> exact .clear _
  | toDi hs => cases ch <;> exact .same _
  | shut hs r p => cases ch <;> exact .same _
  | tell hs r b rej => cases ch <;> exact .same _
  | close hs => cases ch <;> exact .clear _

theorem QCh.othOk {c : Conn} {q q' : List QEnt} (h : QCh inp c .other q q')
    (ho : ∀ x ∈ q, x.msg.body.isData = false) : ∀ x ∈ q', x.msg.body.isData = false := by
  have hset : ∀ i x y, q[i]? = some x → y.msg.body.isData = x.msg.body.isData →
      ∀ z ∈ q.set i y, z.msg.body.isData = false := by
    intro i x y hx hy z hz
    rcases List.mem_or_eq_of_mem_set hz with h | rfl
    · exact ho z h
    · rw [hy]; exact ho x (List.mem_of_getElem? hx)
  have happ : ∀ y : QEnt, y.msg.body.isData = false → ∀ z ∈ q ++ [y], z.msg.body.isData = false := by
    intro y hy z hz
    rw [List.mem_append, List.mem_singleton] at hz
    rcases hz with hz | rfl
    · exact ho z hz
    · exact hy
  cases h with
  | same => exact ho
  | fire i x m hx ht hr hf => exact hset i x _ hx hr.isData
  | block i x hx ht => exact hset i x _ hx rfl
  | idle i x hx => exact hset i x _ hx rfl
  | ctl b hb hc => cases hc
  | data bom eom p hs hc => cases hc
  | int p hp hs hm hc => exact happ _ rfl
  | ls hc => exact happ _ rfl
  | drop n => intro x hx; exact ho x (List.mem_of_mem_drop hx)
  | clear => simp

/-- The invariants a step needs and keeps. -/
structure Base (c : Conn) : Prop where
  rest : Rest c
  oth : OthOk c
  quiet : c.state = .closed → Quiet c

theorem Mi.quiet {c c' : Conn} (h : Mi inp c c') (hq : c.state = .closed → Quiet c) :
    c'.state = .closed → Quiet c' := by
  have dead : ∀ {P : Prop}, c.state ≠ .closed → c.state = .closed → P :=
    fun h1 h2 => absurd h2 h1
  have rd : c.state = .run ∨ c.state = .di → c.state ≠ .closed := by
    rintro (h | h) <;> rw [h] <;> decide
  have cd : c.state = .ci ∨ c.state = .cd → c.state ≠ .closed := by
    rintro (h | h) <;> rw [h] <;> decide
  cases h with
  | opt b =>
    intro hs
    have := hq hs
    exact ⟨this.timer, fun ch => by have := this.hold ch; cases ch <;> exact this,
      fun ch => by have := this.pending ch; cases ch <;> exact this⟩
  | close hs =>
    intro _
    exact ⟨rfl, fun ch => by cases ch <;> rfl, fun ch => by cases ch <;> rfl⟩
  | upNew hs ch m k hi hm hk ho =>
    intro h; rw [(sameRecv_deliver _ m).state, book_state] at h; exact absurd h (rd hs)
  | upOld hs ch m hi hm =>
    intro h; rw [(sameRecv_deliver _ m).state, book_state] at h
    exact absurd ((state_setSub c ch _).symm.trans h) (rd hs)
  | oooAdd hs ch m k hi hm h1 h2 => intro h; rw [state_setSub] at h; exact absurd h (rd hs)
  | setMax hs ch k => intro h; rw [state_setSub] at h; exact absurd h hs
  | drop hs ch n k => intro h; rw [state_setSub] at h; exact absurd h hs
  | fire hs ch i x m hx ht hr hf =>
    intro h; exact absurd ((state_setSub c ch _).symm.trans h) hs
  | block hs ch i x hx ht => intro h; exact absurd ((state_setSub c ch _).symm.trans h) hs
  | idle hs ch i x hx => intro h; exact absurd ((state_setSub c ch _).symm.trans h) hs
  | flags hs a h a' h' => exact dead hs
  | timer hs b => exact dead hs
  | send hs ch' m hb ha hch => exact dead hs
  | enqCtl hs b hb => exact dead hs
  | enqData hs hd bom eom p => exact dead (by rw [hs]; decide)
  | enqInt hs hd p hp hc => exact dead (by rw [hs]; decide)
  | enqLs hs => exact dead hs
  | confirm hs m n hi f i s b hb => exact dead (cd hs)
  | setDst hs a => exact dead (cd hs)
  | accepted hs b => intro h; cases h
  | toCd hs => intro h; cases h
  | toCc hs => intro h; cases h
  | crRun hs => intro h; cases h
  | ccRun hs => intro h; cases h
  | clear hs => exact dead (by rw [hs]; decide)
  | toDi hs => intro h; cases h
  | shut hs r p => exact dead (by rw [hs]; decide)
  | tell hs r b rej => exact dead hs

theorem step_base {c : Conn} {e : Ev} (h : Base c) (he : Enabled c e) :
    Base (step c e).1 ∧ Mis (e.inp c) c (step c e).1 := by
  obtain ⟨h1, h2⟩ := step_mis he h.rest h.oth h.quiet
  exact ⟨⟨h2, h1.inv (P := OthOk) (fun c c' hm hp => (hm.queue .other).othOk hp) h.oth,
    h1.inv (P := fun c => c.state = .closed → Quiet c) (fun c c' hm hp => hm.quiet hp) h.quiet⟩, h1⟩

/-- Calls made by session control: their exceptions go to the caller. -/
def Ev.isCall : Ev → Bool
  | .accept _ | .reject .. | .disconnect .. | .abort .. | .sendData _ | .interrupt _
  | .setsockopt _ => true
  | _ => false

/-- A run of a connection: a sequence of events that can occur, none of which stops the node. -/
inductive Run (c0 : Conn) : List Ev → Conn → Prop
  | nil : Run c0 [] c0
  | snoc {es : List Ev} {c : Conn} {e : Ev} : Run c0 es c → Enabled c e →
      ((step c e).2 = none ∨ e.isCall = true) → Run c0 (es ++ [e]) (step c e).1

/-- A connection just created by `connect` or by an arriving Connect Initiate. -/
inductive Start : Conn → Prop
  | out (cfg : Cfg) (id : Nat) (payload : Bytes) : Start (newOut cfg id payload)
  | inc (cfg : Cfg) (id remote fcopt info segsize : Nat) (payload : Bytes) :
      Start (newIn cfg id remote fcopt info segsize payload)

/-- The starting states spelled out. -/
theorem newOut_form (cfg : Cfg) (id : Nat) (payload : Bytes) : newOut cfg id payload =
    let m : Msg := { dst := 0, src := id, body := .connInit false 0 (nspVer cfg.phase) MSS payload }
    { cfg := cfg, state := .ci, srcaddr := id, timer := true, log := [.tx m],
      data := { pending := [{ msg := m, tries := 1, sent := true, timer := true }] } } := rfl

theorem newIn_form (cfg : Cfg) (id remote fcopt info segsize : Nat) (payload : Bytes) :
    newIn cfg id remote fcopt info segsize payload =
    { cfg := cfg, state := .cr, srcaddr := id, dstaddr := remote, timer := true,
      cphase := min (nspPhase info) cfg.phase,
      data := { flow := fcopt }, segsize := min segsize MSS,
      log := (if min (nspPhase info) cfg.phase > 2 then
        [.tx { dst := remote, src := 0, body := .ackConn }] else []) ++ [.scConn payload] } := by
  unfold newIn setPhase
  dsimp only
  split_ifs <;> rfl

theorem start_base {c : Conn} (h : Start c) : Base c := by
  cases h with
  | out cfg id p =>
    rw [newOut_form]
    exact ⟨fun ch => by cases ch <;> rfl, (fun x hx => by cases hx), fun h => by cases h⟩
  | inc cfg id r f i s p =>
    rw [newIn_form]
    exact ⟨fun ch => by cases ch <;> rfl, (fun x hx => by cases hx), fun h => by cases h⟩

theorem Run.base {c0 c : Conn} {es : List Ev} (h : Run c0 es c) (h0 : Base c0) : Base c := by
  induction h with
  | nil => exact h0
  | snoc _ he _ ih => exact (step_base ih he).1

/-- Invariants of small changes are invariants of runs. -/
theorem Run.inv {P : Conn → Prop} (hp : ∀ inp c c', Mi inp c c' → P c → P c') {c0 c : Conn}
    {es : List Ev} (h : Run c0 es c) (h0 : Base c0) (hP : P c0) : P c := by
  induction h with
  | nil => exact hP
  | snoc hr he _ ih =>
    exact (step_base (hr.base h0) he).2.inv (fun c c' hm => hp _ c c' hm) ih

end Verif.Nsp
