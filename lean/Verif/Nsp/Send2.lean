import Verif.Nsp.Send

/-! The invariant of the sending half: queue operations. -/
namespace Verif.Nsp

/-- What transmitting leaves alone. -/
structure Fr (c c' : Conn) : Prop where
  cfg : c'.cfg = c.cfg
  state : c'.state = c.state
  srcaddr : c'.srcaddr = c.srcaddr
  dstaddr : c'.dstaddr = c.dstaddr
  shutdown : c'.shutdown = c.shutdown
  pendingDisc : c'.pendingDisc = c.pendingDisc
  cphase : c'.cphase = c.cphase
  segsize : c'.segsize = c.segsize
  asm : c'.asm = c.asm
  rsts : c'.rsts = c.rsts
  timer : c'.timer = c.timer
  acknum : ∀ ch, (c'.sub ch).acknum = (c.sub ch).acknum
  ooo : ∀ ch, (c'.sub ch).ooo = (c.sub ch).ooo
  flow : c'.data.flow = c.data.flow
  xon : c'.data.xon = c.data.xon
  maxseg : c'.data.maxseg = c.data.maxseg
  maxmsg : ∀ ch, (c'.sub ch).maxmsg = (c.sub ch).maxmsg
  seqnum : c'.other.seqnum = c.other.seqnum
  nextmsg : c'.other.nextmsg = c.other.nextmsg
  log : ∃ l, c'.log = c.log ++ l ∧ ∀ o ∈ l, ∃ m, o = .tx m

theorem Fr.refl (c : Conn) : Fr c c :=
  ⟨rfl, rfl, rfl, rfl, rfl, rfl, rfl, rfl, rfl, rfl, rfl, fun _ => rfl, fun _ => rfl, rfl, rfl, rfl,
    fun _ => rfl, rfl, rfl, [], by simp, by simp⟩

theorem Fr.trans {a b c : Conn} (h : Fr a b) (h' : Fr b c) : Fr a c where
  cfg := h'.cfg.trans h.cfg
  state := h'.state.trans h.state
  srcaddr := h'.srcaddr.trans h.srcaddr
  dstaddr := h'.dstaddr.trans h.dstaddr
  shutdown := h'.shutdown.trans h.shutdown
  pendingDisc := h'.pendingDisc.trans h.pendingDisc
  cphase := h'.cphase.trans h.cphase
  segsize := h'.segsize.trans h.segsize
  asm := h'.asm.trans h.asm
  rsts := h'.rsts.trans h.rsts
  timer := h'.timer.trans h.timer
  acknum := fun ch => (h'.acknum ch).trans (h.acknum ch)
  ooo := fun ch => (h'.ooo ch).trans (h.ooo ch)
  flow := h'.flow.trans h.flow
  xon := h'.xon.trans h.xon
  maxseg := h'.maxseg.trans h.maxseg
  maxmsg := fun ch => (h'.maxmsg ch).trans (h.maxmsg ch)
  seqnum := h'.seqnum.trans h.seqnum
  nextmsg := h'.nextmsg.trans h.nextmsg
  log := by
    obtain ⟨l, e, hl⟩ := h.log
    obtain ⟨l', e', hl'⟩ := h'.log
    refine ⟨l ++ l', by rw [e', e, List.append_assoc], ?_⟩
    intro o ho
    rcases List.mem_append.1 ho with h | h
    · exact hl o h
    · exact hl' o h

theorem fr_tweak (c : Conn) (a h a' h' : Bool) : Fr c (tweak c a h a' h') :=
  ⟨rfl, rfl, rfl, rfl, rfl, rfl, rfl, rfl, rfl, rfl, rfl, fun ch => by cases ch <;> rfl,
    fun ch => by cases ch <;> rfl, rfl, rfl, rfl, fun ch => by cases ch <;> rfl, rfl, rfl,
    [], by simp [tweak], by simp⟩

theorem fr_emit (c : Conn) (m : Msg) : Fr c (c.emit (.tx m)) :=
  ⟨rfl, rfl, rfl, rfl, rfl, rfl, rfl, rfl, rfl, rfl, rfl, fun ch => by cases ch <;> rfl,
    fun ch => by cases ch <;> rfl, rfl, rfl, rfl, fun ch => by cases ch <;> rfl, rfl, rfl,
    [.tx m], rfl, by simp⟩

theorem fr_qsend (c : Conn) (ch : Chan) (x : QEnt) : Fr c (qsend c ch x).1 := by
  obtain ⟨a, h, a', h', m', e, -⟩ := qsend_form c ch x
  rw [e]
  exact (fr_tweak c a h a' h').trans (fr_emit _ m')

theorem fr_sendAck (c : Conn) (ch : Chan) : Fr c (sendAck c ch) := by
  obtain ⟨a, h, a', h', k2, e, -⟩ := sendAck_form c ch
  rw [e]
  exact (fr_tweak c a h a' h').trans (fr_emit _ _)

theorem fr_withQ (c : Conn) (q : List QEnt) : Fr c (withQ c q) :=
  ⟨rfl, rfl, rfl, rfl, rfl, rfl, rfl, rfl, rfl, rfl, rfl, fun ch => by cases ch <;> rfl,
    fun ch => by cases ch <;> rfl, rfl, rfl, rfl, fun ch => by cases ch <;> rfl, rfl, rfl,
    [], by simp [withQ], by simp⟩

theorem fr_maxUpd {c c' : Conn} {ch : Chan} {k : Nat} (h : maxUpd c ch k = .ok c') : Fr c c' := by
  unfold maxUpd at h
  rw [bind_ok] at h
  obtain ⟨b, -, h⟩ := h
  split_ifs at h
  · cases h
    cases ch <;>
    exact ⟨rfl, rfl, rfl, rfl, rfl, rfl, rfl, rfl, rfl, rfl, rfl, fun ch => by cases ch <;> rfl,
    fun ch => by cases ch <;> rfl, rfl, rfl, rfl, fun ch => by cases ch <;> rfl, rfl, rfl,
    [], by simp [Conn.setSub], by simp⟩
  · cases h; exact Fr.refl c

theorem fr_blockedLoop {hd : Nat} : ∀ (rest done : List QEnt) (c : Conn) (r : Conn × List QEnt),
    blockedLoop hd c done rest = .ok r → Fr c r.1 := by
  intro rest
  induction rest with
  | nil =>
    intro done c r h
    cases h; exact Fr.refl c
  | cons x rest ih =>
    intro done c r h
    unfold blockedLoop at h
    by_cases hs : x.sent = true
    · rw [if_pos hs] at h
      split at h
      · rw [bind_ok] at h
        obtain ⟨c', h1, h2⟩ := h
        exact (fr_maxUpd h1).trans (ih _ _ _ h2)
      · exact ih _ _ _ h
    · rw [if_neg hs] at h
      split at h
      · split at h
        · rw [bind_ok] at h
          obtain ⟨c', h1, h2⟩ := h
          exact ((fr_qsend c .data x).trans (fr_maxUpd h1)).trans (ih _ _ _ h2)
        · cases h; exact Fr.refl c
      · exact (fr_qsend c .data x).trans (ih _ _ _ h)

theorem fr_sendBlocked {c c' : Conn} (h : sendBlocked c = .ok c') : Fr c c' := by
  unfold sendBlocked at h
  rw [bind_ok] at h
  obtain ⟨r, h1, h2⟩ := h
  cases h2
  exact (fr_blockedLoop _ _ _ _ h1).trans (fr_withQ r.1 r.2)

theorem isAckHdr_of_isData {b : Body} (h : b.isData = true) : b.isAckHdr = true := by
  cases b <;> simp_all [Body.isData, Body.isAckHdr]

theorem isData_iff {b : Body} : b.isData = true ↔ ∃ k dly bo eo p, b = .dataSeg k dly bo eo p := by
  cases b <;> simp [Body.isData]

theorem IsDat.isData {segs : List Sg} {k : Nat} {x : QEnt} (h : IsDat segs k x) :
    x.msg.body.isData = true := by
  obtain ⟨dly, s, -, hb⟩ := h.body
  rw [hb]; rfl

theorem SIx.mem_dat {segs : List Sg} {ctl dat : List QEnt} {f : Nat} {c : Conn}
    (h : SIx segs ctl dat f c) {x : QEnt} (hx : x ∈ dat) : x.msg.body.isData = true := by
  obtain ⟨i, hi, rfl⟩ := List.mem_iff_getElem.1 hx
  exact (h.datOk i _ (List.getElem?_eq_getElem hi)).isData

/-- Where an entry of the queue lies. -/
theorem SIx.split {segs : List Sg} {ctl dat : List QEnt} {f : Nat} {c : Conn}
    (h : SIx segs ctl dat f c) {d r : List QEnt} {x : QEnt} (e : c.data.pending = d ++ x :: r) :
    (x.msg.body.isData = true ∧ ∃ d1, d = ctl ++ d1 ∧ dat = d1 ++ x :: r) ∨
    (x.msg.body.isAckHdr = false ∧ ∃ c2, ctl = d ++ x :: c2 ∧ r = c2 ++ dat) := by
  rw [h.pend] at e
  rcases List.append_eq_append_iff.1 e with ⟨l, h1, h2⟩ | ⟨l, h1, h2⟩
  · left
    exact ⟨h.mem_dat (by rw [h2]; simp), l, h1, h2⟩
  · cases l with
    | nil =>
      left
      simp only [List.append_nil, List.nil_append] at h1 h2
      exact ⟨h.mem_dat (by rw [← h2]; simp), [], by simp [h1], by simp [← h2]⟩
    | cons y l =>
      right
      simp only [List.cons_append, List.cons.injEq] at h2
      obtain ⟨rfl, h2⟩ := h2
      exact ⟨(h.ctlOk x (by rw [h1]; simp)).2, l, h1, h2⟩

/-- Sending a control packet that is in the queue. -/
theorem SIx.fire_ctl {segs : List Sg} {c1 c2 dat : List QEnt} {x : QEnt} {f : Nat} {c : Conn}
    {q : List QEnt} (h : SIx segs (c1 ++ x :: c2) dat f (withQ c q)) :
    ∃ m', (qsend c .data x).2 = fired x m' ∧
      SIx segs (c1 ++ fired x m' :: c2) dat f
        (withQ (qsend c .data x).1 (c1 ++ fired x m' :: c2 ++ dat)) := by
  obtain ⟨a, h1, a', h1', m', eq, hr⟩ := qsend_form c .data x
  refine ⟨m', by rw [eq], ?_⟩
  have hx := h.ctlOk x (by simp)
  have hm' : m'.body.isAckHdr = false := by rw [hr.hdr]; exact hx.2
  rw [eq]
  refine ⟨rfl, ?_, h.datOk, h.len, h.next, h.nm, h.fpos, h.lo, h.hi, h.win, h.tried, ?_, ?_⟩
  · intro y hy
    rw [List.mem_append, List.mem_cons] at hy
    rcases hy with hy | rfl | hy
    · exact h.ctlOk y (by simp [hy])
    · exact ⟨hx.1, hm'⟩
    · exact h.ctlOk y (by simp [hy])
  · intro y hy hs'
    simp only [List.mem_append, List.mem_cons] at hy
    rcases hy with (hy | rfl | hy) | hy
    · exact h.armed y (by simp [hy]) hs'
    · exact Nat.succ_pos _
    · exact h.armed y (by simp [hy]) hs'
    · exact h.armed y (by simp [hy]) hs'
  · intro m hm k dly b e p hb
    have hm2 : Out.tx m ∈ c.log ++ [.tx m'] := hm
    rw [List.mem_append, List.mem_singleton] at hm2
    rcases hm2 with hm2 | hm2
    · exact h.txok m hm2 k dly b e p hb
    · obtain rfl : m = m' := by simpa using hm2
      rw [hb] at hm'; exact absurd hm' Bool.noConfusion

/-- Recording the number of a segment already sent changes nothing. -/
theorem SIx.remax {segs : List Sg} {ctl d1 d2 : List QEnt} {x : QEnt} {f : Nat} {c : Conn}
    {q : List QEnt} {k : Nat} {dly b e : Bool} {p : Bytes} (hq : c.cfg.qmax ≤ 2047)
    (h : SIx segs ctl (d1 ++ x :: d2) f (withQ c q)) (hb : x.msg.body = .dataSeg k dly b e p)
    (hs : x.sent = true) : maxUpd c .data k = .ok c := by
  have hdat := h.datOk d1.length x (by simp)
  obtain ⟨dly', s, hs', hb'⟩ := hdat.body
  rw [hb] at hb'
  obtain ⟨rfl, rfl, rfl, rfl, rfl⟩ := Body.dataSeg.inj hb'
  have ht : x.segnum ≤ c.data.maxseqsent := h.tried x (by simp) (h.armed x (by simp) (Or.inl hs))
  have hnum := hdat.num
  have hw : c.data.maxseqsent + 1 ≤ f + c.cfg.qmax := h.win
  rw [maxUpd_ok (by show _ ≤ c.data.maxseqsent + 2047; omega)
    (by show c.data.maxseqsent ≤ _; omega)]
  have hmax : max c.data.maxseqsent (f + d1.length) = c.data.maxseqsent := by omega
  show Except.ok { c with data := { c.data with maxseqsent := max c.data.maxseqsent (f + d1.length) } } = _
  rw [hmax]

theorem blockedLoop_inv {segs : List Sg} {f hd : Nat} (hhd : hd ≤ f) :
    ∀ (rest done : List QEnt) (c : Conn), c.cfg.qmax ≤ 2047 →
    SI segs f (withQ c (done ++ rest)) →
    ∃ r, blockedLoop hd c done rest = .ok r ∧ SI segs f (withQ r.1 r.2) ∧
      (∀ x, x ∈ done ++ rest → ∃ y ∈ r.2, True) := by
  intro rest
  induction rest with
  | nil =>
    intro done c hq h
    rw [List.append_nil] at h
    exact ⟨(c, done), rfl, h, fun x hx => ⟨x, by simpa using hx, trivial⟩⟩
  | cons x rest ih =>
    intro done c hq h
    obtain ⟨ctl, dat, h⟩ := h
    have hsplit := h.split (d := done) (r := rest) (x := x) rfl
    have e1 : done ++ x :: rest = (done ++ [x]) ++ rest := by simp
    unfold blockedLoop
    by_cases hs : x.sent = true
    · rw [if_pos hs]
      split
      · rename_i k dly b e p hb
        rcases hsplit with ⟨-, d1, hd1, hd2⟩ | ⟨hn, -⟩
        · subst hd2
          rw [h.remax hq hb hs, ok_bind]
          rw [e1] at h ⊢
          exact ih (done ++ [x]) c hq ⟨_, _, h⟩
        · rw [hb] at hn; exact absurd hn Bool.noConfusion
      · rw [e1] at h ⊢
        exact ih (done ++ [x]) c hq ⟨_, _, h⟩
    · rw [if_neg hs]
      split
      · rename_i k dly b e p hb
        rcases hsplit with ⟨-, d1, hd1, hd2⟩ | ⟨hn, -⟩
        · subst hd2
          split
          · rename_i hfl
            obtain ⟨c', m', e2, e3, h', hc⟩ := h.fire_dat hq hb hfl hhd
            rw [e2, ok_bind, e3]
            have e4 : ctl ++ (d1 ++ fired x m' :: rest) = (done ++ [fired x m']) ++ rest := by
              rw [hd1]; simp
            rw [e4] at h'
            obtain ⟨r, hr1, hr2, hr3⟩ := ih (done ++ [fired x m']) c' (by rw [hc]; exact hq) ⟨_, _, h'⟩
            exact ⟨r, hr1, hr2, fun y hy => hr3 (fired x m') (by simp)⟩
          · exact ⟨_, rfl, ⟨_, _, h⟩, fun y hy => ⟨y, hy, trivial⟩⟩
        · rw [hb] at hn; exact absurd hn Bool.noConfusion
      · rename_i hnb
        rcases hsplit with ⟨hdd, -⟩ | ⟨hn, c2, hc1, hc2⟩
        · exfalso
          obtain ⟨k, dly, b, e, p, hb⟩ := isData_iff.1 hdd
          exact hnb k dly b e p hb
        · subst hc1
          obtain ⟨m', e3, h'⟩ := h.fire_ctl
          rw [e3]
          have e4 : done ++ fired x m' :: c2 ++ dat = (done ++ [fired x m']) ++ rest := by
            rw [hc2]; simp
          rw [e4] at h'
          obtain ⟨r, hr1, hr2, hr3⟩ := ih (done ++ [fired x m']) (qsend c .data x).1
            (by rw [(fr_qsend c .data x).cfg]; exact hq) ⟨_, _, h'⟩
          exact ⟨r, hr1, hr2, fun y hy => hr3 (fired x m') (by simp)⟩

theorem withQ_self (c : Conn) : withQ c c.data.pending = c := rfl

/-- `send_blocked` cannot fail, and keeps the invariant. -/
theorem sendBlocked_inv {segs : List Sg} {f : Nat} {c : Conn} (hq : c.cfg.qmax ≤ 2047)
    (h : SI segs f c) :
    ∃ c', sendBlocked c = .ok c' ∧ SI segs f c' ∧ (c'.data.pending = [] → c.data.pending = []) := by
  have hhd : headSeg c.data.pending ≤ f := by
    obtain ⟨ctl, dat, h⟩ := h
    rw [h.pend]; exact headSeg_le h
  obtain ⟨r, e, hr, hr2⟩ := blockedLoop_inv hhd c.data.pending [] c hq (by simpa [withQ_self] using h)
  refine ⟨withQ r.1 r.2, ?_, hr, ?_⟩
  · unfold sendBlocked; rw [e]; rfl
  · intro hp
    by_contra hne
    obtain ⟨x, hx⟩ := List.exists_mem_of_ne_nil _ hne
    obtain ⟨y, hy, -⟩ := hr2 x (by simpa using hx)
    have hp' : r.2 = [] := hp
    rw [hp'] at hy; simp at hy

theorem popN_form : ∀ (n : Nat) (s s' : Sub), popN s n = .ok s' →
    n ≤ s.pending.length ∧ ∃ k, s' = { s with pending := s.pending.drop n, maxackseg := k } := by
  intro n
  induction n with
  | zero => intro s s' h; cases h; exact ⟨Nat.zero_le _, s.maxackseg, by simp⟩
  | succ n ih =>
    intro s s' h
    unfold popN at h
    cases hp : s.pending with
    | nil => rw [hp] at h; cases h
    | cons x l =>
      rw [hp] at h
      obtain ⟨h1, k, h2⟩ := ih _ _ h
      simp only at h1 h2
      exact ⟨by simp; omega, k, by rw [h2]; simp⟩

theorem popN_ok : ∀ (n : Nat) (s : Sub), n ≤ s.pending.length → ∃ s', popN s n = .ok s' := by
  intro n
  induction n with
  | zero => intro s _; exact ⟨s, rfl⟩
  | succ n ih =>
    intro s h
    unfold popN
    cases hp : s.pending with
    | nil => rw [hp] at h; simp at h
    | cons x l =>
      rw [hp] at h
      exact ih _ (by simpa using h)

/-- The number acknowledged: what a received ack number stands for. -/
theorem SIx.drop {segs : List Sg} {dat : List QEnt} {f n : Nat} {c : Conn} {k : Nat}
    (h : SIx segs [] dat f c) (hn : n ≤ dat.length) (hms : f + n ≤ c.data.maxseqsent + 1) :
    SIx segs [] (dat.drop n) (f + n)
      { c with data := { c.data with pending := c.data.pending.drop n, maxackseg := k } } := by
  have hp : c.data.pending = dat := by rw [h.pend]; rfl
  refine ⟨?_, by simp, ?_, h.len, ?_, h.nm, ?_, hms, h.hi, ?_, ?_, ?_, h.txok⟩
  · show c.data.pending.drop n = _; rw [hp]; rfl
  · intro i x hx
    rw [List.getElem?_drop] at hx
    have := h.datOk _ x hx
    rw [← Nat.add_assoc] at this
    exact this
  · have := h.next
    show f + n + (dat.drop n).length = c.data.nextseg
    rw [List.length_drop]; omega
  · have := h.fpos; omega
  · have := h.win
    show c.data.maxseqsent + 1 ≤ f + n + c.cfg.qmax
    omega
  · intro x hx; exact h.tried x (List.mem_of_mem_drop hx)
  · intro x hx
    exact h.armed x (by simpa using List.mem_of_mem_drop (by simpa using hx))

/-- What an accepted acknowledgment number does to the first unacknowledged number. -/
def AckRel (a f f' ms : Nat) : Prop := f' = f ∨ (f' = f + dist a f + 1 ∧ f + dist a f ≤ ms)

/-- The result of an acknowledgment: some entries removed from the front of the queue. -/
theorem ack_form {c c' : Conn} {ch : Chan} {a : Nat} (h : ack c ch a = .ok c') :
    c' = c ∨ ∃ n k, n ≤ (c.sub ch).pending.length ∧ c' = c.setSub ch
      { c.sub ch with pending := (c.sub ch).pending.drop n, maxackseg := k } := by
  have key : ∀ n (c'' : Conn), (do let s ← popN (c.sub ch) n; Except.ok (c.setSub ch s)) = .ok c'' →
      ∃ n k, n ≤ (c.sub ch).pending.length ∧ c'' = c.setSub ch
        { c.sub ch with pending := (c.sub ch).pending.drop n, maxackseg := k } := by
    intro n c'' h
    rw [bind_ok] at h
    obtain ⟨s, h1, h2⟩ := h
    obtain ⟨hl, k, rfl⟩ := popN_form _ _ _ h1
    cases h2
    exact ⟨n, k, hl, rfl⟩
  unfold ack at h
  cases hp : (c.sub ch).pending with
  | nil => rw [hp] at h; cases h; exact Or.inl rfl
  | cons x l =>
    rw [hp] at h
    dsimp only at h
    cases hb : x.msg.body.ackable with
    | none =>
      rw [hb] at h
      have := key _ _ h
      rw [hp] at this
      exact Or.inr this
    | some k =>
      rw [hb] at h
      dsimp only [ackSeg] at h
      rw [bind_ok] at h
      obtain ⟨b, -, h⟩ := h
      split_ifs at h
      · cases h; exact Or.inl rfl
      · rw [bind_ok] at h
        obtain ⟨b, -, h⟩ := h
        split_ifs at h
        · cases h; exact Or.inl rfl
        · have := key _ _ h
          rw [hp] at this
          exact Or.inr this

theorem fr_ack {c c' : Conn} {ch : Chan} {a : Nat} (h : ack c ch a = .ok c') : Fr c c' := by
  rcases ack_form h with rfl | ⟨n, k, -, rfl⟩
  · exact Fr.refl _
  · cases ch <;>
    exact ⟨rfl, rfl, rfl, rfl, rfl, rfl, rfl, rfl, rfl, rfl, rfl, fun ch => by cases ch <;> rfl,
    fun ch => by cases ch <;> rfl, rfl, rfl, rfl, fun ch => by cases ch <;> rfl, rfl, rfl,
    [], by simp [Conn.setSub], by simp⟩

/-- An acknowledgment arriving for the other-data subchannel does not touch the data queue. -/
theorem sameSend_ack_other {c c' : Conn} {a : Nat} (h : ack c .other a = .ok c') :
    SameSend c c' := by
  rcases ack_form h with rfl | ⟨n, k, -, rfl⟩
  · exact SameSend.refl _
  · exact ⟨rfl, rfl, rfl, rfl, rfl, fun _ h _ => h⟩

theorem ackSeg_eq (c : Conn) (ch : Chan) (a k : Nat) : ackSeg c ch a k =
    if dist k a = 2048 then .error .typeError
    else if 0 < dist k a ∧ dist k a ≤ 2047 then .ok c
    else if dist a (c.sub ch).maxseqsent = 2048 then .error .typeError
    else if 0 < dist a (c.sub ch).maxseqsent ∧ dist a (c.sub ch).maxseqsent ≤ 2047 then .ok c
    else (popN (c.sub ch) ((dist a k + 1) % 4096)).map (c.setSub ch) := by
  unfold ackSeg
  rw [seqLt_eq]
  by_cases h1 : dist k a = 2048
  · rw [if_pos h1, if_pos h1]; rfl
  rw [if_neg h1, if_neg h1, ok_bind]
  by_cases h2 : 0 < dist k a ∧ dist k a ≤ 2047
  · rw [if_pos h2, decide_eq_true h2, if_pos rfl]
  rw [if_neg h2, decide_eq_false h2, if_neg (by decide), seqGt_eq]
  by_cases h3 : dist a (c.sub ch).maxseqsent = 2048
  · rw [if_pos h3, if_pos h3]; rfl
  rw [if_neg h3, if_neg h3, ok_bind]
  by_cases h4 : 0 < dist a (c.sub ch).maxseqsent ∧ dist a (c.sub ch).maxseqsent ≤ 2047
  · rw [if_pos h4, decide_eq_true h4, if_pos rfl]
  rw [if_neg h4, decide_eq_false h4, if_neg (by decide), seqCount_eq]
  cases popN (c.sub ch) ((dist a k + 1) % 4096) <;> rfl

theorem dist_sum {a f ms : Nat} (h1 : ¬(0 < dist f a ∧ dist f a ≤ 2047)) (h2 : dist f a ≠ 2048)
    (h3 : ¬(0 < dist a ms ∧ dist a ms ≤ 2047)) (h4 : dist a ms ≠ 2048)
    (hlo : f ≤ ms + 1) (hw : ms + 1 ≤ f + 2047) :
    f + dist a f ≤ ms ∧ dist a f ≤ 2047 := by
  unfold dist at *; omega

/-- Acknowledgments on the data subchannel: whatever number arrives, either nothing changes or
the segments up to that number are removed, which have all been sent. -/
theorem ack_inv {segs : List Sg} {f : Nat} {c c' : Conn} {a : Nat} (hq : c.cfg.qmax ≤ 2047)
    (h : SI segs f c) (he : ack c .data a = .ok c') :
    ∃ f', SI segs f' c' ∧ AckRel a f f' c.data.maxseqsent ∧
      c'.data.maxseqsent = c.data.maxseqsent ∧ c'.data.nextseg = c.data.nextseg := by
  obtain ⟨ctl, dat, h⟩ := h
  unfold ack at he
  have hsub : (c.sub .data).pending = c.data.pending := rfl
  rw [hsub] at he
  cases hp : c.data.pending with
  | nil =>
    rw [hp] at he; cases he
    exact ⟨f, ⟨ctl, dat, h⟩, Or.inl rfl, rfl, rfl⟩
  | cons x l =>
    rw [hp] at he
    have e0 := h.pend
    rw [hp] at e0
    cases ctl with
    | nil =>
      rw [List.nil_append] at e0
      have hx := h.datOk 0 x (by rw [← e0]; rfl)
      obtain ⟨dly, s, hs, hb⟩ := hx.body
      have he' : ackSeg c .data a f = .ok c' := by
        simp only [hb, Body.ackable] at he
        exact he
      rw [ackSeg_eq] at he'
      have hlo := h.lo
      have hw := h.win
      split_ifs at he' with h1 h2 h3 h4
      · cases he'; exact ⟨f, ⟨_, _, h⟩, Or.inl rfl, rfl, rfl⟩
      · cases he'; exact ⟨f, ⟨_, _, h⟩, Or.inl rfl, rfl, rfl⟩
      · obtain ⟨hd1, hd2⟩ := dist_sum (ms := c.data.maxseqsent) h2 h1 h4 h3 hlo (by omega)
        rw [Nat.mod_eq_of_lt (by omega)] at he'
        cases hpn : popN (c.sub .data) (dist a f + 1) with
        | error e => rw [hpn] at he'; cases he'
        | ok s' =>
          rw [hpn] at he'
          cases he'
          obtain ⟨hl, k, rfl⟩ := popN_form _ _ _ hpn
          have hl' : dist a f + 1 ≤ dat.length := by
            have : c.data.pending.length = dat.length := by rw [h.pend]; rfl
            rw [← this]; exact hl
          refine ⟨f + (dist a f + 1), ⟨[], dat.drop (dist a f + 1), h.drop hl' (by omega)⟩,
            Or.inr ⟨rfl, hd1⟩, rfl, rfl⟩
    | cons y ctl =>
      have e0' := List.cons.inj e0
      obtain ⟨rfl, e0'⟩ := e0'
      have hx := h.ctlOk x (by simp)
      have he' : (popN c.data 1 >>= fun s => Except.ok { c with data := s }) = .ok c' := by
        have h2 := hx.2
        have h3 : x.msg.body.ackable = none := by
          cases hb : x.msg.body <;> simp_all [Body.isAckHdr, Body.ackable]
        simp only [h3] at he
        exact he
      rw [bind_ok] at he'
      obtain ⟨s', hs1, hs2⟩ := he'
      obtain ⟨-, k, rfl⟩ := popN_form _ _ _ hs1
      cases hs2
      refine ⟨f, ⟨ctl, dat, ?_, ?_, h.datOk, h.len, h.next, h.nm, h.fpos, h.lo, h.hi, h.win, h.tried,
        ?_, h.txok⟩, Or.inl rfl, rfl, rfl⟩
      · show c.data.pending.drop 1 = _
        rw [hp, e0']; rfl
      · intro z hz; exact h.ctlOk z (by simp [hz])
      · intro z hz; exact h.armed z (by
          rw [List.mem_append] at hz
          rcases hz with hz | hz <;> simp [hz])

end Verif.Nsp
