import Verif.Nsp.Props

/-! Properties C39-C42: life cycle, retransmission limit, interrupts, exceptions. -/
namespace Verif.Nsp

variable {inp : Inp}

/-! ## C39 -/

/-- C39: whatever happens, the state changes of an event are a chain of legal transitions. -/
theorem legal_transitions {c0 c : Conn} {es : List Ev} {e : Ev} (h : Run c0 es c) (h0 : Start c0)
    (he : Enabled c e) :
    Relation.ReflTransGen (fun s t => State.edge s t = true) c.state (step c e).1.state := by
  have hm := (step_base (h.base (start_base h0)) he).2
  generalize (step c e).1 = c' at hm
  induction hm with
  | refl => exact .refl
  | tail _ h2 ih =>
    rcases h2.edge with h | h
    · rw [h]; exact ih
    · exact ih.tail h

/-- Items that carry application data to session control. -/
def Out.isAppData : Out → Bool
  | .scData _ | .scInt _ => true
  | _ => false

/-- `c'` did the same as `c` and possibly more, but gave session control no data. -/
def NoData (c c' : Conn) : Prop := ∃ l, c'.log = c.log ++ l ∧ ∀ o ∈ l, o.isAppData = false

theorem NoData.refl (c : Conn) : NoData c c := ⟨[], by simp, by simp⟩

theorem NoData.trans {a b c : Conn} (h : NoData a b) (h' : NoData b c) : NoData a c := by
  obtain ⟨l, e, hl⟩ := h
  obtain ⟨l', e', hl'⟩ := h'
  refine ⟨l ++ l', by rw [e', e, List.append_assoc], ?_⟩
  intro o ho
  rcases List.mem_append.1 ho with h | h
  · exact hl o h
  · exact hl' o h

theorem Fr.noData {c c' : Conn} (h : Fr c c') : NoData c c' := by
  obtain ⟨l, e, hl⟩ := h.log
  refine ⟨l, e, fun o ho => ?_⟩
  obtain ⟨m, rfl⟩ := hl o ho
  rfl

theorem NoData.emit {c c' : Conn} (h : NoData c c') {o : Out} (ho : o.isAppData = false) :
    NoData c (c'.emit o) :=
  h.trans ⟨[o], rfl, by simpa using ho⟩

theorem NoData.close {c c' : Conn} (h : NoData c c') : NoData c (Nsp.close c') :=
  h.trans ⟨[.released c'.srcaddr], rfl, by simp [Out.isAppData]⟩

theorem cdRecv_noData {c c' : Conn} {m : Msg} (h : cdRecv c m = .ok c') : NoData c c' := by
  unfold cdRecv at h
  split at h
  · rename_i fcopt info segsize b hb
    rw [bind_ok] at h
    obtain ⟨c1, e1, h⟩ := h
    cases h
    have h1 : NoData c c1 := by
      obtain ⟨l, e, hl⟩ := (fr_ack e1).noData
      exact ⟨l, e, hl⟩
    split_ifs
    · exact h1.trans ((fr_sendAck c1 .data).noData.trans ⟨[.scAccept b], rfl, by simp [Out.isAppData]⟩)
    · exact h1.trans ⟨[.scAccept b], rfl, by simp [Out.isAppData]⟩
  · cases h
    exact (((NoData.refl c).emit (o := .scDisc _ _ true) rfl).emit (o := .tx _) rfl).close
  · cases h
    exact ((NoData.refl c).emit (o := .scDisc _ _ true) rfl).close
  · cases h; exact NoData.refl c

/-- C39: application data (messages and interrupts) is handed to session control only while processing
a received packet in a running connection, or in one that this packet makes running. -/
theorem data_only_when_running {c0 c : Conn} {es : List Ev} {e : Ev} {l : List Out} {o : Out}
    (h : Run c0 es c) (h0 : Start c0) (he : Enabled c e) (hl : (step c e).1.log = c.log ++ l)
    (ho : o ∈ l) (hd : o.isAppData = true) :
    (∃ m, e = .recv m) ∧ (c.state = .run ∨ c.state = .cc) := by
  have contra : NoData c (step c e).1 → False := by
    rintro ⟨l', e', hl'⟩
    rw [hl] at e'
    rw [List.append_cancel_left e'] at ho
    rw [hl' o ho] at hd; cases hd
  have fin : ∀ {c : Conn} {r : Except Err Conn}, (∀ c', r = .ok c' → NoData c c') →
      NoData c (step.fin c r).1 := by
    intro c r h
    cases r with
    | ok c' => exact h c' rfl
    | error e => exact NoData.refl _
  have hmis : ∀ {inp : Inp} {c c' : Conn}, inp = none → Mis inp c c' → NoData c c' := by
    intro inp c c' hi hm
    induction hm with
    | refl => exact NoData.refl _
    | @tail c1 c2 _ h2 ih =>
      refine ih.trans ?_
      have one : ∀ {c c' : Conn} {o : Out}, c'.log = c.log ++ [o] → o.isAppData = false → NoData c c' :=
        fun h ho => ⟨[_], h, by simpa using ho⟩
      have zero : ∀ {c c' : Conn}, c'.log = c.log → NoData c c' := fun h => ⟨[], by simp [h], by simp⟩
      cases h2 with
      | upNew hs ch m k hi' => rw [hi] at hi'; cases hi'
      | upOld hs ch m hi' => rw [hi] at hi'; cases hi'
      | opt b => exact one rfl rfl
      | send hs ch m => exact one rfl rfl
      | fire hs ch i x m => exact one (by cases ch <;> rfl) rfl
      | block hs ch => exact zero (by cases ch <;> rfl)
      | idle hs ch => exact zero (by cases ch <;> rfl)
      | setMax hs ch => exact zero (by cases ch <;> rfl)
      | drop hs ch => exact zero (by cases ch <;> rfl)
      | oooAdd hs ch => exact zero (by cases ch <;> rfl)
      | accepted hs b => exact one rfl rfl
      | ccRun hs => exact one rfl rfl
      | tell hs r b rej => exact one rfl rfl
      | close hs => exact one rfl rfl
      | _ => exact zero rfl
  have hm := (step_base (h.base (start_base h0)) he).2
  cases e with
  | recv m =>
    refine ⟨⟨m, rfl⟩, ?_⟩
    by_contra hn
    refine contra (fin fun c' hc => ?_)
    unfold recv at hc
    cases hs : c.state with
    | ci =>
      rw [hs] at hc
      have hc : ciRecv c m = .ok c' := hc
      unfold ciRecv at hc
      split at hc
      · split_ifs at hc
        · rw [bind_ok] at hc
          obtain ⟨c1, e1, hc⟩ := hc
          cases hc
          exact (fr_ack e1).noData
        · exact cdRecv_noData hc
      · cases hc; exact ((NoData.refl c).emit (o := .scDisc _ _ true) rfl).close
      · exact cdRecv_noData hc
    | cd => rw [hs] at hc; exact cdRecv_noData hc
    | cr =>
      rw [hs] at hc
      have hc : Except.ok (crRecv c m) = .ok c' := hc
      cases hc
      unfold crRecv
      split
      · split_ifs
        · exact (NoData.refl c).emit rfl
        · exact NoData.refl c
      · exact NoData.refl c
    | cc => exact absurd (Or.inr hs) hn
    | run => exact absurd (Or.inl hs) hn
    | di =>
      rw [hs] at hc
      have hc : Except.ok (diRecv c m) = .ok c' := hc
      cases hc
      unfold diRecv
      split
      · exact ((NoData.refl c).emit rfl).close
      · exact (NoData.refl c).close
      · exact NoData.refl c
    | closed => exact absurd hs he
  | _ => exact absurd (hmis rfl hm) contra

/-- C39: after a connection is closed no packet, timeout or call makes it send or deliver anything; the
only thing that still has an effect is setting the compatibility option. -/
theorem closed_is_silent {c0 c : Conn} {es : List Ev} {e : Ev} (h : Run c0 es c) (h0 : Start c0)
    (hs : c.state = .closed) (he : Enabled c e) :
    (step c e).1.state = .closed ∧
    ((step c e).1 = c ∧ (step c e).2 = some .wrongState ∨
      ∃ b, e = .setsockopt b ∧ (step c e).1.log = c.log ++ [.opt b]) := by
  have hq := (h.base (start_base h0)).quiet hs
  have bad : c.state ≠ .run := by rw [hs]; decide
  have bad2 : c.state ≠ .cr := by rw [hs]; decide
  cases e with
  | recv m => exact absurd hs he
  | connTimeout =>
    have : c.timer = true := he
    rw [hq.timer] at this; cases this
  | holdTimeout ch =>
    have : (c.sub ch).hold = true := he
    rw [hq.hold] at this; cases this
  | qeTimeout ch i =>
    obtain ⟨x, hx, -⟩ := he
    rw [hq.pending] at hx; cases hx
  | accept p =>
    have : step c (.accept p) = (c, some .wrongState) := by
      dsimp only [step]; unfold accept; rw [if_pos bad2]; rfl
    rw [this]; exact ⟨hs, Or.inl ⟨rfl, rfl⟩⟩
  | reject r p =>
    have : step c (.reject r p) = (c, some .wrongState) := by
      dsimp only [step]; rw [if_pos bad2]
    rw [this]; exact ⟨hs, Or.inl ⟨rfl, rfl⟩⟩
  | disconnect r p =>
    have : step c (.disconnect r p) = (c, some .wrongState) := by
      dsimp only [step]; rw [if_pos bad]
    rw [this]; exact ⟨hs, Or.inl ⟨rfl, rfl⟩⟩
  | abort r p =>
    have : step c (.abort r p) = (c, some .wrongState) := by
      dsimp only [step]; rw [if_pos bad]
    rw [this]; exact ⟨hs, Or.inl ⟨rfl, rfl⟩⟩
  | sendData d =>
    have : step c (.sendData d) = (c, some .wrongState) := by
      dsimp only [step]; unfold sendData; rw [if_pos (Or.inl bad)]; rfl
    rw [this]; exact ⟨hs, Or.inl ⟨rfl, rfl⟩⟩
  | interrupt d =>
    have : step c (.interrupt d) = (c, some .wrongState) := by
      dsimp only [step]; unfold interrupt; rw [if_pos (Or.inl bad)]; rfl
    rw [this]; exact ⟨hs, Or.inl ⟨rfl, rfl⟩⟩
  | setsockopt b => exact ⟨hs, Or.inr ⟨b, rfl, rfl⟩⟩
  | learn a => rcases he.1 with h | h <;> rw [hs] at h <;> cases h

/-- C39: the local link address is returned to the pool exactly once, when the connection is closed, and
never another address. -/
theorem released_once {c0 c : Conn} {es : List Ev} (h : Run c0 es c) (h0 : Start c0) :
    (c.log.countP fun o => match o with | .released _ => true | _ => false) =
      (if c.state = .closed then 1 else 0) ∧
    ∀ i, Out.released i ∈ c.log → i = c0.srcaddr :=
  ⟨(h.rel h0).cnt, (h.rel h0).own⟩

/-- A run through the whole life cycle. -/
example : ∃ es c, Run exIn es c ∧ c.state = .closed ∧ Out.scData [1] ∈ c.log := by
  refine ⟨_, _, .snoc (.snoc (.snoc .nil (e := .accept []) trivial (by decide))
    (e := .recv (exSeg 1 true true [1])) (by unfold Enabled; dsimp only; decide) (by decide))
    (e := .recv ⟨7, 5, none, none, .discInit 0 []⟩) (by unfold Enabled; dsimp only; decide) (by decide), ?_, ?_⟩
  all_goals decide

/-! ## C40 -/

/-- C40: no numbered packet (data segment, interrupt, link service message) is transmitted more often
than the configured limit; neither is any packet still in a transmit queue. -/
theorem transmission_limit {c0 c : Conn} {es : List Ev} (h : Run c0 es c) (h0 : Start c0)
    (hR : 1 ≤ c0.cfg.retransmits) (ch : Chan) :
    (∀ k, (c.log.countP fun o => match o with | .tx m => m.body.seq == some (ch, k) | _ => false) ≤
      c.cfg.retransmits) ∧
    ∀ x ∈ (c.sub ch).pending, x.tries ≤ c.cfg.retransmits := by
  have hi := (h.ti h0 hR).2 ch
  refine ⟨fun k => ?_, fun x hx => (hi.lim x hx).1⟩
  have h1 := hi.all k
  have h2 : (c.log.countP fun o => match o with | .tx m => m.body.seq == some (ch, k) | _ => false) =
      txCount ch k c.log := by
    rfl
  rw [h2]; exact h1

/-- C40: when the timer of a packet that was transmitted that often runs out, the connection is closed,
session control is told (reason 39, no response), and the link address is released; a Connect Initiate
is left to the connection's own timer. -/
theorem gives_up {c : Conn} {ch : Chan} {i : Nat} {x : QEnt} (hx : (c.sub ch).pending[i]? = some x)
    (ht : c.cfg.retransmits ≤ x.tries) (hc : ∀ r f n s p, x.msg.body ≠ .connInit r f n s p) :
    (step c (.qeTimeout ch i)).1.state = .closed ∧
    (step c (.qeTimeout ch i)).1.log = c.log ++ [.scDisc 39 [] false, .released c.srcaddr] := by
  dsimp only [step]
  unfold qeTimeout
  rw [hx]
  dsimp only
  rw [if_pos ht]
  split
  · rename_i r f n s p hb
    exact absurd hb (hc r f n s p)
  · exact ⟨rfl, by show (c.log ++ [_]) ++ [_] = _; simp; rfl⟩

/-- C40: as long as the limit is not reached the packet is transmitted once more when its timer runs
out, except for a data segment the flow control does not allow at this moment. -/
theorem retransmits {c : Conn} {ch : Chan} {i : Nat} {x : QEnt} (hx : (c.sub ch).pending[i]? = some x)
    (ht : x.tries < c.cfg.retransmits) :
    (∃ m y, (step c (.qeTimeout ch i)).1.log = c.log ++ [.tx m] ∧ m.body.seq = x.msg.body.seq ∧
      ((step c (.qeTimeout ch i)).1.sub ch).pending[i]? = some y ∧ y.tries = x.tries + 1 ∧ y.timer = true) ∨
    (x.msg.body.isData = true ∧ flowOk c (headSeg (c.sub ch).pending) x = false ∧
      (step c (.qeTimeout ch i)).1.log = c.log) := by
  dsimp only [step]
  unfold qeTimeout
  rw [hx]
  dsimp only
  rw [if_neg (by omega)]
  split_ifs with hc
  · exact Or.inr ⟨hc.1, hc.2, by cases ch <;> rfl⟩
  · left
    obtain ⟨a, h, a', h', m', e, hr⟩ := qsend_form c ch x
    rw [e]
    refine ⟨m', fired x m', by cases ch <;> rfl, ?_, ?_, rfl, rfl⟩
    · rcases hr.body with e | ⟨r, r', f, i, s, p, e1, e2⟩
      · rw [e]
      · rw [e1, e2]; rfl
    · have hlt : i < (c.sub ch).pending.length := by
        rcases Nat.lt_or_ge i (c.sub ch).pending.length with h | h
        · exact h
        · rw [List.getElem?_eq_none h] at hx; cases hx
      cases ch
      · show ((c.sub .data).pending.set i _)[i]? = _
        rw [List.getElem?_set_self hlt]
      · show ((c.sub .other).pending.set i _)[i]? = _
        rw [List.getElem?_set_self hlt]

/-- A segment that is never acknowledged: transmitted twice, then given up. -/
example : ∃ es c, Run (newOut ⟨7, 2, 4⟩ 5 []) es c ∧ c.state = .closed ∧ txCount .data 1 c.log = 2 ∧
    Out.scDisc 39 [] false ∈ c.log := by
  refine ⟨_, _, .snoc (.snoc (.snoc (.snoc .nil (e := .recv ⟨5, 7, none, none, .connConf 0 2 563 []⟩)
    (by unfold Enabled; dsimp only; decide) (by decide))
    (e := .sendData [1]) trivial (by decide)) (e := .qeTimeout .data 0) ⟨_, rfl, by decide⟩ (by decide))
    (e := .qeTimeout .data 0) ⟨_, rfl, by decide⟩ (by decide), ?_, ?_, ?_⟩
  all_goals decide

/-! ## C41 -/

/-- C41: all interrupt messages transmitted so far (`ints`, identified by their numbers) are at most 16
bytes long, and there are at most one (the initial credit) more of them than the peer has granted in
link service messages. -/
theorem interrupt_limits {c0 c : Conn} {es : List Ev} (h : Run c0 es c) (h0 : Start c0) :
    ∃ ints : List (Nat × Bytes), (ints.map (·.1)).Nodup ∧
      (∀ m, Out.tx m ∈ c.log → ∀ k p, m.body = .intMsg k p → (k, p) ∈ ints) ∧
      (ints.length : Int) ≤ 1 + intCr c.log ∧ ∀ x ∈ ints, x.2.length ≤ 16 := by
  obtain ⟨ints, hi⟩ := h.ints h0
  exact ⟨ints, hi.lab, hi.tx, hi.lim, fun x hx => (hi.bnd x hx).2⟩

/-- C41: a longer interrupt is refused and changes nothing. -/
theorem interrupt_too_long {c : Conn} {d : Bytes} (hd : 16 < d.length) :
    (step c (.interrupt d)).1 = c ∧ ∃ e, (step c (.interrupt d)).2 = some e := by
  dsimp only [step]
  unfold interrupt
  split_ifs
  · exact ⟨rfl, _, rfl⟩
  · exact ⟨rfl, _, rfl⟩

/-- The first interrupt goes out, the second one is refused for lack of credit. -/
example : (step exA1 (.interrupt [1])).2 = none ∧
    (step (step exA1 (.interrupt [1])).1 (.interrupt [2])).2 = some .cantSend := by decide

/-! ## C42 -/

/-- C42, the part that holds: a packet received in any reachable open connection is processed without an
exception, if in the states where it is looked at closely (running, or about to be) none of its
acknowledgment numbers is exactly 2048 away from a number it is compared with (a queued segment's or
the highest one sent), its own number is not exactly 2048 away from the last one accepted, and a
deferred disconnect (if one is pending) has a valid reason code.  Missing: those exceptional numbers,
see `half_modulus_stops_node` and `deferred_disconnect_stops_node`. -/
theorem recv_no_error_partial {c0 c : Conn} {es : List Ev} (h : Run c0 es c) (h0 : Start c0)
    (hq : c0.cfg.qmax ≤ 2047) (hs : c.state ≠ .closed) (m : Msg)
    (hack : c.state = .run ∨ c.state = .cc → ∀ ch a, m.body.chan = some ch →
      (m.ack = some a ∨ m.ack2 = some a) →
      let t := c.sub (if a.isCross then ch.cross else ch)
      ∀ k, (k = t.maxseqsent ∨ ∃ x ∈ t.pending, x.msg.body.ackable = some k) →
        (a.num + 2048) % 4096 ≠ k % 4096)
    (hseq : c.state = .run ∨ c.state = .cc → ∀ ch k, m.body.seq = some (ch, k) →
      (k + 2048) % 4096 ≠ (ups ch c.log).length % 4096)
    (hdisc : c.state = .run ∨ c.state = .cc → c.shutdown = true →
      0 ≤ c.pendingDisc.1 ∧ c.pendingDisc.1 ≤ 255 ∧ c.pendingDisc.1 ≠ 1 ∧ c.pendingDisc.1 ≠ 41 ∧
        c.pendingDisc.1 ≠ 42) :
    (step c (.recv m)).2 = none := by
  obtain ⟨segs, hrs⟩ := h.segs
  obtain ⟨f, hwf⟩ := hrs.wf h0 hq
  have hr := h.rcv h0
  have hsafe : c.state = .run ∨ c.state = .cc → DiscOk c ∧ Safe c m := by
    intro hst
    refine ⟨fun hsh => ?_, ?_, ?_⟩
    · obtain ⟨h1, h2, h3, h4, h5⟩ := hdisc hst hsh
      refine ⟨h1, h2, ?_⟩
      unfold reservedReason
      simp [h3, h4, h5]
    · intro ch n hch hn k hk
      refine hack hst ch n hch hn k ?_
      unfold cmpNums refs at hk
      rcases List.mem_cons.1 hk with hk | hk
      · exact Or.inl hk
      · obtain ⟨x, hx, hxk⟩ := List.mem_filterMap.1 hk
        exact Or.inr ⟨x, hx, hxk⟩
    · intro ch k hk
      have := hseq hst ch k hk
      rw [← hr.ack ch] at this
      exact this
  obtain ⟨c', e⟩ := recv_ok (m := m) hwf (h.oq h0) hs hsafe
  show (step.fin c (recv c m)).2 = none
  rw [e]; rfl

/-- A running connection with data outstanding takes an acknowledgment. -/
example : exA2.state = .run ∧ (step exA2 (.recv ⟨5, 7, some ⟨1, 0⟩, none, .ackData⟩)).2 = none := by
  decide

/-- Finding (C42 is violated): a data segment numbered exactly 2048 above the last one accepted makes
the comparison of sequence numbers raise `TypeError`, which nothing catches: the node stops. -/
theorem half_modulus_stops_node : ∃ es c, Run exIn es c ∧ c.state = .run ∧
    (step c (.recv (exSeg 2049 true true [1]))).2 = some .typeError := by
  refine ⟨_, _, .snoc (.snoc .nil (e := .accept []) trivial (by decide))
    (e := .recv (exSeg 1 true true [1])) (by unfold Enabled; dsimp only; decide) (by decide), ?_, ?_⟩
  all_goals decide

/-- Finding: so does an acknowledgment number exactly 2048 away from the oldest pending segment. -/
theorem half_modulus_ack_stops_node : ∃ es c, Run (newOut ⟨7, 5, 4⟩ 5 []) es c ∧ c.state = .run ∧
    (step c (.recv ⟨5, 7, some ⟨2049, 0⟩, none, .ackData⟩)).2 = some .typeError := by
  refine ⟨_, _, .snoc (.snoc .nil (e := .recv ⟨5, 7, none, none, .connConf 0 2 563 []⟩)
    (by unfold Enabled; dsimp only; decide) (by decide))
    (e := .sendData [1]) trivial (by decide), ?_, ?_⟩
  all_goals decide

/-- Finding: a disconnect with a reserved reason code, issued while data is pending, is accepted
without a check; the acknowledgment of the data then raises `RangeError` in the main loop. -/
theorem deferred_disconnect_stops_node : ∃ es c, Run (newOut ⟨7, 5, 4⟩ 5 []) es c ∧ c.state = .run ∧
    (step c (.recv ⟨5, 7, some ⟨1, 0⟩, none, .ackData⟩)).2 = some .rangeError := by
  refine ⟨_, _, .snoc (.snoc (.snoc .nil (e := .recv ⟨5, 7, none, none, .connConf 0 2 563 []⟩)
    (by unfold Enabled; dsimp only; decide) (by decide))
    (e := .sendData [1]) trivial (by decide)) (e := .disconnect 42 []) trivial (by decide), ?_, ?_⟩
  all_goals decide

/-- Timeouts never raise an exception in a reachable connection. -/
theorem timeout_no_error {c0 c : Conn} {es : List Ev} (h : Run c0 es c) (h0 : Start c0) (e : Ev)
    (he : e = .connTimeout ∨ (∃ ch, e = .holdTimeout ch) ∨ ∃ ch i, e = .qeTimeout ch i)
    (hen : Enabled c e) : (step c e).2 = none := by
  rcases he with rfl | ⟨ch, rfl⟩ | ⟨ch, i, rfl⟩
  · have hq := (h.base (start_base h0)).quiet
    have ho := h.oq h0
    have hrt : ∀ c : Conn, OQ c → ∃ c', runTimeout c = .ok c' := by
      intro c ho
      have hmax : ∀ (d : Conn) (x : QEnt), (qsend d .other x).1.other.maxseqsent = d.other.maxseqsent := by
        intro d x
        obtain ⟨a, h, a', h', m', e, -⟩ := qsend_form d .other x
        rw [e]; rfl
      unfold runTimeout
      dsimp only
      unfold otherSend
      dsimp only
      rw [if_neg (by simp)]
      have hm := ho.max
      refine ⟨_, maxUpd_ok (ch := .other) ?_ ?_⟩
      · show c.other.seqnum ≤ (qsend _ _ _).1.other.maxseqsent + 2047
        rw [hmax]
        show c.other.seqnum ≤ c.other.maxseqsent + 2047; omega
      · show (qsend _ _ _).1.other.maxseqsent ≤ c.other.seqnum + 2047
        rw [hmax]
        show c.other.maxseqsent ≤ c.other.seqnum + 2047; omega
    have key : ∃ c', connTimeout c = .ok c' := by
      unfold connTimeout
      dsimp only
      cases hs : c.state with
      | ci => exact ⟨_, rfl⟩
      | cd => exact ⟨_, rfl⟩
      | cr => exact ⟨_, rfl⟩
      | cc => exact hrt _ (ho.same rfl rfl rfl)
      | run => exact hrt _ (ho.same rfl rfl rfl)
      | di => exact ⟨_, rfl⟩
      | closed =>
        have : c.timer = true := hen
        rw [(hq hs).timer] at this; cases this
    obtain ⟨c', e⟩ := key
    show (step.fin c (connTimeout c)).2 = none
    rw [e]; rfl
  · rfl
  · rfl

/-- Sending data fails only because the connection is not running or because the peer announced a
segment size of zero. -/
theorem send_errors {c0 c : Conn} {es : List Ev} (h : Run c0 es c) (h0 : Start c0)
    (hq : c0.cfg.qmax ≤ 2047) (d : Bytes) :
    (step c (.sendData d)).2 =
      if c.state ≠ .run ∨ c.shutdown = true then some .wrongState
      else if c.segsize = 0 then some .valueError else none := by
  obtain ⟨segs, hrs⟩ := h.segs
  obtain ⟨f, hwf⟩ := hrs.wf h0 hq
  dsimp only [step]
  unfold sendData
  split_ifs with h1 h2
  · rfl
  · rfl
  · have hs : c.state = .run := by
      by_contra hn; exact h1 (Or.inl hn)
    obtain ⟨c', e, -⟩ := sendAll_si (slices c.segsize d) segs c hwf.core.q (hwf.sp hs).si
    rw [e]; rfl

end Verif.Nsp
