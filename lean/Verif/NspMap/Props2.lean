import Verif.NspMap.Props

/-! Property C38: packets only reach the connection they belong to. -/
namespace Verif.NspMap
open Verif.Nsp

/-- The classes of message that can answer a Connect Initiate.  (The code means to leave out the
Disconnect Complete and No Link reasons, but every received Disconnect Confirm is of the same class:
`Verif.NspPkt.discConf_class`.) -/
def Answers : Body → Prop
  | .connConf .. => True
  | .discInit .. => True
  | .discConf _ => True
  | _ => False

theorem isReply_iff (b : Body) : isReply b = true ↔ Answers b := by
  cases b <;> simp [isReply, Answers]

/-- An outgoing connection that has not been answered yet. -/
def Opening (y : CEnt) : Prop := y.conn.state = .ci ∨ y.conn.state = .cd

/-- A message that is not a Connect Initiate belongs to an open connection: it names its link address,
comes from the remote node (any node, if the connection is through a loop circuit), and either comes
from the remote link address or answers the Connect Initiate and is the first to name the remote
address. -/
def Belongs (src : Peer) (m : Msg) (y : CEnt) : Prop :=
  y.conn.srcaddr = m.dst ∧ (src = y.dest ∨ y.dest.isNode = false) ∧
  ((Opening y ∧ m.body = .ackConn) ∨ (Opening y ∧ Answers m.body ∧ (y.conn.dstaddr = 0 ∨ m.src = y.conn.dstaddr)) ∨
    (¬ Opening y ∧ m.body ≠ .ackConn ∧ m.src = y.conn.dstaddr))

theorem find_unique {v0 f0} {e : Ent} (h : Inv v0 f0 e) {x : CEnt} (hx : x ∈ e.conns) :
    e.find x.conn.srcaddr = some x := by
  unfold Ent.find
  cases hf : e.conns.find? (fun y => y.conn.srcaddr == x.conn.srcaddr) with
  | none =>
    rw [List.find?_eq_none] at hf
    exact absurd (hf x hx) (by simp)
  | some y =>
    obtain ⟨hy, e1⟩ := mem_of_find hf
    have e1 : y.conn.srcaddr = x.conn.srcaddr := by simpa using e1
    rw [h.src_inj hy hx (by rw [e1])]

/-- What an event of a connection does to the table. -/
theorem run_table {v0 f0} {e : Ent} {x : CEnt} {v : Ev} (h : Inv v0 f0 e) (hx : x ∈ e.conns)
    (hv : Enabled x.conn v) (he : (Nsp.step x.conn v).2 = none ∨ v.isCall = true) :
    (e.run x v).1.byUid x.uid = (if (Nsp.step x.conn v).1.state = .closed then none
      else some { x with conn := (Nsp.step x.conn v).1 }) ∧
    (∀ z ∈ e.conns, z ≠ x → (e.run x v).1.byUid z.uid = some z) ∧ (e.run x v).1.out = e.out := by
  have hi := h.run hx hv he
  obtain ⟨h1, h2, h3, h4⟩ := run_step (h.live x hx).run hv he
  have huid : ∀ z ∈ e.conns, z ≠ x → z.uid ≠ x.uid := fun z hz hn e1 => hn (h.uid_inj hz hx e1)
  unfold Ent.byUid
  by_cases hc : (Nsp.step x.conn v).1.state = .closed
  · have hconns : (e.run x v).1.conns = e.conns.filter (fun y => !(y.uid == x.uid)) ∧
        (e.run x v).1.out = e.out := by
      unfold Ent.run Ent.update
      dsimp only
      rw [if_pos hc]
      unfold Ent.drop Ent.retId
      dsimp only
      rw [filter_uid h hx h2]
      exact ⟨rfl, rfl⟩
    rw [if_pos hc]
    refine ⟨?_, ?_, hconns.2⟩
    · rw [hconns.1, List.find?_eq_none]
      intro y hy
      have := (List.mem_filter.1 hy).2
      simpa using this
    · intro z hz hn
      have hz' : z ∈ (e.run x v).1.conns := by
        rw [hconns.1]
        exact List.mem_filter.2 ⟨hz, by simpa using huid z hz hn⟩
      exact find_uid hi.uids hz'
  · have hconns : (e.run x v).1.conns = (e.conns.map fun y =>
        if y.uid = x.uid then { y with conn := (Nsp.step x.conn v).1 } else y) ∧
        (e.run x v).1.out = e.out := by
      unfold Ent.run Ent.update
      dsimp only
      rw [if_neg hc]
      exact ⟨rfl, rfl⟩
    rw [if_neg hc]
    refine ⟨?_, ?_, hconns.2⟩
    · have hz' : ({ x with conn := (Nsp.step x.conn v).1 } : CEnt) ∈ (e.run x v).1.conns := by
        rw [hconns.1]
        exact List.mem_map.2 ⟨x, hx, by rw [if_pos rfl]⟩
      exact find_uid hi.uids hz'
    · intro z hz hn
      have hz' : z ∈ (e.run x v).1.conns := by
        rw [hconns.1]
        exact List.mem_map.2 ⟨z, hz, by rw [if_neg (huid z hz hn)]⟩
      exact find_uid hi.uids hz'

/-- The table after `learn`. -/
theorem learn_table {v0 f0} {e : Ent} (h : Inv v0 f0 e) (src : Peer) (m : Msg) :
    (e.learn src m).out = e.out ∧
    ((e.learn src m).conns = e.conns ∧
        ¬ (∃ x ∈ e.conns, x.conn.srcaddr = m.dst ∧ Opening x ∧ Answers m.body ∧ x.conn.dstaddr = 0) ∨
      ∃ x ∈ e.conns, x.conn.srcaddr = m.dst ∧ Opening x ∧ Answers m.body ∧ x.conn.dstaddr = 0 ∧
        { x with conn := { x.conn with dstaddr := m.src } } ∈ (e.learn src m).conns ∧
        ∀ z ∈ e.conns, z ≠ x → z ∈ (e.learn src m).conns) := by
  unfold Ent.learn
  split
  · rename_i hf
    refine ⟨rfl, Or.inl ⟨rfl, ?_⟩⟩
    rintro ⟨x, hx, hd, -⟩
    rw [← hd, find_unique h hx] at hf
    cases hf
  · rename_i x hf
    obtain ⟨hx, hs⟩ := mem_of_find hf
    have hs : x.conn.srcaddr = m.dst := by simpa using hs
    split_ifs with hc
    · obtain ⟨h1, h2, h3⟩ := hc
      rw [learn_run e m.src h1]
      refine ⟨rfl, Or.inr ⟨x, hx, hs, h1, (isReply_iff _).1 h2, h3, ?_, ?_⟩⟩
      · exact List.mem_map.2 ⟨x, hx, by rw [if_pos rfl]⟩
      · intro z hz hn
        exact List.mem_map.2 ⟨z, hz, by rw [if_neg (fun e1 => hn (h.uid_inj hz hx e1))]⟩
    · refine ⟨rfl, Or.inl ⟨rfl, ?_⟩⟩
      rintro ⟨y, hy, hd, h1, h2, h3⟩
      have := find_unique h hy
      rw [hd, hf] at this
      cases this
      exact hc ⟨h1, (isReply_iff _).2 h2, h3⟩

theorem mapped_iff {v0 f0} {e : Ent} (h : Inv v0 f0 e) {src : Peer} {m : Msg} {x : CEnt} (hx : x ∈ e.conns) :
    e.mapped src m = some x ↔ x.conn.srcaddr = m.dst ∧ (src = x.dest ∨ x.dest.isNode = false) ∧
      ((Opening x ∧ m.body = .ackConn) ∨ (Opening x ∧ Answers m.body ∧ m.src = x.conn.dstaddr) ∨
        (¬ Opening x ∧ m.body ≠ .ackConn ∧ m.src = x.conn.dstaddr)) := by
  constructor
  · intro hm
    obtain ⟨h1, h2, h3, h4⟩ := mapped_some hm
    have hs : x.conn.srcaddr = m.dst := by simpa using (mem_of_find h1).2
    refine ⟨hs, h3, ?_⟩
    by_cases ho : x.conn.state = .ci ∨ x.conn.state = .cd
    · rw [if_pos ho] at h2
      rw [Bool.or_eq_true, isReply_iff] at h2
      by_cases ha : m.body = .ackConn
      · exact Or.inl ⟨ho, ha⟩
      · right; left
        refine ⟨ho, ?_, ?_⟩
        · rcases h2 with h2 | h2
          · exact h2
          · exact absurd (by simpa using h2) ha
        · rcases h4 with h4 | h4
          · exact absurd h4 ha
          · exact h4
    · rw [if_neg ho] at h2
      have ha : m.body ≠ .ackConn := by simpa using h2
      right; right
      refine ⟨ho, ha, ?_⟩
      rcases h4 with h4 | h4
      · exact absurd h4 ha
      · exact h4
  · rintro ⟨h1, h2, h3⟩
    unfold Ent.mapped
    rw [← h1, find_unique h hx]
    dsimp only
    rw [if_pos]
    refine ⟨?_, ?_, ?_⟩
    · by_cases ho : x.conn.state = .ci ∨ x.conn.state = .cd
      · rw [if_pos ho, Bool.or_eq_true, isReply_iff]
        rcases h3 with ⟨-, h⟩ | ⟨-, h, -⟩ | ⟨h, -⟩
        · right; rw [h]; rfl
        · exact Or.inl h
        · exact absurd ho h
      · rw [if_neg ho]
        rcases h3 with ⟨h, -⟩ | ⟨h, -⟩ | ⟨-, h, -⟩
        · exact absurd h ho
        · exact absurd h ho
        · simpa using h
    · rintro ⟨h4, h5⟩
      rcases h2 with h2 | h2
      · exact h4 h2
      · rw [h2] at h5; cases h5
    · rcases h3 with ⟨-, h⟩ | ⟨-, -, h⟩ | ⟨-, -, h⟩
      · exact Or.inl h
      · exact Or.inr h
      · exact Or.inr h

theorem dispatch_other {e : Ent} {src : Peer} {rts : Bool} {m : Msg}
    (hb : ∀ r f i s p, m.body ≠ .connInit r f i s p) : e.dispatch src rts m =
      match (e.learn src m).mapped src m with
      | some x => (e.learn src m).run x (.recv m)
      | none => if isSilent m.body = true then (e.learn src m, none)
          else ((e.learn src m).reserved src m, none) := by
  unfold Ent.dispatch
  split
  · rename_i r f i s p hb'
    exact absurd hb' (hb r f i s p)
  · rfl

/-- Message classes that are never answered (NSP 4.0.1, section 6.2). -/
def NeverAnswered : Body → Prop
  | .ackConn => True
  | .ackData => True
  | .ackOther => True
  | .discConf _ => True
  | _ => False

/-- C38 for messages other than Connect Initiate, in every reachable state.  Either the message belongs
to an open connection; then that connection processes it (knowing the remote link address from then
on), no other connection is affected and nothing is answered.  Or it belongs to none; then no
connection processes it, and it is answered (No Link, link addresses exchanged, to the sender) unless
it is of a class never answered.

Missing from C38: in the second case a connection that is still opening notes the remote link address
(last line) without regard to the source of the message; see `mapping_poisoned`. -/
theorem mapping_partial {e0 e : Ent} {es : List EEv} (h0 : Init e0) (hr : EReach e0 es e) (src : Peer)
    (rts : Bool) (m : Msg) (hb : ∀ r f i s p, m.body ≠ .connInit r f i s p)
    (hok : (e.dispatch src rts m).2 = none) :
    let e' := (e.dispatch src rts m).1
    (∃ y ∈ e.conns, Belongs src m y ∧ e'.out = e.out ∧ (∀ z ∈ e.conns, z ≠ y → e'.byUid z.uid = some z) ∧
      ∃ c, (c = y.conn ∨ y.conn.dstaddr = 0 ∧ c = { y.conn with dstaddr := m.src }) ∧
        e'.byUid y.uid = if (Nsp.step c (.recv m)).1.state = .closed then none
          else some { y with conn := (Nsp.step c (.recv m)).1 }) ∨
    ((∀ y ∈ e.conns, ¬ Belongs src m y) ∧
      (NeverAnswered m.body → e'.out = e.out) ∧
      (¬ NeverAnswered m.body →
        e'.out = e.out ++ [(src, { dst := m.src, src := m.dst, body := .discConf 41 })]) ∧
      ∀ z ∈ e.conns, e'.byUid z.uid = some z ∨
        (z.conn.srcaddr = m.dst ∧ Opening z ∧ Answers m.body ∧ z.conn.dstaddr = 0 ∧
          e'.byUid z.uid = some { z with conn := { z.conn with dstaddr := m.src } })) := by
  intro e'
  obtain ⟨v0, hi⟩ := init_inv h0
  have hi := hr.inv hi
  have hl := hi.learn src m
  obtain ⟨lo, lt⟩ := learn_table hi src m
  have he' : e' = (e.dispatch src rts m).1 := rfl
  rw [dispatch_other hb] at he' hok
  cases hm : (e.learn src m).mapped src m with
  | some x =>
    rw [hm] at he' hok
    dsimp only at he' hok
    left
    have hx : x ∈ (e.learn src m).conns := (mem_of_find (mapped_some hm).1).1
    obtain ⟨m1, m2, m3⟩ := (mapped_iff hl hx).1 hm
    obtain ⟨t1, t2, t3⟩ := run_table (v := .recv m) hl hx (hl.live x hx).opn (Or.inl hok)
    rcases lt with ⟨lc, ln⟩ | ⟨y, hy, y1, y2, y3, y4, y5, y6⟩
    · rw [lc] at hx
      refine ⟨x, hx, ⟨m1, m2, ?_⟩, by rw [he', t3, lo], ?_, x.conn, Or.inl rfl, by rw [he', t1]⟩
      · rcases m3 with h | ⟨h1, h2, h3⟩ | h
        · exact Or.inl h
        · exact Or.inr (Or.inl ⟨h1, h2, Or.inr h3⟩)
        · exact Or.inr (Or.inr h)
      · intro z hz hn
        rw [he']
        exact t2 z (by rw [lc]; exact hz) hn
    · -- the connection has just learned the remote address
      have hxy : x = { y with conn := { y.conn with dstaddr := m.src } } :=
        hl.src_inj hx y5 (by show _ = y.conn.srcaddr % _; rw [m1, y1])
      subst hxy
      refine ⟨y, hy, ⟨y1, m2, Or.inr (Or.inl ⟨y2, y3, Or.inl y4⟩)⟩, by rw [he', t3, lo], ?_, _,
        Or.inr ⟨y4, rfl⟩, by rw [he', t1]⟩
      intro z hz hn
      rw [he']
      refine t2 z (y6 z hz hn) ?_
      intro e1
      have : z.uid = y.uid := by rw [e1]
      exact hn (hi.uid_inj hz hy this)
  | none =>
    rw [hm] at he'
    dsimp only at he'
    right
    have hsil : isSilent m.body = true ↔ NeverAnswered m.body := by
      cases m.body <;> simp [isSilent, NeverAnswered]
    have hconns : e'.conns = (e.learn src m).conns := by
      rw [he']; split_ifs <;> rfl
    have hby : ∀ z ∈ (e.learn src m).conns, e'.byUid z.uid = some z := by
      intro z hz
      unfold Ent.byUid
      rw [hconns]
      exact find_uid hl.uids hz
    have hno : ∀ x ∈ (e.learn src m).conns, ¬ ((e.learn src m).mapped src m = some x) := by
      intro x _ h; rw [hm] at h; cases h
    refine ⟨?_, ?_, ?_, ?_⟩
    · intro y hy hB
      obtain ⟨b1, b2, b3⟩ := hB
      rcases lt with ⟨lc, ln⟩ | ⟨x, hx, x1, x2, x3, x4, x5, x6⟩
      · have hy' := hy
        rw [← lc] at hy'
        refine hno y hy' ((mapped_iff hl hy').2 ⟨b1, b2, ?_⟩)
        rcases b3 with h | ⟨h1, h2, h3 | h3⟩ | h
        · exact Or.inl h
        · exact absurd ⟨y, hy, b1, h1, h2, h3⟩ ln
        · exact Or.inr (Or.inl ⟨h1, h2, h3⟩)
        · exact Or.inr (Or.inr h)
      · have hxy : y = x := hi.src_inj hy hx (by rw [b1, x1])
        subst hxy
        exact hno _ x5 ((mapped_iff hl x5).2 ⟨b1, b2, Or.inr (Or.inl ⟨x2, x3, rfl⟩)⟩)
    · intro hn
      rw [he', if_pos (hsil.2 hn)]; exact lo
    · intro hn
      rw [he', if_neg (fun h => hn (hsil.1 h))]
      unfold Ent.reserved
      dsimp only
      rw [lo]
      congr 2
      split
      · rename_i r f i s p hb'
        exact absurd hb' (hb r f i s p)
      · rfl
    · intro z hz
      rcases lt with ⟨lc, ln⟩ | ⟨x, hx, x1, x2, x3, x4, x5, x6⟩
      · left; exact hby z (by rw [lc]; exact hz)
      · by_cases hzx : z = x
        · subst hzx
          right
          exact ⟨x1, x2, x3, x4, hby _ x5⟩
        · left; exact hby z (x6 z hz hzx)

/-- C38 for Connect Initiate messages: a returned one only affects the connection that sent it; another
one is either a duplicate for an incoming connection from that node and link address that is not yet
running, or ignored, or refused for lack of link addresses, or creates one new connection to that node
and link address, leaving all others alone. -/
theorem mapping_connect {e0 e : Ent} {es : List EEv} (h0 : Init e0) (hr : EReach e0 es e) (src : Peer)
    (rts : Bool) (m : Msg) {r : Bool} {f i s : Nat} {p : Bytes} (hb : m.body = .connInit r f i s p)
    (hok : (e.dispatch src rts m).2 = none) :
    let e' := (e.dispatch src rts m).1
    e' = e ∨
    (∃ y ∈ e.conns, (if rts = true then y.conn.srcaddr = m.src ∧ y.conn.state = .ci
        else y.dest = src ∧ y.conn.dstaddr = m.src ∧ (y.conn.state = .cr ∨ y.conn.state = .cc)) ∧
      e'.out = e.out ∧ (∀ z ∈ e.conns, z ≠ y → e'.byUid z.uid = some z) ∧
      e'.byUid y.uid = if (Nsp.step y.conn (.recv m)).1.state = .closed then none
          else some { y with conn := (Nsp.step y.conn (.recv m)).1 }) ∨
    (rts = false ∧ e.free = [] ∧
      e' = { e with out := e.out ++ [(src, { dst := m.src, src := m.dst, body := .discConf 1 })] }) ∨
    (rts = false ∧ e'.out = e.out ∧ ∃ id u, e'.conns = e.conns ++ [⟨u, src, newIn e.cfg id m.src f i s p⟩]) := by
  intro e'
  obtain ⟨v0, hi⟩ := init_inv h0
  have hi := hr.inv hi
  have he' : e' = (e.dispatch src rts m).1 := rfl
  unfold Ent.dispatch at hok he'
  rw [hb] at hok he'
  dsimp only at hok he'
  by_cases hrt : rts = true
  · rw [if_pos hrt] at hok he'
    cases hf : e.find m.src with
    | none => rw [hf] at he'; exact Or.inl he'
    | some x =>
      rw [hf] at he' hok
      dsimp only at he' hok
      by_cases hst : x.conn.state = .ci
      · rw [if_pos hst] at he' hok
        obtain ⟨hx, hs⟩ := mem_of_find hf
        obtain ⟨t1, t2, t3⟩ := run_table (v := .recv m) hi hx (hi.live x hx).opn (Or.inl hok)
        rw [← he'] at t1 t2 t3
        refine Or.inr (Or.inl ⟨x, hx, ?_, t3, t2, t1⟩)
        rw [if_pos hrt]
        exact ⟨by simpa using hs, hst⟩
      · rw [if_neg hst] at he'; exact Or.inl he'
  · rw [if_neg hrt] at hok he'
    have hrf : rts = false := by simpa using hrt
    cases hd : dget e.rconns (src, m.src) with
    | none =>
      rw [hd] at he'
      dsimp only at he'
      unfold Ent.inbound Ent.getId at he'
      right; right
      cases hfr : e.free with
      | nil =>
        rw [hfr] at he'
        left
        refine ⟨hrf, rfl, he'.trans ?_⟩
        show e.reserved src m = _
        unfold Ent.reserved
        rw [hb, hfr]
      | cons id rest =>
        rw [hfr] at he'
        right
        rw [he']
        exact ⟨hrf, rfl, id, _, rfl⟩
    | some u =>
      rw [hd] at he' hok
      dsimp only at he' hok
      cases hf : e.byUid u with
      | none => rw [hf] at he'; exact Or.inl he'
      | some x =>
        rw [hf] at he' hok
        dsimp only at he' hok
        by_cases hst : x.conn.state = .cr ∨ x.conn.state = .cc
        · rw [if_pos hst] at he' hok
          obtain ⟨hx, hs⟩ := mem_of_find hf
          have hs : x.uid = u := by simpa using hs
          obtain ⟨t1, t2, t3⟩ := run_table (v := .recv m) hi hx (hi.live x hx).opn (Or.inl hok)
          rw [← he'] at t1 t2 t3
          refine Or.inr (Or.inl ⟨x, hx, ?_, t3, t2, t1⟩)
          rw [if_neg hrt]
          unfold dget at hd
          cases hq : e.rconns.find? (fun z => z.1 == (src, m.src)) with
          | none => rw [hq] at hd; cases hd
          | some z =>
            rw [hq] at hd
            obtain ⟨⟨zp, za⟩, zu⟩ := z
            have e1 : zu = u := by simpa using hd
            have e2 := List.find?_some hq
            have e2 : (zp, za) = (src, m.src) := by simpa using e2
            have e3 := List.mem_of_find?_eq_some hq
            cases e2
            obtain ⟨h5, h6⟩ := (hi.rc _ _ _ e3).2 x hx (by rw [hs, e1]) hst
            exact ⟨h5.symm, h6.symm, hst⟩
        · rw [if_neg hst] at he'; exact Or.inl he'

/-- Node 6 answers a connection request sent to node 5. -/
def exPoison : Ent := ((exEnt.connect (some (.node 5)) []).1.dispatch (.node 6) false
  ⟨1, 9, none, none, .connConf 0 2 563 []⟩).1

theorem exPoison_open : (exPoison.byUid 0).isSome = true := by decide +kernel

/-- Finding (C38 is violated): a message from a node that has nothing to do with an opening connection
changes the connection: it is taken to name the remote link address.  The genuine answer is then
rejected.  Afterwards the connection request of that other node for the same link address is ignored,
even after the connection is gone. -/
theorem mapping_poisoned : ∃ es e, EReach exEnt es e ∧
    -- the connection attempt to node 5 is still waiting for the answer
    e.conns.map (fun x => (x.dest, x.conn.state)) = [(.node 5, .ci)] ∧
    -- the answer from node 5 is rejected
    (e.dispatch (.node 5) false ⟨1, 7, none, none, .connConf 0 2 563 []⟩).1.out =
      e.out ++ [(.node 5, ⟨7, 1, none, none, .discConf 41⟩)] ∧
    -- after the connection is given up, a connection request of node 6 is ignored
    ∃ es' e', EReach e es' e' ∧ e'.conns = [] ∧
      e'.dispatch (.node 6) false ⟨0, 9, none, none, .connInit false 0 2 563 []⟩ = (e', none) := by
  refine ⟨_, exPoison, .snoc (.snoc .nil (.connect (some (.node 5)) []))
    (.packet (.node 6) false ⟨1, 9, none, none, .connConf 0 2 563 []⟩ (by decide +kernel)), ?_, ?_, ?_⟩
  · decide +kernel
  · decide +kernel
  · refine ⟨_, _, .snoc .nil (.conn 0 .connTimeout ((exPoison.byUid 0).get exPoison_open) (by simp) ?_ (by intro m h; cases h)
      (by intro m h; cases h) (Or.inl (by decide +kernel))), ?_, ?_⟩
    · show _ = true; decide +kernel
    · decide +kernel
    · decide +kernel

/-- The hypotheses of `mapping_partial` are met by an established connection and one that is opening. -/
example : ∃ es e, EReach exEnt es e ∧ e.conns.map (fun x => (x.conn.srcaddr, x.conn.state)) = [(1, .run), (2, .ci)] ∧
    (e.dispatch (.node 5) false ⟨1, 7, none, none, .discInit 0 []⟩).2 = none := by
  refine ⟨_, _, .snoc (.snoc (.snoc .nil (.connect (some (.node 5)) [])) (.connect (some (.node 6)) []))
    (.packet (.node 5) false ⟨1, 7, none, none, .connConf 0 2 563 []⟩ (by decide +kernel)), ?_, ?_⟩
  all_goals decide +kernel

/-- Every open connection of a reachable entity is a connection in the sense of `Verif.Nsp`: it is
the result of a run from its creation, so all that is proved there (C32-C36, C39-C42) holds for it. -/
theorem connections_run {e0 e : Ent} {es : List EEv} (h0 : Init e0) (h : EReach e0 es e) :
    ∀ x ∈ e.conns, (∃ c0 vs, Start c0 ∧ Run c0 vs x.conn) ∧ x.conn.state ≠ .closed := by
  obtain ⟨v0, hi⟩ := init_inv h0
  have hi := h.inv hi
  exact fun x hx => ⟨(hi.live x hx).run, (hi.live x hx).opn⟩

end Verif.NspMap
