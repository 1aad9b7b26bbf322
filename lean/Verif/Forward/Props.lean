import Verif.Forward.Lemmas
import Verif.Route.Props

/-!
# C18, C19, C20: forwarding
-/
namespace Verif.Forward

open Verif.RoutPkt (DataPkt)
open Verif.Route (Out Adj)

/-! ## Specification -/

/-- Everything but visit count and the intra-Ethernet flag. -/
def SameBody (p q : DataPkt) : Prop :=
  q.dst = p.dst ∧ q.src = p.src ∧ q.payload = p.payload ∧ q.rqr = p.rqr ∧ q.rts = p.rts

/-- A packet on its way back. -/
def IsReturn (p q : DataPkt) : Prop :=
  q.dst = p.src ∧ q.src = p.dst ∧ q.payload = p.payload ∧ q.rqr = 0 ∧ q.rts = 1

/-- The visit limit that applies to a packet in transit. -/
def transitLimit (maxvisits : Nat) (p : DataPkt) : Nat :=
  if p.rts = 0 then maxvisits else min (2 * maxvisits) 63

/-! ## One node -/

/-- What a router does with a packet in transit, for every routing table:
1. a packet for an address which the table gives to this node goes up to NSP unchanged and is not sent on;
2. with an output and visits left it goes to that neighbour, the same but for one more visit and
   possibly a cleared intra-Ethernet flag;
3. otherwise, if return was requested and it is not being returned, it is turned around, and then
   delivered here, sent on with one more visit, or dropped;
4. otherwise it is dropped. -/
theorem transit_spec (n : RNode) (p : DataPkt) (c : Nat) :
    (n.find p.dst = .via .self ∧ forward n p (some c) false = .toNsp p) ∨
    (∃ k q, n.find p.dst = .via (.nbr k) ∧ p.visit < transitLimit n.maxvisits p ∧
      forward n p (some c) false = .send k q ∧ SameBody p q ∧ q.visit = p.visit + 1 ∧
      (q.ie = p.ie ∨ q.ie = 0) ∧ (q.ie ≠ 0 → n.circ k = c)) ∨
    (((∀ a, n.find p.dst ≠ .via a) ∨ (n.find p.dst ≠ .via .self ∧ transitLimit n.maxvisits p ≤ p.visit)) ∧
      ((p.rqr ≠ 0 ∧ p.rts = 0 ∧
        ((∃ q, forward n p (some c) false = .toNsp q ∧ n.find p.src = .via .self ∧ IsReturn p q ∧ q.visit = p.visit) ∨
         (∃ k q, forward n p (some c) false = .send k q ∧ n.find p.src = .via (.nbr k) ∧ IsReturn p q ∧
            q.visit = p.visit + 1 ∧ q.ie = 0 ∧ p.visit < min (2 * n.maxvisits) 63) ∨
         forward n p (some c) false = .drop)) ∨
       ((p.rqr = 0 ∨ p.rts ≠ 0) ∧ forward n p (some c) false = .drop))) := by
  have hlim : ∀ p, limit n p false = transitLimit n.maxvisits p := by
    intro p
    unfold limit transitLimit
    by_cases h : p.rts = 0
    · simp [h]
    · simp [h, Nat.mul_comm]
  rcases cases_of n p false with h | ⟨k, h, hv⟩ | h
  · exact Or.inl ⟨h, forward_self h⟩
  · right; left
    refine ⟨k, outgoing n p (some c) false k, h, by rw [← hlim]; exact hv, forward_send h (Or.inr (by simp)) hv,
      ⟨rfl, rfl, rfl, rfl, rfl⟩, rfl, ?_, ?_⟩
    · unfold outgoing
      by_cases hc : c = n.circ k
      · simp [hc]
      · simp [hc]
    · intro hne
      unfold outgoing at hne
      by_cases hc : c = n.circ k
      · exact hc.symm
      · simp [hc] at hne
  · right; right
    have hu := h
    refine ⟨?_, ?_⟩
    · rcases h with h | h | ⟨⟨k, h⟩, hv⟩
      · left; intro a; rw [h]; simp
      · left; intro a; rw [h]; simp
      · right; rw [← hlim]; exact ⟨by rw [h]; simp, hv⟩
    · rw [forward_fail hu (Or.inr (by simp))]
      by_cases hr : p.rqr ≠ 0 ∧ p.rts = 0
      · left
        rw [if_pos hr]
        refine ⟨hr.1, hr.2, ?_⟩
        have hret : IsReturn p (returned p) := ⟨rfl, rfl, rfl, rfl, rfl⟩
        rcases cases_of n (returned p) false with h2 | ⟨k, h2, hv2⟩ | h2
        · left; exact ⟨_, forward_self h2, h2, hret, rfl⟩
        · right; left
          refine ⟨k, _, forward_send h2 (Or.inr (by simp)) hv2, h2, ⟨rfl, rfl, rfl, rfl, rfl⟩, rfl, ?_, ?_⟩
          · simp [outgoing, returned]
          · have e : limit n (returned p) false = min (2 * n.maxvisits) 63 := by
              rw [hlim]; simp [transitLimit, returned]
            rw [e] at hv2
            exact hv2
        · right; right
          rw [forward_fail h2 (Or.inr (by simp)), if_neg (by simp [returned])]
      · right
        rw [if_neg hr]
        refine ⟨?_, rfl⟩
        by_cases h0 : p.rqr = 0
        · exact Or.inl h0
        · right
          intro h1
          exact hr ⟨h0, h1⟩

/-- C20 and C19 for a packet that is sent on: the payload is the same; the endpoints are the same, or
swapped exactly if this is a return, which was asked for and is not already under way. -/
theorem transit_send (n : RNode) (p q : DataPkt) (c k : Nat) (h : forward n p (some c) false = .send k q) :
    q.payload = p.payload ∧ q.visit = p.visit + 1 ∧ q.visit ≤ transitLimit n.maxvisits q ∧
    ((SameBody p q ∧ n.find p.dst = .via (.nbr k)) ∨
     (IsReturn p q ∧ p.rqr ≠ 0 ∧ p.rts = 0 ∧ n.find p.src = .via (.nbr k))) := by
  rcases transit_spec n p c with ⟨_, e⟩ | ⟨k', q', h1, h2, e, h3, h4, _, _⟩ | ⟨_, hx⟩
  · rw [h] at e; cases e
  · rw [h] at e; cases e
    refine ⟨h3.2.2.1, h4, ?_, Or.inl ⟨h3, h1⟩⟩
    unfold transitLimit at h2 ⊢
    rw [h3.2.2.2.2]
    omega
  · rcases hx with ⟨r1, r2, hx⟩ | ⟨_, e⟩
    · rcases hx with ⟨_, e, _⟩ | ⟨k', q', e, h1, h2, h3, _, h4⟩ | e
      · rw [h] at e; cases e
      · rw [h] at e; cases e
        refine ⟨h2.2.2.1, h3, ?_, Or.inr ⟨h2, r1, r2, h1⟩⟩
        unfold transitLimit
        rw [h2.2.2.2.2]
        simp only [Nat.one_ne_zero, if_false]
        omega
      · rw [h] at e; cases e
    · rw [h] at e; cases e

/-- A transit packet never causes an exception. -/
theorem transit_no_error (n : RNode) (p : DataPkt) (c : Nat) : forward n p (some c) false ≠ .error := by
  rcases transit_spec n p c with ⟨_, e⟩ | ⟨k', q', _, _, e, _⟩ | ⟨_, hx⟩
  · rw [e]; simp
  · rw [e]; simp
  · rcases hx with ⟨_, _, hx⟩ | ⟨_, e⟩
    · rcases hx with ⟨_, e, _⟩ | ⟨_, _, e, _⟩ | e
      · rw [e]; simp
      · rw [e]; simp
      · rw [e]; simp
    · rw [e]; simp

/-- A packet from this node: delivered here if the table says so, sent as it is if there is an output,
and otherwise, if return was requested, given back to NSP marked as returned. -/
theorem originate_spec (n : RNode) (hown : n.find n.own = .via .self) (hmax : 1 ≤ n.maxvisits)
    (payload : Fields.Bytes) (dst : Nat) (rqr : Bool) :
    let p : DataPkt := ⟨if rqr then 1 else 0, 0, 1, dst, n.own, 0, payload⟩
    (n.find dst = .via .self ∧ originate n payload dst rqr = .toNsp p) ∨
    (∃ k, n.find dst = .via (.nbr k) ∧ originate n payload dst rqr = .send k p) ∨
    ((∀ a, n.find dst ≠ .via a) ∧
      originate n payload dst rqr = if rqr then .toNsp (returned p) else .drop) := by
  intro p
  rcases cases_of n p true with h | ⟨k, h, hv⟩ | h
  · exact Or.inl ⟨h, forward_self h⟩
  · right; left
    exact ⟨k, h, forward_send h (Or.inl rfl) hv⟩
  · right; right
    have hu := h
    refine ⟨?_, ?_⟩
    · rcases h with h | h | ⟨_, hv⟩
      · intro a; show n.find p.dst ≠ _; rw [h]; simp
      · intro a; show n.find p.dst ≠ _; rw [h]; simp
      · exfalso
        have e1 : limit n p true = n.maxvisits := by simp [limit]
        have e2 : p.visit = 0 := rfl
        omega
    · show forward n p none true = _
      rw [forward_fail hu (Or.inl rfl)]
      cases rqr with
      | true =>
        rw [if_pos ⟨by simp [p], rfl⟩]
        rw [forward_self (by exact hown)]; rfl
      | false => rw [if_neg (by simp [p])]; rfl

/-! ## The whole network -/

/-- One transit of a packet: some router, with whatever table it has at that moment, sends it on; the
next router gets it over some kind of circuit.  Addresses in another form (Phase III) are not followed. -/
def Hop (M : Nat) (p q : DataPkt) : Prop :=
  ∃ (n : RNode) (c k : Nat) (q' : DataPkt) (l : Link), n.maxvisits ≤ M ∧
    forward n p (some c) false = .send k q' ∧ l ≠ .ptp3 ∧ q = wire 0 l q'

/-- Any number of transits. -/
inductive Hops (M : Nat) : Nat → DataPkt → DataPkt → Prop
  | refl (p) : Hops M 0 p p
  | step {m p q r} : Hops M m p q → Hop M q r → Hops M (m + 1) p r

theorem Hop.spec {M : Nat} {p q : DataPkt} (h : Hop M p q) :
    q.payload = p.payload ∧ q.visit = p.visit + 1 ∧ q.visit ≤ transitLimit M q ∧
    (SameBody p q ∨ (IsReturn p q ∧ p.rqr ≠ 0 ∧ p.rts = 0)) := by
  obtain ⟨n, c, k, q', l, hm, hf, hl, rfl⟩ := h
  obtain ⟨h1, h2, h3, h4⟩ := transit_send n p q' c k hf
  have e : ∃ x, wire 0 l q' = { q' with ie := x } := by
    cases l with
    | lan => exact ⟨q'.ie, rfl⟩
    | ptp4 => exact ⟨0, rfl⟩
    | ptp3 => exact absurd rfl hl
  obtain ⟨x, e⟩ := e
  rw [e]
  refine ⟨h1, h2, ?_, ?_⟩
  · show q'.visit ≤ transitLimit M q'
    unfold transitLimit at h3 ⊢
    split at h3
    · rename_i h0; rw [if_pos h0]; omega
    · rename_i h0; rw [if_neg h0]; omega
  · rcases h4 with ⟨h4, _⟩ | ⟨h4, r1, r2, _⟩
    · exact Or.inl h4
    · exact Or.inr ⟨h4, r1, r2⟩

/-- C18: however the routing tables of the routers are, and however they change meanwhile, a packet
makes at most `M` transits before it is turned around, `M` being the greatest visit limit, and at
most twice that (and never more than 63) altogether. -/
theorem transits_bounded (M m : Nat) (p q : DataPkt) (h : Hops M m p q) (hm : m ≠ 0) :
    p.visit + m = q.visit ∧ p.visit + m ≤ min (2 * M) (max M 63) ∧ (q.rts = 0 → p.visit + m ≤ M) ∧
      (M ≤ 63 → p.visit + m ≤ 63) := by
  induction h with
  | refl => exact absurd rfl hm
  | @step m p q r h hop ih =>
    obtain ⟨_, h2, h3, _⟩ := hop.spec
    have e : p.visit + m = q.visit := by
      by_cases h0 : m = 0
      · subst h0; cases h; rfl
      · exact (ih h0).1
    refine ⟨by omega, ?_, ?_, ?_⟩
    · unfold transitLimit at h3; split at h3 <;> omega
    · intro hr; rw [transitLimit, if_pos hr] at h3; omega
    · intro h63; unfold transitLimit at h3; split at h3 <;> omega

/-- C19 and C20 along the way: the payload stays; the endpoints stay until the packet is turned
around, which happens at most once, only if the sender asked for it; from then on they stay swapped. -/
theorem turned_at_most_once (M m : Nat) (p q : DataPkt) (h : Hops M m p q) :
    q.payload = p.payload ∧
    (SameBody p q ∨ (IsReturn p q ∧ p.rqr ≠ 0 ∧ p.rts = 0)) := by
  induction h with
  | refl => exact ⟨rfl, Or.inl ⟨rfl, rfl, rfl, rfl, rfl⟩⟩
  | @step m p q r h hop ih =>
    obtain ⟨h1, _, _, h4⟩ := hop.spec
    refine ⟨by rw [h1, ih.1], ?_⟩
    rcases ih.2 with a | ⟨a, r1, r2⟩
    · rcases h4 with b | ⟨b, s1, s2⟩
      · left
        exact ⟨by rw [b.1, a.1], by rw [b.2.1, a.2.1], by rw [h1, ih.1], by rw [b.2.2.2.1, a.2.2.2.1],
          by rw [b.2.2.2.2, a.2.2.2.2]⟩
      · right
        refine ⟨⟨by rw [b.1, a.2.1], by rw [b.2.1, a.1], by rw [h1, ih.1], b.2.2.2.1, b.2.2.2.2⟩, ?_, ?_⟩
        · rw [← a.2.2.2.1]; exact s1
        · rw [← a.2.2.2.2]; exact s2
    · rcases h4 with b | ⟨b, s1, s2⟩
      · right
        refine ⟨⟨by rw [b.1, a.1], by rw [b.2.1, a.2.1], by rw [h1, ih.1], by rw [b.2.2.2.1, a.2.2.2.1],
          by rw [b.2.2.2.2, a.2.2.2.2]⟩, r1, r2⟩
      · exfalso
        rw [a.2.2.2.2] at s2
        omega

/-- A returned packet can not be turned again: whatever the tables, it keeps its endpoints, and a packet
for which no return was requested keeps them too. -/
theorem no_second_return (M m : Nat) (p q : DataPkt) (h : Hops M m p q) (hr : p.rts ≠ 0 ∨ p.rqr = 0) :
    SameBody p q := by
  rcases (turned_at_most_once M m p q h).2 with h | ⟨_, h1, h2⟩
  · exact h
  · rcases hr with hr | hr
    · exact absurd h2 hr
    · exact absurd hr h1

/-- What is sent on is received by the next router as the same packet: short format. -/
theorem received_as_sent_short (n : RNode) (p q : DataPkt) (c k : Nat)
    (h : forward n p (some c) false = .send k q) (hn : n.maxvisits ≤ 63) (h1 : p.rqr < 2) (h2 : p.rts < 2)
    (hd : RoutPkt.goodNode p.dst) (hs : RoutPkt.goodNode p.src) :
    ∃ b g, Fields.encode RoutPkt.ShortData.cls (wire 0 .ptp4 q).attrs = .ok b ∧
      Fields.decode RoutPkt.ShortData.cls b = .ok (g, []) ∧
      RoutPkt.carries (RoutPkt.ShortData.cls.get g) (wire 0 .ptp4 q) := by
  obtain ⟨_, _, h3, h4⟩ := transit_send n p q c k h
  have hv : q.visit < 64 := by
    unfold transitLimit at h3; split at h3 <;> omega
  have hq : q.rqr < 2 ∧ q.rts < 2 ∧ RoutPkt.goodNode q.dst ∧ RoutPkt.goodNode q.src := by
    rcases h4 with ⟨⟨e1, e2, _, e4, e5⟩, _⟩ | ⟨⟨e1, e2, _, e4, e5⟩, _⟩
    · rw [e1, e2, e4, e5]; exact ⟨h1, h2, hd, hs⟩
    · rw [e1, e2, e4, e5]; exact ⟨by omega, by omega, hs, hd⟩
  obtain ⟨f, rest, g, e, _, _, e2, e3⟩ := RoutPkt.short_roundtrip (wire 0 .ptp4 q) hq.1 hq.2.1 rfl hq.2.2.1 hq.2.2.2 hv
  exact ⟨_, g, e, e2, e3⟩

/-- The same for long format. -/
theorem received_as_sent_long (n : RNode) (p q : DataPkt) (c k : Nat)
    (h : forward n p (some c) false = .send k q) (hn : n.maxvisits ≤ 63) (h1 : p.rqr < 2) (h2 : p.rts < 2)
    (h3 : p.ie < 2) (hd : RoutPkt.goodNode p.dst) (hs : RoutPkt.goodNode p.src) :
    ∃ b g, Fields.encode RoutPkt.LongData.cls (wire 0 .lan q).attrs = .ok b ∧
      Fields.decode RoutPkt.LongData.cls b = .ok (g, []) ∧
      RoutPkt.carries (RoutPkt.LongData.cls.get g) (wire 0 .lan q) := by
  obtain ⟨_, _, h5, h4⟩ := transit_send n p q c k h
  have hv : q.visit < 256 := by
    unfold transitLimit at h5; split at h5 <;> omega
  have hq : q.rqr < 2 ∧ q.rts < 2 ∧ RoutPkt.goodNode q.dst ∧ RoutPkt.goodNode q.src := by
    rcases h4 with ⟨⟨e1, e2, _, e4, e5⟩, _⟩ | ⟨⟨e1, e2, _, e4, e5⟩, _⟩
    · rw [e1, e2, e4, e5]; exact ⟨h1, h2, hd, hs⟩
    · rw [e1, e2, e4, e5]; exact ⟨by omega, by omega, hs, hd⟩
  have hie : q.ie < 2 := by
    rcases transit_spec n p c with ⟨_, e⟩ | ⟨k', q', _, _, e, _, _, h6, _⟩ | ⟨_, hx⟩
    · rw [h] at e; cases e
    · rw [h] at e; cases e; omega
    · rcases hx with ⟨_, _, hx⟩ | ⟨_, e⟩
      · rcases hx with ⟨_, e, _⟩ | ⟨k', q', e, _, _, _, h6, _⟩ | e
        · rw [h] at e; cases e
        · rw [h] at e; cases e; omega
        · rw [h] at e; cases e
      · rw [h] at e; cases e
  obtain ⟨f, rest, g, e, _, _, e2, e3⟩ := RoutPkt.long_roundtrip (wire 0 .lan q) hq.1 hq.2.1 hie hq.2.2.1 hq.2.2.2 hv
  exact ⟨_, g, e, e2, e3⟩

/-- To a Phase III neighbour the packet is sent in short format with the node number alone as
destination; the source loses its area exactly if it is in ours. -/
theorem phase3_wire (home : Nat) (q : DataPkt) (h1 : q.rqr < 2) (h2 : q.rts < 2) (hs : q.src < 65536) (hv : q.visit < 64) :
    Fields.encode RoutPkt.ShortData.cls (wire home .ptp3 q).attrs =
      .ok (UInt8.ofNat (2 + 8 * q.rqr + 16 * q.rts) :: (Fields.le 2 (q.dst % 1024) ++
        Fields.le 2 (if q.src / 1024 = home then q.src % 1024 else q.src) ++ UInt8.ofNat q.visit :: q.payload)) :=
  RoutPkt.short_wire (wire home .ptp3 q) h1 h2 (by simp only [wire]; omega) (by simp only [wire]; split <;> omega) hv

/-- Node 1.5 to node 2.7, on a link to a Phase III neighbour of area 1. -/
example : Fields.encode RoutPkt.ShortData.cls (wire 1 .ptp3 ⟨0, 0, 1, 2055, 1029, 3, [9]⟩).attrs =
    .ok [2, 7, 0, 5, 0, 3, 9] := phase3_wire 1 ⟨0, 0, 1, 2055, 1029, 3, [9]⟩ (by decide) (by decide) (by decide) (by decide)

/-! ## With the router's own tables -/

/-- A packet goes up to NSP exactly if it is for this node (or, for an attached router, for node 0 of its
area, which no packet can be addressed to on the wire). -/
theorem to_nsp_iff (c : Route.Cfg) (hm : c.lim.maxcost ≤ 1022) (ht : 1 ≤ c.tid) (htn : c.tid ≤ c.maxnodes)
    (htm : c.tid < 1024) (ha : 1 ≤ c.area) (h : List Route.Ev) (hv : Route.Valid h) (r : Route.Router)
    (hr : Route.run c h = some r) (maxvisits : Nat) (circ : Nat → Nat) (p : DataPkt) (hp : RoutPkt.goodNode p.dst)
    (inp : Nat) :
    forward ⟨c.area * 1024 + c.tid, maxvisits, fun d => r.findoadj (d / 1024) (d % 1024), circ⟩ p (some inp) false =
      .toNsp p ↔ p.dst = c.area * 1024 + c.tid := by
  have hs := Route.self_iff c hm ht htn ha h hv r hr (p.dst / 1024) (p.dst % 1024)
  have hne := hp.2
  have key : r.findoadj (p.dst / 1024) (p.dst % 1024) = .via .self ↔ p.dst = c.area * 1024 + c.tid := by
    rw [hs]
    constructor
    · rintro ⟨h1, h2 | ⟨_, h2⟩⟩
      · omega
      · exact absurd h2 hne
    · intro e
      have e1 : p.dst / 1024 = c.area := by omega
      have e2 : p.dst % 1024 = c.tid := by omega
      exact ⟨e1, Or.inl e2⟩
  rw [← key]
  constructor
  · intro e
    rcases transit_spec ⟨c.area * 1024 + c.tid, maxvisits, fun d => r.findoadj (d / 1024) (d % 1024), circ⟩ p inp with
      ⟨e1, _⟩ | ⟨k', q', _, _, e1, _⟩ | ⟨_, hx⟩
    · exact e1
    · rw [e] at e1; cases e1
    · rcases hx with ⟨_, r2, hx⟩ | ⟨_, e1⟩
      · rcases hx with ⟨q, e1, _, e2, _⟩ | ⟨k', q', e1, _⟩ | e1
        · rw [e] at e1; cases e1
          have := e2.2.2.2.2
          omega
        · rw [e] at e1; cases e1
        · rw [e] at e1; cases e1
      · rw [e] at e1; cases e1
  · intro e; exact forward_self e

/-! ## End nodes -/

/-- An end node passes up what is for it and nothing else; what it could not send is given back to
NSP if return was asked for. -/
theorem endnode_spec (own : Nat) (p : DataPkt) :
    (endDispatch own p = .toNsp p ↔ p.dst = own) ∧ (∀ q, endDispatch own p = .toNsp q → q = p) ∧
    (∀ k q, endDispatch own p ≠ .send k q) ∧
    (∀ payload dst rqr k q, endSend own true payload dst rqr = .send k q →
      q.payload = payload ∧ q.dst = dst ∧ q.src = own ∧ q.rts = 0 ∧ dst ≠ own) ∧
    (∀ payload dst q, dst ≠ own → endSend own false payload dst true = .toNsp q →
      q.payload = payload ∧ q.dst = own ∧ q.src = dst ∧ q.rts = 1 ∧ q.rqr = 0) := by
  refine ⟨?_, ?_, ?_, ?_, ?_⟩
  · unfold endDispatch; split <;> simp_all
  · intro q; unfold endDispatch; split
    · intro e; cases e; rfl
    · intro e; cases e
  · intro k q; unfold endDispatch; split <;> simp
  · intro payload dst rqr k q h
    unfold endSend at h
    simp only at h
    by_cases hd : dst ≠ own
    · rw [if_pos hd] at h
      simp at h
      obtain ⟨_, rfl⟩ := h
      exact ⟨rfl, rfl, rfl, rfl, hd⟩
    · rw [if_neg hd] at h
      simp only [Decidable.not_not] at hd
      simp [endDispatch, hd] at h
  · intro payload dst q hd h
    unfold endSend at h
    simp only [ne_eq, hd, not_false_eq_true, if_true, endDispatch] at h
    simp at h
    subst h
    exact ⟨rfl, rfl, rfl, rfl, rfl⟩

/-! ## Cases -/

/-- Two routers whose tables point at each other for destination 1025, and back to 2050 as well. -/
def loopNode (own : Nat) : RNode := ⟨own, 4, fun _ => .via (.nbr 1), fun k => k⟩

/-- A packet with return requested makes 4 transits, is turned around, and dies after 8. -/
example : Hops 4 4 ⟨1, 0, 0, 1025, 2050, 0, [9]⟩ ⟨1, 0, 0, 1025, 2050, 4, [9]⟩ := by
  have hop : ∀ v, v < 4 → Hop 4 ⟨1, 0, 0, 1025, 2050, v, [9]⟩ ⟨1, 0, 0, 1025, 2050, v + 1, [9]⟩ := by
    intro v hv
    refine ⟨loopNode 1, 0, 1, ⟨1, 0, 0, 1025, 2050, v + 1, [9]⟩, .ptp4, Nat.le_refl _, ?_, by decide, rfl⟩
    rw [forward_send (k := 1) rfl (Or.inr (by simp)) (by simpa [limit, loopNode] using hv)]
    rfl
  exact .step (.step (.step (.step (.refl _) (hop 0 (by omega))) (hop 1 (by omega))) (hop 2 (by omega))) (hop 3 (by omega))

example : ∃ q, forward (loopNode 1) ⟨1, 0, 0, 1025, 2050, 4, [9]⟩ (some 0) false = .send 1 q ∧
    q.dst = 2050 ∧ q.src = 1025 ∧ q.rts = 1 ∧ q.visit = 5 := by
  have hu : Undeliverable (loopNode 1) ⟨1, 0, 0, 1025, 2050, 4, [9]⟩ false :=
    Or.inr (Or.inr ⟨⟨1, rfl⟩, by simp [limit, loopNode]⟩)
  rw [forward_fail hu (Or.inr (by simp)), if_pos (by simp),
    forward_send (k := 1) rfl (Or.inr (by simp)) (by simp [limit, loopNode, returned])]
  exact ⟨_, rfl, rfl, rfl, rfl, rfl⟩

end Verif.Forward
