import Verif.EthPort.Refine
import Verif.Framing.Props
/-!
# C109: which frames a port gets, for every history of calls
-/
namespace Verif.EthPort

open Verif.Framing (Bytes)
open Verif.Framing.Eth (bytesLe isMulti parts)

theorem bytesLe_num {a b : UInt8} : bytesLe [a, b] [0x05, 0xdc] = decide (a.toNat * 256 + b.toNat ≤ 1500) := by
  have ha := a.toNat_lt
  have hb := b.toNat_lt
  simp only [bytesLe, UInt8.lt_iff_toNat_lt, ← UInt8.toNat_inj]
  have e5 : (5 : UInt8).toNat = 5 := rfl
  have e6 : (220 : UInt8).toNat = 220 := rfl
  rw [e5, e6]
  split
  · rename_i h; simp only [true_eq_decide_iff]; omega
  · split
    · rename_i h1 h2
      split
      · simp only [true_eq_decide_iff]; omega
      · split
        · simp only [true_eq_decide_iff]; omega
        · simp only [false_eq_decide_iff]; omega
    · simp only [false_eq_decide_iff]; omega

theorem Frame.le {f : Frame} (hf : f.Ok) : bytesLe f.type [0x05, 0xdc] = decide (f.num ≤ 1500) := by
  obtain ⟨a, b, e⟩ := Verif.Framing.len2 hf.2.2
  simp only [Frame.num, e]
  exact bytesLe_num

theorem Frame.bytes_ne {f : Frame} (hf : f.Ok) : f.bytes ≠ [] := by
  intro h
  have := congrArg List.length h
  simp [Frame.bytes, hf.1] at this

theorem Frame.parts {f : Frame} (hf : f.Ok) :
    f.bytes.take 6 = f.dest ∧ (f.bytes.drop 6).take 6 = f.src ∧ (f.bytes.drop 12).take 2 = f.type ∧
    f.bytes.drop 14 = f.rest := Verif.Framing.Eth.parts hf.1 hf.2.1 hf.2.2

theorem Frame.get14 {f : Frame} (hf : f.Ok) (n : Nat) : f.bytes[14 + n]? = f.rest[n]? := by
  rw [← (Frame.parts hf).2.2.2, List.getElem?_drop]

theorem Frame.frameKey {f : Frame} (hf : f.Ok) : frameKey f.bytes = f.key := by
  obtain ⟨_, _, h3, _⟩ := Frame.parts hf
  simp only [EthPort.frameKey, h3, Frame.le hf, Frame.key, decide_eq_true_eq]
  have := Frame.get14 hf 0
  simp only [Nat.add_zero] at this
  rw [this]
  cases f.rest <;> rfl

theorem Frame.extent {f : Frame} (hf : f.Ok) :
    (f.bytes.drop (extent f.bytes).2).take (extent f.bytes).1 =
      if f.num ≤ 1500 then (f.rest.drop 3).take f.num else f.rest := by
  obtain ⟨_, _, h3, h4⟩ := Frame.parts hf
  simp only [EthPort.extent, h3, Frame.le hf, decide_eq_true_eq]
  split
  · dsimp only
    rw [show (17 : Nat) = 14 + 3 from rfl, ← List.drop_drop, h4]
    rfl
  · dsimp only
    rw [h4, ← h4]
    apply List.take_of_length_le
    simp

theorem payload_iff {f : Frame} (hf : f.Ok) (p : Port) (i j : Nat) (src pl : Bytes) :
    payload p i f.bytes = .deliver j src pl ↔ i = j ∧ src = f.src ∧ PayloadOf p.pad f pl := by
  obtain ⟨_, h2, h3, h4⟩ := Frame.parts hf
  have g0 := Frame.get14 hf 0
  have g1 := Frame.get14 hf 1
  simp only [Nat.add_zero] at g0
  have hlen : f.bytes.length = 14 + f.rest.length := by simp [Frame.bytes, hf.1, hf.2.1, hf.2.2]; omega
  have h16 : f.bytes.drop 16 = f.rest.drop 2 := by
    rw [show (16 : Nat) = 14 + 2 from rfl, ← List.drop_drop, h4]
  simp only [payload, PayloadOf, h2]
  cases hp : p.pad with
  | true =>
    simp only [if_true, g0, g1]
    match hr : f.rest with
    | [] => simp
    | [a] => simp
    | a :: b :: tail =>
      simp only [List.getElem?_cons_zero, List.getElem?_cons_succ]
      rw [hlen, h16, hr]
      simp only [List.length_cons, List.drop_succ_cons, List.drop_zero, List.cons.injEq]
      split
      · rename_i hlt
        simp only [reduceCtorEq, false_iff]
        rintro ⟨_, _, a', b', fill, ⟨rfl, rfl, e⟩, hl⟩
        have := congrArg List.length e
        simp at this
        omega
      · rename_i hge
        simp only [Rx.deliver.injEq]
        constructor
        · rintro ⟨rfl, rfl, rfl⟩
          refine ⟨rfl, rfl, a, b, tail.drop (a.toNat + b.toNat * 256), ⟨rfl, rfl, ?_⟩, ?_⟩
          · exact (List.take_append_drop _ _).symm
          · simp; omega
        · rintro ⟨rfl, rfl, a', b', fill, ⟨rfl, rfl, e⟩, hl⟩
          refine ⟨rfl, rfl, ?_⟩
          rw [e, ← hl, List.take_left']
          rfl
  | false =>
    simp only [Bool.false_eq_true, if_false, Rx.deliver.injEq, Frame.extent hf]
    constructor
    · rintro ⟨rfl, rfl, rfl⟩
      refine ⟨rfl, rfl, ?_⟩
      split <;> rfl
    · rintro ⟨rfl, rfl, h⟩
      refine ⟨rfl, rfl, ?_⟩
      split <;> simp_all

theorem holder_isSome {hw : Bytes} {k : Key} {h : List Op} : (holder hw k h).isSome = asked k h := by
  cases ha : asked k h with
  | false => rw [holder_none.2 ha]; rfl
  | true =>
    cases hh : holder hw k h with
    | some i => rfl
    | none => rw [holder_none.1 hh] at ha; simp at ha

theorem accepts_iff {single hw h s} (ha : Abs single hw h s) {i : Nat} {p : Port} (hp : s.ports[i]? = some p)
    (dest : Bytes) : accepts s p dest = true ↔ Listens single hw h i dest := by
  have hh := ha.port i p hp
  simp only [accepts, Listens, Bool.or_eq_true, decide_eq_true_eq, hh.mac, List.contains_iff_mem, hh.group, hh.promisc]
  rw [or_assoc, eq_comm]

/-- C109: for every history of calls a frame is handed to port `i` exactly if that port was the first to ask for its
type or service access point, the source is an individual address, the destination is the address last set (or else the
hardware address), or a group address that was added and not removed since, or the port was last set promiscuous, and
the payload is what the frame says.  In particular no frame goes to two ports or to a port that did not ask for it. -/
theorem delivered_iff {single hw s h} (hr : Reach single hw s h) (f : Frame) (hf : f.Ok) (i : Nat) (src pl : Bytes) :
    (receive s f.bytes).2 = .deliver i src pl ↔
      (∃ k, f.key = some k ∧ holder hw k h = some i) ∧ src = f.src ∧ isMulti f.src = false ∧
      Listens single hw h i f.dest ∧ ∃ pad, ((made hw h)[i]?).map Prod.snd = some pad ∧ PayloadOf pad f pl := by
  have ha := hr.abs
  have hi := hr.inv
  obtain ⟨h1, h2, h3, h4⟩ := Frame.parts hf
  simp only [receive, if_neg (Frame.bytes_ne hf), Frame.frameKey hf]
  cases hk : f.key with
  | none => simp
  | some k =>
    dsimp only
    cases hl : lookup s.reg k with
    | none =>
      simp only [Option.bind_none]
      simp [← ha.reg, hl]
    | some j =>
      have hj := hi.idx _ (lookup_some_mem hl)
      obtain ⟨p, hp⟩ : ∃ p, s.ports[j]? = some p := ⟨_, List.getElem?_eq_getElem hj⟩
      have hpad := (ha.port j p hp).pad
      have hacc := accepts_iff ha hp f.dest
      simp only [Option.bind_some, hp, Option.map_some, h1, h2]
      rw [if_neg (by simp [hf.2.1])]
      by_cases hm : isMulti f.src = true
      · simp [hm]
      · have hm : isMulti f.src = false := by simpa using hm
        rw [if_neg (by simp [hm])]
        by_cases hacc' : accepts s p f.dest = true
        · rw [if_pos hacc']
          dsimp only
          rw [payload_iff hf]
          have hL := hacc.1 hacc'
          constructor
          · rintro ⟨rfl, rfl, hpl⟩
            exact ⟨⟨k, rfl, by rw [← ha.reg, hl]⟩, rfl, hm, hL, p.pad, hpad, hpl⟩
          · rintro ⟨⟨k', e, hk'⟩, rfl, _, _, pad, hpad', hpl⟩
            cases e
            rw [← ha.reg, hl] at hk'
            cases hk'
            rw [hpad] at hpad'
            cases hpad'
            exact ⟨rfl, rfl, hpl⟩
        · rw [if_neg hacc']
          simp only [reduceCtorEq, false_iff]
          rintro ⟨⟨k', e, hk'⟩, _, _, hL, _⟩
          cases e
          rw [← ha.reg, hl] at hk'
          cases hk'
          exact hacc' (hacc.2 hL)

/-- C109: a type or access point belongs to the first port that asked, forever: later requests and attempts to give
it back change nothing. -/
theorem holder_forever {hw : Bytes} {k : Key} {i : Nat} {h : List Op} (hk : holder hw k h = some i) :
    ∀ h', holder hw k (h' ++ h) = some i
  | [] => hk
  | op :: h' => by
    simp only [List.cons_append, holder, holder_forever hk h']
    rfl

/-- C109: a port is made exactly if its type is two bytes that nobody asked for before. -/
theorem create_iff {single hw s h} (hr : Reach single hw s h) (t : Option Bytes) (pad : Bool) :
    (create s t pad).2 = none ↔ ∃ u, t = some u ∧ u.length = 2 ∧ asked (.type u) h = false := by
  have ha := hr.abs
  simp only [create]
  cases t with
  | none => simp
  | some t =>
    dsimp only
    have : (lookup (newfilter s).reg (.type t)).isSome = true ↔ asked (.type t) h = true := by
      rw [newfilter_reg, ha.reg, holder_isSome]
    split
    · rename_i h2; simp [h2]
    · rename_i h2
      have h2 : t.length = 2 := by omega
      split
      · rename_i h3; simp [this.1 h3]
      · rename_i h3
        rw [this] at h3
        simp only [Bool.not_eq_true] at h3
        simp [h2, h3]

/-- C109: a further type can be had exactly if nobody, this port included, asked for it before. -/
theorem addProto_iff {single hw s h} (hr : Reach single hw s h) {i : Nat} (_hi : i < s.ports.length) (t : Bytes) :
    (addProto s i t).2 = none ↔ t.length = 2 ∧ asked (.type t) h = false := by
  have ha := hr.abs
  have : (lookup s.reg (.type t)).isSome = true ↔ asked (.type t) h = true := by
    rw [ha.reg, holder_isSome]
  simp only [addProto]
  split
  · rename_i h2; simp [h2]
  · rename_i h2
    have h2 : t.length = 2 := by omega
    split
    · rename_i hc
      cases hp : s.ports[i]? with
      | none => rw [hp] at hc; simp at hc
      | some p =>
        rw [hp] at hc
        have h5 := (hr.own i p hp).protos t (by simpa using hc)
        have h3 := this.1 (by rw [h5]; rfl)
        simp [h3]
    · split
      · rename_i h3; simp [this.1 h3]
      · rename_i h3
        rw [this] at h3
        simp only [Bool.not_eq_true] at h3
        simp [h2, h3]

/-- C109: what is refused changes nothing that decides on frames. -/
theorem refused_nothing (s : Dl) (i : Nat) (a : Bytes) :
    ((setMac s i a).2 ≠ none → (setMac s i a).1 = s) ∧ ((addMc s i a).2 ≠ none → (addMc s i a).1 = s) ∧
    ((rmMc s i a).2 ≠ none → (rmMc s i a).1 = s) ∧ ((addProto s i a).2 ≠ none → (addProto s i a).1 = s) := by
  refine ⟨?_, ?_, ?_, ?_⟩
  · simp only [setMac]; repeat' split
    all_goals simp
  · simp only [addMc]; repeat' split
    all_goals simp
  · simp only [rmMc]; repeat' split
    all_goals simp
  · simp only [addProto]; repeat' split
    all_goals simp

/-- C109 (finding): a type cannot be given back.  The call for a type the port has always fails, the port goes on
getting the frames, and asking for the type again fails too. -/
theorem remove_fails {single hw s h} (hr : Reach single hw s h) {i : Nat} {p : Port} (hp : s.ports[i]? = some p)
    {t : Bytes} (ht : t ∈ p.protoset) (h2 : t.length = 2) :
    (rmProto s i t).2 = some .attribute ∧ lookup (rmProto s i t).1.reg (.type t) = some i ∧
    (addProto (rmProto s i t).1 i t).2 = some .runtime := by
  have ho := (hr.own i p hp).protos t ht
  have e : rmProto s i t = (modify s i fun p => { p with protoset := p.protoset.filter (· ≠ t) }, some .attribute) := by
    simp only [rmProto]
    rw [if_neg (by simp [h2]), hp]
    simp [ht]
  rw [e]
  refine ⟨rfl, ho, ?_⟩
  simp only [addProto]
  rw [if_neg (by simp [h2])]
  have : ((modify s i fun p => { p with protoset := p.protoset.filter (· ≠ t) }).ports[i]?) =
      some { p with protoset := p.protoset.filter (· ≠ t) } := by
    rw [modify_ports, getElem?_modify', if_pos rfl, hp]; rfl
  rw [this]
  rw [if_neg (by simp), if_pos (by simp [ho])]

end Verif.EthPort
