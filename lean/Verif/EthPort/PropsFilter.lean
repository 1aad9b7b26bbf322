import Verif.EthPort.Props
/-!
# C110: the packet filter never hides a frame a port is to get
-/
namespace Verif.EthPort

open Verif.Framing (Bytes)
open Verif.Framing.Eth (bytesLe isMulti)

def InMap (m : List (Option Bytes × List Key)) (a : Option Bytes) (k : Key) : Prop := ∃ ks, (a, ks) ∈ m ∧ k ∈ ks

theorem inMap_addTo (a b : Option Bytes) (k k' : Key) :
    ∀ m, InMap (addTo m a k) b k' ↔ InMap m b k' ∨ (b = a ∧ k' = k)
  | [] => by simp [InMap, addTo]
  | (c, ks) :: m => by
    have ih := inMap_addTo a b k k' m
    simp only [addTo]
    split
    · rename_i e
      subst e
      constructor
      · rintro ⟨ks', hm, hk⟩
        rcases List.mem_cons.1 hm with e | hm
        · cases e
          split at hk
          · exact .inl ⟨ks, by simp, hk⟩
          · rcases List.mem_append.1 hk with hk | hk
            · exact .inl ⟨ks, by simp, hk⟩
            · exact .inr ⟨rfl, by simpa using hk⟩
        · exact .inl ⟨ks', by simp [hm], hk⟩
      · rintro (⟨ks', hm, hk⟩ | ⟨rfl, rfl⟩)
        · rcases List.mem_cons.1 hm with e | hm
          · cases e
            exact ⟨_, List.mem_cons_self, by split <;> simp [hk]⟩
          · exact ⟨ks', by simp [hm], hk⟩
        · refine ⟨_, List.mem_cons_self, ?_⟩
          split
          · rename_i hc; simpa using hc
          · simp
    · constructor
      · rintro ⟨ks', hm, hk⟩
        rcases List.mem_cons.1 hm with e | hm
        · cases e; exact .inl ⟨ks, by simp, hk⟩
        · rcases ih.1 ⟨ks', hm, hk⟩ with ⟨ks2, h1, h2⟩ | h
          · exact .inl ⟨ks2, by simp [h1], h2⟩
          · exact .inr h
      · intro h
        have : InMap m b k' ∨ (b = a ∧ k' = k) → InMap ((c, ks) :: addTo m a k) b k' := by
          intro h
          obtain ⟨ks', h1, h2⟩ := ih.2 h
          exact ⟨ks', by simp [h1], h2⟩
        rcases h with ⟨ks', hm, hk⟩ | h
        · rcases List.mem_cons.1 hm with e | hm
          · cases e; exact ⟨ks, by simp, hk⟩
          · exact this (.inl ⟨ks', hm, hk⟩)
        · exact this (.inr h)

theorem inMap_foldl (k k' : Key) (b : Option Bytes) :
    ∀ (l : List Bytes) m, InMap (l.foldl (fun m a => addTo m (some a) k) m) b k' ↔
      InMap m b k' ∨ ((∃ a ∈ l, b = some a) ∧ k' = k)
  | [], m => by simp
  | a :: l, m => by
    rw [List.foldl_cons, inMap_foldl k k' b l, inMap_addTo]
    constructor
    · rintro ((h | ⟨h1, h2⟩) | ⟨⟨x, hx, h1⟩, h2⟩)
      · exact .inl h
      · exact .inr ⟨⟨a, by simp, h1⟩, h2⟩
      · exact .inr ⟨⟨x, by simp [hx], h1⟩, h2⟩
    · rintro (h | ⟨⟨x, hx, h1⟩, h2⟩)
      · exact .inl (.inl h)
      · rcases List.mem_cons.1 hx with rfl | hx
        · exact .inl (.inr ⟨h1, h2⟩)
        · exact .inr ⟨⟨x, hx, h1⟩, h2⟩

theorem inMap_protomap (s : Dl) (b : Option Bytes) (k : Key) :
    ∀ r m, InMap (protomap s r m) b k ↔
      InMap m b k ∨ ∃ i p, (k, i) ∈ r ∧ s.ports[i]? = some p ∧ (b = macaddr s p ∨ ∃ a ∈ p.multicast, b = some a)
  | [], m => by simp [protomap]
  | (k', j) :: r, m => by
    simp only [protomap]
    cases hp : s.ports[j]? with
    | none =>
      dsimp only
      rw [inMap_protomap s b k r m]
      constructor
      · rintro (h | ⟨i, p, h1, h2⟩)
        · exact .inl h
        · exact .inr ⟨i, p, by simp [h1], h2⟩
      · rintro (h | ⟨i, p, h1, h2, h3⟩)
        · exact .inl h
        · rcases List.mem_cons.1 h1 with e | h1
          · cases e; rw [hp] at h2; simp at h2
          · exact .inr ⟨i, p, h1, h2, h3⟩
    | some q =>
      dsimp only
      rw [inMap_protomap s b k r, inMap_foldl, inMap_addTo]
      constructor
      · rintro (((h | ⟨h1, rfl⟩) | ⟨h1, rfl⟩) | ⟨i, p, h1, h2⟩)
        · exact .inl h
        · exact .inr ⟨j, q, by simp, hp, .inl h1⟩
        · exact .inr ⟨j, q, by simp, hp, .inr h1⟩
        · exact .inr ⟨i, p, by simp [h1], h2⟩
      · rintro (h | ⟨i, p, h1, h2, h3⟩)
        · exact .inl (.inl (.inl h))
        · rcases List.mem_cons.1 h1 with e | h1
          · cases e
            rw [hp] at h2
            cases h2
            rcases h3 with h3 | h3
            · exact .inl (.inl (.inr ⟨h3, rfl⟩))
            · exact .inl (.inr ⟨h3, rfl⟩)
          · exact .inr ⟨i, p, h1, h2, h3⟩

/-- What the key of a frame makes of it passes the test for that key. -/
theorem test_passes {small : Bytes → Bytes → Bool} {f : Frame} (hf : f.Ok) {k : Key} (hk : f.key = some k)
    {ks : List Key} (hm : k ∈ ks) : (tests ks).any (Test.passes small f.bytes) = true := by
  have h3 := (Frame.parts hf).2.2.1
  have h14 := Frame.get14 hf 0
  simp only [Nat.add_zero] at h14
  simp only [tests, List.any_map, List.any_eq_true]
  refine ⟨k, hm, ?_⟩
  simp only [Frame.key] at hk
  split at hk
  · rename_i hn
    cases hr : f.rest with
    | nil => rw [hr] at hk; simp at hk
    | cons a l =>
      rw [hr] at hk
      simp only [List.head?_cons, Option.map_some, Option.some.injEq] at hk
      subst hk
      simp [Test.passes, h14, hr]
  · rename_i hn
    simp only [Option.some.injEq] at hk
    subst hk
    simp [Test.passes, Frame.le hf, hn, h3]

/-- The filter that is in effect: the one given to libpcap last, at first none. -/
def seen (small : Bytes → Bytes → Bool) (s : Dl) (frame : Bytes) : Bool :=
  match s.installed with
  | none => true
  | some f => Filter.passes small f frame

theorem seen_opened {small} {s : Dl} (hi : Inv s) (ho : s.opened = true) (frame : Bytes) :
    seen small s frame = Filter.passes small (mkFilter s) frame := by
  rcases hi.inst ho with h | ⟨h1, h2⟩
  · simp [seen, h]
  · simp [seen, h1, h2, Filter.passes]

/-- C110: for every history of calls, whenever libpcap's filter was set, a frame that a port is to get passes the
filter that is in effect — unless it is addressed to the null address, which is nobody's. -/
theorem filter_sound {single hw s h} (hr : Reach single hw s h) (small : Bytes → Bytes → Bool) (f : Frame) (hf : f.Ok)
    {k : Key} (hk : f.key = some k) {i : Nat} (hh : holder hw k h = some i) (hl : Listens single hw h i f.dest)
    (hd : f.dest ≠ nullId) : seen small s f.bytes = true := by
  have hi := hr.inv
  have ha := hr.abs
  cases ho : s.opened with
  | false => simp [seen, hi.early ho]
  | true =>
    rw [seen_opened hi ho]
    have hlk : lookup s.reg k = some i := by rw [ha.reg, hh]
    have hmem := lookup_some_mem hlk
    obtain ⟨p, hp⟩ : ∃ p, s.ports[i]? = some p := ⟨_, List.getElem?_eq_getElem (hi.idx _ hmem)⟩
    have hd1 := (Frame.parts hf).1
    simp only [Filter.passes, mkFilter, Bool.or_eq_true]
    split
    · refine .inr ?_
      simp only [List.any_cons, List.any_nil, Bool.or_false, Bool.true_and]
      exact test_passes hf hk (List.mem_map.2 ⟨_, hmem, rfl⟩)
    · rename_i hpr
      refine .inr ?_
      have hnp : p.promisc = false := by
        cases hq : p.promisc with
        | false => rfl
        | true => exact absurd (List.any_eq_true.2 ⟨_, hmem, by simp [hp, hq]⟩) hpr
      have hab := ha.port i p hp
      have hin : InMap (protomap s s.reg []) (some f.dest) k := by
        rw [inMap_protomap]
        refine .inr ⟨i, p, hmem, hp, ?_⟩
        rcases hl with hl | hl | hl
        · exact .inl (by rw [hab.mac, hl])
        · rw [← hab.promisc, hnp] at hl; simp at hl
        · exact .inr ⟨f.dest, (hab.group _).2 hl, rfl⟩
      obtain ⟨ks, h1, h2⟩ := hin
      simp only [List.any_eq_true, List.mem_filterMap]
      refine ⟨⟨some f.dest, tests ks⟩, ⟨_, h1, by simp [hd]⟩, ?_⟩
      simp only [Bool.and_eq_true, decide_eq_true_eq, hd1, true_and]
      exact test_passes hf hk h2

/-- C110: together with C109, what is delivered without the filter is delivered with it. -/
theorem filter_transparent {single hw s h} (hr : Reach single hw s h) (small : Bytes → Bytes → Bool) (f : Frame)
    (hf : f.Ok) (hd : f.dest ≠ nullId) {i : Nat} {src pl : Bytes} (hx : (receive s f.bytes).2 = .deliver i src pl) :
    seen small s f.bytes = true := by
  obtain ⟨⟨k, hk, hh⟩, _, _, hl, _⟩ := (delivered_iff hr f hf i src pl).1 hx
  exact filter_sound hr small f hf hk hh hl hd

/-- A key for which the filter lets a frame through: the type, or byte 14 whatever the type. -/
def Near (small : Bytes → Bytes → Bool) (f : Frame) : Key → Prop
  | .sap n => f.rest.head? = some n
  | .type t => f.type = t ∨ (bytesLe t [0x05, 0xdc] = true ∧ small t f.bytes = true)

/-- C110: the filter is no wider than that: once the data link is open and there is an address to look for, a frame
that passes is for a type (or a byte 14) some port asked for, and if no port is promiscuous, for an address that port
listens to. -/
theorem filter_tight {single hw s h} (hr : Reach single hw s h) (small : Bytes → Bytes → Bool) (f : Frame) (hf : f.Ok)
    (ho : s.opened = true) (hne : ∃ k i a, holder hw k h = some i ∧ a ≠ nullId ∧ Listens single hw h i a)
    (hs : seen small s f.bytes = true) :
    ∃ k i, holder hw k h = some i ∧ Near small f k ∧
      ((∃ k' j, holder hw k' h = some j ∧ lastPromisc j h = true) ∨ Listens single hw h i f.dest) := by
  have hi := hr.inv
  have ha := hr.abs
  rw [seen_opened hi ho] at hs
  have hd1 := (Frame.parts hf).1
  have h3 := (Frame.parts hf).2.2.1
  have h14 := Frame.get14 hf 0
  simp only [Nat.add_zero] at h14
  have near : ∀ ks, (tests ks).any (Test.passes small f.bytes) = true → ∃ k ∈ ks, Near small f k := by
    intro ks hk
    simp only [tests, List.any_map, List.any_eq_true] at hk
    obtain ⟨k, hk, ht⟩ := hk
    refine ⟨k, hk, ?_⟩
    cases k with
    | sap n =>
      simp only [Function.comp_apply, Test.passes, h14, decide_eq_true_eq] at ht
      simp only [Near]
      cases hrr : f.rest with
      | nil => rw [hrr] at ht; simp at ht
      | cons a l => rw [hrr] at ht; simpa using ht
    | type t =>
      simp only [Function.comp_apply, Test.passes] at ht
      split at ht
      · rename_i hb; exact .inr ⟨hb, ht⟩
      · simp only [decide_eq_true_eq, h3] at ht; exact .inl ht
  have held : ∀ k i, (k, i) ∈ s.reg → holder hw k h = some i := fun k i hm => by
    rw [← ha.reg]; exact lookup_mem hi.nodup hm
  simp only [Filter.passes, mkFilter, Bool.or_eq_true] at hs
  split at hs
  · rename_i hpr
    simp only [List.isEmpty_cons, Bool.false_eq_true, false_or, List.any_cons, List.any_nil, Bool.or_false,
      Bool.true_and] at hs
    obtain ⟨k, hk, hn⟩ := near _ hs
    obtain ⟨⟨k1, i1⟩, hm1, rfl⟩ := List.mem_map.1 hk
    obtain ⟨⟨k2, i2⟩, hm2, hp2⟩ := List.any_eq_true.1 hpr
    refine ⟨k1, i1, held _ _ hm1, hn, .inl ⟨k2, i2, held _ _ hm2, ?_⟩⟩
    cases hp : s.ports[i2]? with
    | none => simp only [hp, Option.map_none, Option.getD_none, Bool.false_eq_true] at hp2
    | some p =>
      rw [← (ha.port i2 p hp).promisc]
      simpa [hp] using hp2
  · rename_i hpr
    rcases hs with hs | hs
    · -- the filter is not empty
      exfalso
      obtain ⟨k, i, a, hh, hna, hl⟩ := hne
      have hmem : (k, i) ∈ s.reg := lookup_some_mem (by rw [ha.reg, hh])
      obtain ⟨p, hp⟩ : ∃ p, s.ports[i]? = some p := ⟨_, List.getElem?_eq_getElem (hi.idx _ hmem)⟩
      have hab := ha.port i p hp
      have hnp : p.promisc = false := by
        cases hq : p.promisc with
        | false => rfl
        | true => exact absurd (List.any_eq_true.2 ⟨_, hmem, by simp [hp, hq]⟩) hpr
      have hin : InMap (protomap s s.reg []) (some a) k := by
        rw [inMap_protomap]
        refine .inr ⟨i, p, hmem, hp, ?_⟩
        rcases hl with hl | hl | hl
        · exact .inl (by rw [hab.mac, hl])
        · rw [← hab.promisc, hnp] at hl; simp at hl
        · exact .inr ⟨a, (hab.group _).2 hl, rfl⟩
      obtain ⟨ks, h1, _⟩ := hin
      rw [List.isEmpty_iff, List.filterMap_eq_nil_iff] at hs
      have := hs _ h1
      simp [hna] at this
    · simp only [List.any_eq_true, List.mem_filterMap, Bool.and_eq_true] at hs
      obtain ⟨c, ⟨⟨o, ks⟩, hm, hc⟩, hdst, ht⟩ := hs
      cases o with
      | none => simp at hc
      | some a =>
        simp only at hc
        split at hc
        · simp at hc
        · simp only [Option.some.injEq] at hc
          subst hc
          simp only [decide_eq_true_eq, hd1] at hdst
          subst hdst
          obtain ⟨k, hk, hn⟩ := near _ (List.any_eq_true.2 ht)
          have hin : InMap (protomap s s.reg []) (some f.dest) k := ⟨ks, hm, hk⟩
          rw [inMap_protomap] at hin
          rcases hin with ⟨_, h0, _⟩ | ⟨i, p, h1, h2, hor⟩
          · simp at h0
          · have hab := ha.port i p h2
            refine ⟨k, i, held _ _ h1, hn, .inr ?_⟩
            rcases hor with hor | ⟨x, hx, e⟩
            · exact .inl (by rw [← hab.mac, ← hor])
            · cases e; exact .inr (.inr ((hab.group _).1 hx))

end Verif.EthPort
