import Verif.Lines.P2Props

/-!
# C134: names of devices and octal numbers, said apart from the model
-/

namespace Verif.Lines.P2

/-! ## Specification -/

/-- The characters of a number in octal, with its value. -/
inductive OctNum : Str → Nat → Prop where
  | digit (d : Nat) (h : d < 8) : OctNum [48 + d] d
  | more (s : Str) (n d : Nat) (h : d < 8) (hs : OctNum s n) : OctNum (s ++ [48 + d]) (8 * n + d)

/-- Devices and their codes. -/
def codes : List (String × Nat) :=
  [("DP", 0), ("DU", 2), ("DQ", 6), ("DA", 8), ("DUP", 10), ("DMC", 12), ("DLV", 14), ("DL", 16), ("DTE", 20), ("DV", 22),
    ("KDP", 28), ("KDZ", 30)]

/-! ## Lemmas -/

theorem octNum_oct {s : Str} {n : Nat} (h : OctNum s n) : oct s = n ∧ s ≠ [] ∧ ∀ x ∈ s, isOct x = true := by
  induction h with
  | digit d h =>
    refine ⟨by simp [oct], by simp, ?_⟩
    intro x hx
    rw [List.mem_singleton] at hx
    subst hx
    simp [isOct]
    omega
  | more s n d h hs ih =>
    obtain ⟨h1, h2, h3⟩ := ih
    refine ⟨?_, by simp, ?_⟩
    · unfold oct at h1 ⊢
      rw [List.foldl_append, h1]
      simp
    · intro x hx
      rw [List.mem_append, List.mem_singleton] at hx
      rcases hx with hx | rfl
      · exact h3 x hx
      · simp [isOct]; omega

theorem codes_ok : ∀ x ∈ codes, x.1.toList.map Char.toNat ≠ [] ∧ (x.1.toList.map Char.toNat).all isLetter = true ∧
    devcode ((x.1.toList.map Char.toNat).map upper) = some x.2 ∧
    ((x.1.toList.map Char.toNat).map (· + 32)).all isLetter = true ∧
    devcode (((x.1.toList.map Char.toNat).map (· + 32)).map upper) = some x.2 := by
  decide +kernel

theorem named_of {nm c u : Str} {code C U : Nat} (alt a b : Nat) (h1 : nm ≠ []) (h2 : nm.all isLetter = true)
    (h3 : devcode (nm.map upper) = some code) (ha : a = 45 ∨ a = 95) (hb : b = 45 ∨ b = 95)
    (hc : OctNum c C) (hC : C ≤ 255) (hu : u = [] ∧ U = 0 ∨ OctNum u U) (hU : U ≤ 255) :
    lineId (nm ++ a :: c ++ (if u = [] then [] else b :: u)) alt = some [1, code, C, U, 0] := by
  obtain ⟨c1, c2, c3⟩ := octNum_oct hc
  have hs : ∀ x : Nat, x = 45 ∨ x = 95 → isSep x = true := by rintro x (rfl | rfl) <;> rfl
  have hu' : oct u = U ∧ ∀ x ∈ u, isOct x = true := by
    rcases hu with ⟨rfl, rfl⟩ | hu
    · exact ⟨rfl, by simp⟩
    · exact ⟨(octNum_oct hu).1, (octNum_oct hu).2.2⟩
  have hform : Form (nm ++ a :: c ++ (if u = [] then [] else b :: u)) nm c u :=
    ⟨h1, c2, fun x hx => List.all_eq_true.1 h2 x hx, c3, hu'.2, a, b, hs a ha, hs b hb, rfl⟩
  unfold lineId standard
  rw [(parse_iff _ _ _ _).2 hform]
  simp only [h3, c1, hu'.1]
  rw [if_pos ⟨hC, hU⟩]

/-! ## Theorems -/

/-- The name of a device, in capital or small letters, with controller and perhaps unit in octal after `-` or `_`, stands
for its code and these numbers. -/
theorem device_name (x : String × Nat) (hx : x ∈ codes) (c u : Str) (C U alt a b : Nat) (ha : a = 45 ∨ a = 95)
    (hb : b = 45 ∨ b = 95) (hc : OctNum c C) (hC : C ≤ 255) (hu : u = [] ∧ U = 0 ∨ OctNum u U) (hU : U ≤ 255) :
    lineId (x.1.toList.map Char.toNat ++ a :: c ++ (if u = [] then [] else b :: u)) alt = some [1, x.2, C, U, 0] ∧
    lineId ((x.1.toList.map Char.toNat).map (· + 32) ++ a :: c ++ (if u = [] then [] else b :: u)) alt =
      some [1, x.2, C, U, 0] := by
  obtain ⟨h1, h2, h3, h4, h5⟩ := codes_ok x hx
  exact ⟨named_of alt a b h1 h2 h3 ha hb hc hC hu hU,
    named_of alt a b (by simpa using h1) h4 h5 ha hb hc hC hu hU⟩

/-- A name with a character that is no letter, no digit of octal, nor `-` or `_`, stands for the number of the line. -/
theorem other_name (s : Str) (x alt : Nat) (hx : x ∈ s) (h1 : x < 65 ∨ 90 < x) (h2 : x < 97 ∨ 122 < x)
    (h3 : x < 48 ∨ 55 < x) (h4 : x ≠ 45 ∧ x ≠ 95) (ha : alt ≤ 255) : lineId s alt = some [1, 20, 0, alt, 0] := by
  have hn : parse s = none := by
    cases hp : parse s with
    | none => rfl
    | some p =>
      obtain ⟨d, c, u⟩ := p
      obtain ⟨_, _, hd, hc, hu, a, b, hsa, hsb, rfl⟩ := (parse_iff s d c u).1 hp
      exfalso
      have l : isLetter x = true → False := by
        intro h; simp [isLetter] at h; omega
      have o : isOct x = true → False := by
        intro h; simp [isOct] at h; omega
      have e : ∀ y, isSep y = true → x ≠ y := by
        intro y hy e
        subst e
        rcases sep_cases hy with h | h
        · exact h4.1 h
        · exact h4.2 h
      simp only [List.mem_append, List.mem_cons] at hx
      rcases hx with (hx | hx | hx) | hx
      · exact l (hd x hx)
      · exact e a hsa hx
      · exact o (hc x hx)
      · split at hx
        · cases hx
        · rcases List.mem_cons.1 hx with hx | hx
          · exact e b hsb hx
          · exact o (hu x hx)
  unfold lineId standard
  rw [hn]
  exact if_pos ha

/-! ## Cases -/

example : OctNum ("17".toList.map Char.toNat) 15 := .more [49] 1 7 (by decide) (.digit 1 (by decide))

example : lineId ("dmc-17".toList.map Char.toNat) 3 = some [1, 12, 15, 0, 0] ∧
    lineId ("DMC-18".toList.map Char.toNat) 3 = some [1, 20, 0, 3, 0] := by decide +kernel

/-! ## Lines with one identification -/

theorem mem_enter (t : List (Bytes × Str)) (n : Str) (k : Bytes) (v : Str) :
    (k, v) ∈ enter t n ↔ (lineId n t.length = some k ∧ v = n) ∨ (lineId n t.length ≠ some k ∧ (k, v) ∈ t) := by
  unfold enter
  cases hl : lineId n t.length with
  | none => simp
  | some j =>
    simp only [Option.some.injEq, ne_eq]
    unfold put
    split
    · rename_i hj
      rw [List.mem_map]
      constructor
      · rintro ⟨⟨a, b⟩, hab, he⟩
        by_cases haj : a = j
        · rw [if_pos haj] at he
          injection he with h1 h2
          exact Or.inl ⟨h1, h2.symm⟩
        · rw [if_neg haj] at he
          injection he with h1 h2
          subst h1; subst h2
          exact Or.inr ⟨fun e => haj e.symm, hab⟩
      · rintro (⟨rfl, rfl⟩ | ⟨hne, hm⟩)
        · obtain ⟨x, hx, hxk⟩ := List.mem_map.1 hj
          exact ⟨x, hx, by rw [if_pos hxk]⟩
        · exact ⟨(k, v), hm, by rw [if_neg fun e => hne e.symm]⟩
    · rename_i hj
      rw [List.mem_append, List.mem_singleton, Prod.mk.injEq]
      constructor
      · rintro (h | ⟨rfl, rfl⟩)
        · refine Or.inr ⟨?_, h⟩
          rintro rfl
          exact hj (List.mem_map.2 ⟨_, h, rfl⟩)
        · exact Or.inl ⟨rfl, rfl⟩
      · rintro (⟨rfl, rfl⟩ | ⟨_, h⟩)
        · exact Or.inr ⟨rfl, rfl⟩
        · exact Or.inl h

/-- The line at place `n` gets the identification `k`: the number without a name of a device is that of the
identifications in use before it. -/
def Gets (names : List Str) (n : Nat) (v : Str) (k : Bytes) : Prop :=
  names[n]? = some v ∧ lineId v (table (names.take n)).length = some k

/-- Of several lines with one identification the last is the one that is asked for. -/
theorem last_wins (names : List Str) (k : Bytes) (v : Str) :
    (k, v) ∈ table names ↔ ∃ n, Gets names n v k ∧ ∀ m w, n < m → ¬ Gets names m w k := by
  have key : ∀ r : List Str, (k, v) ∈ table r.reverse ↔
      ∃ n, Gets r.reverse n v k ∧ ∀ m w, n < m → ¬ Gets r.reverse m w k := by
    intro r
    induction r with
    | nil => simp [table, Gets]
    | cons a r ih =>
      rw [List.reverse_cons]
      generalize r.reverse = l at ih ⊢
      have hold : ∀ n w, n < l.length → (Gets (l ++ [a]) n w k ↔ Gets l n w k) := by
        intro n w hn
        unfold Gets
        rw [List.getElem?_append_left hn, List.take_append_of_le_length (by omega)]
      have hnew : ∀ w, Gets (l ++ [a]) l.length w k ↔ w = a ∧ lineId a (table l).length = some k := by
        intro w
        unfold Gets
        simp only [List.getElem?_concat_length, Option.some.injEq, List.take_left']
        constructor
        · rintro ⟨rfl, h⟩; exact ⟨rfl, h⟩
        · rintro ⟨rfl, h⟩; exact ⟨rfl, h⟩
      have hin : ∀ {n w} {l' : List Str}, Gets l' n w k → n < l'.length := fun h => (List.getElem?_eq_some_iff.1 h.1).1
      rw [table_snoc, mem_enter, ih]
      constructor
      · rintro (⟨h, rfl⟩ | ⟨h, n, hg, hl⟩)
        · refine ⟨l.length, (hnew _).2 ⟨rfl, h⟩, ?_⟩
          intro m w hm hg
          have := hin hg
          simp at this
          omega
        · have hn := hin hg
          refine ⟨n, (hold _ _ hn).2 hg, ?_⟩
          intro m w hm hg'
          have hlt := hin hg'
          simp at hlt
          by_cases hml : m < l.length
          · exact hl m w hm ((hold _ _ hml).1 hg')
          · have : m = l.length := by omega
            subst this
            exact h ((hnew _).1 hg').2
      · rintro ⟨n, hg, hl⟩
        have hlt := hin hg
        simp at hlt
        by_cases hn : n < l.length
        · refine Or.inr ⟨fun h => hl l.length a hn ((hnew _).2 ⟨rfl, h⟩), n, (hold _ _ hn).1 hg, ?_⟩
          intro m w hm hg'
          exact hl m w hm ((hold _ _ (hin hg')).2 hg')
        · have : n = l.length := by omega
          subst this
          obtain ⟨rfl, h⟩ := (hnew _).1 hg
          exact Or.inl ⟨h, rfl⟩
  simpa using key names.reverse

example : table ["ETH-0".toList.map Char.toNat, "DTE-0".toList.map Char.toNat] =
    [([1, 20, 0, 0, 0], "DTE-0".toList.map Char.toNat)] := by decide +kernel

end Verif.Lines.P2
