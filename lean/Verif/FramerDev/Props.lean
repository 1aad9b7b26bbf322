import Verif.FramerDev.Model

/-!
# C142: the device of a framer
-/

namespace Verif.FramerDev

/-! ## Specification -/

/-- The modes: name, code, loops or not. -/
inductive IsMode : String → Nat → Bool → Prop where
  | dte : IsMode "rs232_dte" 0 false
  | dce : IsMode "rs232_dce" 2 false
  | integral : IsMode "integral" 1 false
  | coax : IsMode "coax" 1 false
  | loopback : IsMode "loopback" 1 true

/-- `m`, in any case, is the start of the name. -/
def Abbrev (m : Str) (name : String) : Prop := ∃ r, m.map Char.toLower ++ r = name.toList

/-- The start of the name of this mode and of no other. -/
def Means (m : Str) (name : String) : Prop := Abbrev m name ∧ ∀ n c l, IsMode n c l → Abbrev m n → n = name

/-- The interface asked for, or the only framer there is. -/
def Interface {A : Type} (fs : List (Str × A)) (d : Str) (x : Str × A) : Prop :=
  if d = ['*'] then fs = [x] else x ∈ fs ∧ x.1 = d

/-- The forms of a device; no speed is 0. -/
inductive Device (int : Str → Option Int) : Str → Str → Str → Int → Prop where
  | short (d m : Str) (hd : ':' ∉ d) (hm : ':' ∉ m) : Device int (d ++ ':' :: m) d m 0
  | full (d m s : Str) (v : Int) (hd : ':' ∉ d) (hm : ':' ∉ m) (hs : ':' ∉ s) (hv : int s = some v) :
      Device int (d ++ ':' :: m ++ ':' :: s) d m v

/-! ## Lemmas -/

theorem split_ne (s : Str) : split s ≠ [] := by
  cases s with
  | nil => simp [split]
  | cons c r =>
    unfold split
    split
    · simp
    · split <;> simp

theorem split_none {s : Str} (h : ':' ∉ s) : split s = [s] := by
  induction s with
  | nil => rfl
  | cons c r ih =>
    simp only [List.mem_cons, not_or] at h
    unfold split
    rw [if_neg fun e => h.1 e.symm, ih h.2]

theorem split_colon {s : Str} (h : ':' ∉ s) (t : Str) : split (s ++ ':' :: t) = s :: split t := by
  induction s with
  | nil => simp [split]
  | cons c r ih =>
    simp only [List.mem_cons, not_or] at h
    rw [List.cons_append, split.eq_2, if_neg fun e => h.1 e.symm, ih h.2]

theorem split_parts (s : Str) (p : Str) (ps : List Str) (h : split s = p :: ps) :
    ':' ∉ p ∧ (ps = [] ∧ s = p ∨ ∃ t, s = p ++ ':' :: t ∧ split t = ps) := by
  induction s generalizing p ps with
  | nil =>
    simp only [split, List.cons.injEq] at h
    obtain ⟨rfl, rfl⟩ := h
    simp
  | cons c r ih =>
    unfold split at h
    split at h
    · rename_i hc
      injection h with h1 h2
      subst h1; subst hc
      exact ⟨by simp, Or.inr ⟨r, rfl, h2⟩⟩
    · rename_i hc
      cases hr : split r with
      | nil => exact absurd hr (split_ne r)
      | cons q qs =>
        rw [hr] at h
        injection h with h1 h2
        subst h1; subst h2
        obtain ⟨h3, h4⟩ := ih q qs hr
        refine ⟨by simp only [List.mem_cons, not_or]; exact ⟨fun e => hc e.symm, h3⟩, ?_⟩
        rcases h4 with ⟨rfl, rfl⟩ | ⟨t, rfl, ht⟩
        · exact Or.inl ⟨rfl, rfl⟩
        · exact Or.inr ⟨t, rfl, ht⟩

/-- The device is of one of the forms exactly if it has two or three parts, the third a number. -/
theorem device_iff (int : Str → Option Int) (s d m : Str) (v : Int) :
    Device int s d m v ↔ ∃ rest, split s = d :: m :: rest ∧ rest.length ≤ 1 ∧ speed int rest = some v := by
  constructor
  · rintro (⟨_, _, hd, hm⟩ | ⟨_, _, t, _, hd, hm, hs, hv⟩)
    · exact ⟨[], by rw [split_colon hd, split_none hm], by simp, rfl⟩
    · refine ⟨[t], ?_, by simp, hv⟩
      rw [List.append_assoc, List.cons_append, split_colon hd, split_colon hm, split_none hs]
  · rintro ⟨rest, h, hl, hv⟩
    obtain ⟨hd, h1⟩ := split_parts _ _ _ h
    rcases h1 with ⟨h1, _⟩ | ⟨t, rfl, h1⟩
    · cases h1
    obtain ⟨hm, h2⟩ := split_parts _ _ _ h1
    rcases h2 with ⟨rfl, rfl⟩ | ⟨u, rfl, h2⟩
    · simp only [speed, Option.some.injEq] at hv
      subst hv
      exact .short d t hd hm
    · match rest, hl, hv, h2 with
      | [], _, _, h2 => exact absurd h2 (split_ne u)
      | [x], _, hv, h2 =>
        obtain ⟨hx, h3⟩ := split_parts _ _ _ h2
        rcases h3 with ⟨_, rfl⟩ | ⟨w, _, h3⟩
        · have := Device.full (int := int) d m u v hd hm hx hv
          simpa using this
        · exact absurd h3 (split_ne w)

theorem find_iff {A : Type} {fs : List (Str × A)} (hn : (fs.map (·.1)).Nodup) (d : Str) (x : Str × A) :
    find fs d = some x ↔ Interface fs d x := by
  unfold find Interface
  by_cases hd : d = ['*']
  · rw [if_pos hd, if_pos hd]
    match fs with
    | [] => simp
    | [y] => simp
    | y :: z :: r => simp
  · rw [if_neg hd, if_neg hd]
    constructor
    · intro h
      exact ⟨List.mem_of_find?_eq_some h, by simpa using List.find?_some h⟩
    · rintro ⟨h1, h2⟩
      induction fs with
      | nil => cases h1
      | cons y r ih =>
        rw [List.map_cons, List.nodup_cons] at hn
        rw [List.find?_cons]
        rcases List.mem_cons.1 h1 with rfl | h1
        · simp [h2]
        · have : ¬ y.1 = d := by
            rintro e
            exact hn.1 (List.mem_map.2 ⟨x, h1, by rw [h2, e]⟩)
          simp only [this, decide_false]
          exact ih hn.2 h1

theorem scan_some (m : Str) (t : List Mode) (a x : Nat × Nat) :
    scan m t (some a) = some (some x) ↔ x = a ∧ ∀ y ∈ t, ¬ m <+: y.name := by
  induction t with
  | nil => simp [scan, eq_comm]
  | cons y r ih =>
    unfold scan
    by_cases hp : m <+: y.name
    · rw [if_pos (List.isPrefixOf_iff_prefix.2 hp)]
      simp [hp]
    · rw [if_neg (by rwa [List.isPrefixOf_iff_prefix]), ih]
      simp [hp]

theorem scan_none (m : Str) (t : List Mode) (x : Nat × Nat) (hn : t.Nodup) :
    scan m t none = some (some x) ↔ ∃ y ∈ t, m <+: y.name ∧ (y.code, y.loop) = x ∧ ∀ z ∈ t, m <+: z.name → z = y := by
  induction t with
  | nil => simp [scan]
  | cons y r ih =>
    rw [List.nodup_cons] at hn
    unfold scan
    by_cases hp : m <+: y.name
    · rw [if_pos (List.isPrefixOf_iff_prefix.2 hp)]
      simp only [scan_some]
      constructor
      · rintro ⟨rfl, h⟩
        refine ⟨y, by simp, hp, rfl, ?_⟩
        intro z hz hzp
        rcases List.mem_cons.1 hz with rfl | hz
        · rfl
        · exact absurd hzp (h z hz)
      · rintro ⟨w, hw, _, hx, hu⟩
        have := hu y (by simp) hp
        subst this
        refine ⟨hx.symm, ?_⟩
        intro z hz hzp
        have := hu z (by simp [hz]) hzp
        subst this
        exact hn.1 hz
    · rw [if_neg (by rwa [List.isPrefixOf_iff_prefix]), ih hn.2]
      constructor
      · rintro ⟨w, hw, h1, h2, h3⟩
        refine ⟨w, by simp [hw], h1, h2, ?_⟩
        intro z hz hzp
        rcases List.mem_cons.1 hz with rfl | hz
        · exact absurd hzp hp
        · exact h3 z hz hzp
      · rintro ⟨w, hw, h1, h2, h3⟩
        rcases List.mem_cons.1 hw with rfl | hw
        · exact absurd h1 hp
        · exact ⟨w, hw, h1, h2, fun z hz => h3 z (by simp [hz])⟩

theorem mode_mem (n : String) (c : Nat) (l : Bool) (h : IsMode n c l) :
    (⟨n.toList, c, if l then 1 else 0⟩ : Mode) ∈ modes := by
  cases h <;> simp [modes]

theorem mem_mode (y : Mode) (h : y ∈ modes) :
    ∃ n c l, IsMode n c l ∧ y = ⟨n.toList, c, if l then 1 else 0⟩ := by
  simp only [modes, List.mem_cons, List.not_mem_nil, or_false] at h
  rcases h with rfl | rfl | rfl | rfl | rfl
  · exact ⟨_, _, _, .dte, rfl⟩
  · exact ⟨_, _, _, .dce, rfl⟩
  · exact ⟨_, _, _, .integral, rfl⟩
  · exact ⟨_, _, _, .coax, rfl⟩
  · exact ⟨_, _, _, .loopback, rfl⟩

theorem mode_val {n : String} {c : Nat} {l : Bool} (h : IsMode n c l) : (c, l) =
    if n = "rs232_dte" then (0, false) else if n = "rs232_dce" then (2, false)
    else if n = "loopback" then (1, true) else (1, false) := by
  cases h <;> decide

theorem toList_inj {a b : String} (h : a.toList = b.toList) : a = b := String.toList_inj.1 h

/-! ## C142 -/

/-- A mode is taken exactly if what is given, in any case, is the start of its name and of no other's. -/
theorem mode_iff (m : Str) (c l : Nat) :
    resolve m = some (c, l) ↔ ∃ n b, IsMode n c b ∧ l = (if b then 1 else 0) ∧ Means m n := by
  have h0 : resolve m = some (c, l) ↔ scan (m.map Char.toLower) modes none = some (some (c, l)) := by
    unfold resolve
    split
    · rename_i h; rw [h]; simp
    · rename_i h
      constructor
      · intro h'; cases h'
      · intro h'; exact absurd h' (h _)
  rw [h0, scan_none _ _ _ (by decide)]
  constructor
  · rintro ⟨y, hy, hp, he, hu⟩
    obtain ⟨n, c', b, hm, rfl⟩ := mem_mode y hy
    injection he with h1 h2
    subst h1
    refine ⟨n, b, hm, h2.symm, hp, ?_⟩
    intro n' c2 b2 hm' ha
    have := hu _ (mode_mem _ _ _ hm') ha
    injection this with h3
    exact toList_inj h3
  · rintro ⟨n, b, hm, rfl, ha, hu⟩
    refine ⟨_, mode_mem _ _ _ hm, ha, rfl, ?_⟩
    intro z hz hzp
    obtain ⟨n', c', b', hm', rfl⟩ := mem_mode z hz
    have := hu _ _ _ hm' hzp
    subst this
    have h1 := mode_val hm
    rw [← mode_val hm', Prod.mk.injEq] at h1
    rw [h1.1, h1.2]

/-- Every mode may be given by its full name. -/
theorem full_name (n : String) (c : Nat) (b : Bool) (h : IsMode n c b) :
    resolve n.toList = some (c, if b then 1 else 0) := by
  cases h <;> decide

/-- A device is accepted exactly if it has one of the two forms, the interface is a framer (or `*`, and there is one framer
only), the mode is clear and the speed a number; loopback without a speed, or with 0, runs at 1000000. -/
theorem accepted_iff {A : Type} (int : Str → Option Int) (fs : List (Str × A)) (hn : (fs.map (·.1)).Nodup) (s : Str)
    (r : Dev A) :
    make int fs s = some r ↔ ∃ d m v n b, Device int s d m v ∧ Interface fs d (r.dev, r.addr) ∧ IsMode n r.mode b ∧
      Means m n ∧ r.loop = (if b then 1 else 0) ∧ r.speed = if b = true ∧ v = 0 then 1000000 else v := by
  constructor
  · intro h
    unfold make at h
    split at h
    · rename_i d m rest hs
      split at h
      · cases h
      · rename_i hl
        split at h
        · rename_i x v y hx hv hy
          injection h with h
          subst h
          obtain ⟨n, b, h1, h2, h3⟩ := (mode_iff m y.1 y.2).1 hy
          refine ⟨d, m, v, n, b, (device_iff ..).2 ⟨rest, hs, by omega, hv⟩, (find_iff hn ..).1 hx, h1, h3, h2, ?_⟩
          rw [h2]
          cases b <;> simp
        · cases h
    · cases h
  · rintro ⟨d, m, v, n, b, hd, hi, hm, ha, hl, hv⟩
    obtain ⟨rest, hs, hr, hsp⟩ := (device_iff ..).1 hd
    have hx := (find_iff hn ..).2 hi
    have hy := (mode_iff m r.mode r.loop).2 ⟨n, b, hm, hl, ha⟩
    unfold make
    rw [hs]
    simp only []
    rw [if_neg (by omega), hx, hsp, hy]
    simp only [Option.some.injEq]
    cases r
    simp only [Dev.mk.injEq, true_and]
    simp only at hl hv
    rw [hv, hl]
    cases b <;> simp

example : (make (fun _ => some 56000) [("eth1".toList, 7)] "*:RS232_DT:56000".toList).map
    (fun r => (r.addr, r.mode, r.loop, r.speed)) = some (7, 0, 0, 56000) := by decide

example : (make (fun _ => none) [("eth1".toList, 7)] "eth1:l".toList).map
    (fun r => (r.addr, r.mode, r.loop, r.speed)) = some (7, 1, 1, 1000000) := by decide

example : (make (fun _ => none) [("eth1".toList, 7)] "eth1:rs232".toList).isNone = true := by decide

end Verif.FramerDev
