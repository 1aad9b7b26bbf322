import Verif.MopId.Handler

namespace Verif.MopId

theorem le_spec : ∀ (n v : Nat) (b : Bytes), le n v = some b → b.length = n ∧ fromLe b = v ∧ v < 256 ^ n
  | 0, v, b, h => by
    unfold le at h
    split at h
    · injection h with h; subst h; subst_vars; simp [fromLe]
    · cases h
  | n + 1, v, b, h => by
    unfold le at h
    cases hr : le n (v / 256) with
    | none => rw [hr] at h; simp at h
    | some r =>
      rw [hr] at h
      simp only [Option.map_some, Option.some.injEq] at h
      obtain ⟨h1, h2, h3⟩ := le_spec n (v / 256) r hr
      subst h
      refine ⟨by simp [h1], ?_, ?_⟩
      · simp only [fromLe, h2]
        have : (UInt8.ofNat (v % 256)).toNat = v % 256 := by
          simp
        rw [this]; omega
      · rw [Nat.pow_succ]; omega

theorem le_some : ∀ (n v : Nat), v < 256 ^ n → ∃ b, le n v = some b
  | 0, v, h => by
    have : v = 0 := by simpa using h
    exact ⟨[], by unfold le; rw [if_pos this]⟩
  | n + 1, v, h => by
    obtain ⟨r, hr⟩ := le_some n (v / 256) (by rw [Nat.pow_succ] at h; omega)
    exact ⟨_, by unfold le; rw [hr]; rfl⟩

theorem take?_append (a b : Bytes) : take? a.length (a ++ b) = some (a, b) := by
  unfold take?
  rw [if_neg (by simp)]
  simp

theorem take?_app {n : Nat} (a b : Bytes) (h : a.length = n) : take? n (a ++ b) = some (a, b) := by
  subst h; exact take?_append a b

theorem take?_self {n : Nat} (a : Bytes) (h : a.length = n) : take? n a = some (a, []) := by
  have := take?_app a [] h
  simpa using this

theorem decNum_le {n v : Nat} {b : Bytes} (h : le n v = some b) : decNum n b = some v := by
  obtain ⟨h1, h2, _⟩ := le_spec n v b h
  unfold decNum; rw [take?_self b h1]; simp [h2]

theorem decFixed_enc {n : Nat} {x b : Bytes} (h : encFixed n x = some b) : decFixed n b = some x := by
  unfold encFixed at h
  split at h
  · rename_i hl; injection h with h; subst h
    unfold decFixed; rw [take?_self x hl]; rfl
  · cases h

theorem decFuncs_enc (f : Funcs) : decFuncs (encFuncs f) = some f := by
  obtain ⟨a, b, c, d, e, f, g, h⟩ := f
  cases a <;> cases b <;> cases c <;> cases d <;> cases e <;> cases f <;> cases g <;> cases h <;> rfl

theorem both_some {a b : Option Bytes} {z : Bytes} (h : both a b = some z) :
    ∃ x y, a = some x ∧ b = some y ∧ z = x ++ y := by
  cases a with
  | none => simp [both] at h
  | some x =>
    cases b with
    | none => simp [both] at h
    | some y => simp only [both, Option.some.injEq] at h; exact ⟨x, y, rfl, rfl, h.symm⟩

/-- An item is read as its tag and value. -/
theorem decItems_item {m : SysId} {tag : Nat} {v b rest : Bytes} (h : item tag v = some b) :
    decItems m (b ++ rest) = (decItem m tag v).bind fun m' => decItems m' rest := by
  unfold item at h
  cases ht : le 2 tag with
  | none => rw [ht] at h; cases h
  | some t =>
    cases hl : le 1 v.length with
    | none => rw [ht, hl] at h; cases h
    | some l =>
      rw [ht, hl] at h
      simp only [Option.some.injEq] at h
      obtain ⟨t1, t2, _⟩ := le_spec _ _ _ ht
      obtain ⟨l1, l2, _⟩ := le_spec _ _ _ hl
      match t, t1 with
      | [x, y], _ =>
        match l, l1 with
        | [z], _ =>
          subst h
          simp only [fromLe, Nat.mul_zero, Nat.add_zero] at t2 l2
          simp only [List.cons_append, List.nil_append]
          rw [decItems]
          rw [if_neg (by simp; omega), l2, t2]
          simp only [List.take_left', List.drop_left']
          cases decItem m tag v <;> rfl

theorem dec_opt {α : Type} {m m' : SysId} {tag : Nat} {enc : α → Option Bytes} {x : Option α}
    {b rest : Bytes} (h : optItem tag enc x = some b) (h0 : x = none → m' = m)
    (h1 : ∀ y e, x = some y → enc y = some e → decItem m tag e = some m') :
    decItems m (b ++ rest) = decItems m' rest := by
  cases x with
  | none =>
    simp only [optItem, Option.some.injEq] at h
    subst h; rw [h0 rfl]; rfl
  | some y =>
    simp only [optItem] at h
    cases he : enc y with
    | none => rw [he] at h; cases h
    | some e =>
      rw [he] at h
      simp only [Option.bind_some] at h
      rw [decItems_item h, h1 y e rfl he]; rfl

theorem signed_ofNat {n : Nat} (h : n < 128) : signed (UInt8.ofNat n) = n := by
  unfold signed
  have : (UInt8.ofNat n).toNat = n := by simp; omega
  rw [this, if_pos h]

/-- Texts of 1 to 127 bytes and numbers of the range come back. -/
theorem decSoft_enc {s : Option Soft} {b : Bytes} (h : encSoft s = some b)
    (hs : ∀ t, s = some (.text t) → t ≠ [] ∧ t.length ≤ 127) : decSoft none b = some s := by
  match s with
  | none => simp only [encSoft, Option.some.injEq] at h; subst h; rfl
  | some (.code n) =>
    simp only [encSoft] at h
    split at h
    · rename_i hn
      injection h with h
      have : n = -2 ∨ n = -1 ∨ n = 0 := by omega
      subst h
      rcases this with rfl | rfl | rfl <;> rfl
    · cases h
  | some (.text t) =>
    obtain ⟨h1, h2⟩ := hs t rfl
    simp only [encSoft] at h
    rw [if_pos (by omega)] at h
    injection h with h
    subst h
    have hp : 0 < t.length := by cases t; exact absurd rfl h1; simp
    have e : (UInt8.ofNat t.length).toNat = t.length := by simp; omega
    unfold decSoft
    simp only [signed_ofNat (show t.length < 128 by omega), e]
    rw [if_neg (by omega), if_neg (by omega), if_neg (by simp), if_neg (by simp)]
    simp

theorem decItems_nil (m : SysId) : decItems m [] = some m := by
  unfold decItems; rfl

/-- What is sent of the items is what is received. -/
theorem decItems_enc {m : SysId} {b : Bytes} (h : encItems m = some b) (hf : m.funcs.isSome)
    (hs : ∀ t, m.software = some (.text t) → t ≠ [] ∧ t.length ≤ 127) (ho : m.other = []) :
    decItems { receipt := m.receipt } b = some m := by
  obtain ⟨rc, v, f, u, rt, cs, rs, hw, tm, dv, sw, pr, dl, bs, ot⟩ := m
  simp only at hf hs ho
  subst ho
  obtain ⟨f, rfl⟩ := Option.isSome_iff_exists.mp hf
  unfold encItems at h
  obtain ⟨b1, r1, h1, g1, rfl⟩ := both_some h
  obtain ⟨b2, r2, h2, g2, rfl⟩ := both_some g1
  obtain ⟨b3, r3, h3, g3, rfl⟩ := both_some g2
  obtain ⟨b4, r4, h4, g4, rfl⟩ := both_some g3
  obtain ⟨b5, r5, h5, g5, rfl⟩ := both_some g4
  obtain ⟨b6, r6, h6, g6, rfl⟩ := both_some g5
  obtain ⟨b7, r7, h7, g7, rfl⟩ := both_some g6
  obtain ⟨b8, r8, h8, g8, rfl⟩ := both_some g7
  obtain ⟨b9, r9, h9, g9, rfl⟩ := both_some g8
  obtain ⟨b10, r10, h10, g10, rfl⟩ := both_some g9
  obtain ⟨b11, r11, h11, g11, rfl⟩ := both_some g10
  obtain ⟨b12, r12, h12, g12, rfl⟩ := both_some g11
  obtain ⟨b13, r13, h13, g13, rfl⟩ := both_some g12
  simp only [Option.some.injEq] at g13
  subst g13
  rw [dec_opt (m' := { receipt := rc, version := v }) h1 (by rintro rfl; rfl)
    (by rintro y e rfl he; simp only [decItem, decFixed_enc he, Option.map_some])]
  rw [decItems_item h2]
  simp only [decItem, Option.getD_some, decFuncs_enc, Option.map_some, Option.bind_some]
  rw [dec_opt (m' := { receipt := rc, version := v, funcs := some f, user := u }) h3 (by rintro rfl; rfl)
    (by rintro y e rfl he; simp only [decItem, decFixed_enc he, Option.map_some])]
  rw [dec_opt (m' := { receipt := rc, version := v, funcs := some f, user := u, resTimer := rt }) h4
    (by rintro rfl; rfl) (by rintro y e rfl he; simp only [decItem, decNum_le he, Option.map_some])]
  rw [dec_opt (m' := { receipt := rc, version := v, funcs := some f, user := u, resTimer := rt,
                       cmdSize := cs }) h5
    (by rintro rfl; rfl) (by rintro y e rfl he; simp only [decItem, decNum_le he, Option.map_some])]
  rw [dec_opt (m' := { receipt := rc, version := v, funcs := some f, user := u, resTimer := rt,
                       cmdSize := cs, respSize := rs }) h6
    (by rintro rfl; rfl) (by rintro y e rfl he; simp only [decItem, decNum_le he, Option.map_some])]
  rw [dec_opt (m' := { receipt := rc, version := v, funcs := some f, user := u, resTimer := rt,
                       cmdSize := cs, respSize := rs, hwaddr := hw }) h7
    (by rintro rfl; rfl) (by rintro y e rfl he; simp only [decItem, decFixed_enc he, Option.map_some])]
  have ht : tm = none := by
    cases tm with
    | none => rfl
    | some t => simp [optItem, encTime] at h8
  subst ht
  rw [dec_opt (m' := { receipt := rc, version := v, funcs := some f, user := u, resTimer := rt,
                       cmdSize := cs, respSize := rs, hwaddr := hw }) h8
    (by intro _; rfl) (by rintro y e h; cases h)]
  rw [dec_opt (m' := { receipt := rc, version := v, funcs := some f, user := u, resTimer := rt,
                       cmdSize := cs, respSize := rs, hwaddr := hw, device := dv }) h9
    (by rintro rfl; rfl) (by rintro y e rfl he; simp only [decItem, decNum_le he, Option.map_some])]
  obtain ⟨e10, h10a, h10b⟩ := Option.bind_eq_some_iff.mp h10
  rw [decItems_item h10b]
  simp only [decItem, decSoft_enc h10a hs, Option.map_some, Option.bind_some]
  rw [dec_opt (m' := { receipt := rc, version := v, funcs := some f, user := u, resTimer := rt,
                       cmdSize := cs, respSize := rs, hwaddr := hw, device := dv, software := sw,
                       processor := pr }) h11
    (by rintro rfl; rfl) (by rintro y e rfl he; simp only [decItem, decNum_le he, Option.map_some])]
  rw [dec_opt (m' := { receipt := rc, version := v, funcs := some f, user := u, resTimer := rt,
                       cmdSize := cs, respSize := rs, hwaddr := hw, device := dv, software := sw,
                       processor := pr, datalink := dl }) h12
    (by rintro rfl; rfl) (by rintro y e rfl he; simp only [decItem, decNum_le he, Option.map_some])]
  rw [dec_opt (m' := { receipt := rc, version := v, funcs := some f, user := u, resTimer := rt,
                       cmdSize := cs, respSize := rs, hwaddr := hw, device := dv, software := sw,
                       processor := pr, datalink := dl, bufsize := bs }) h13
    (by rintro rfl; rfl) (by rintro y e rfl he; simp only [decItem, decNum_le he, Option.map_some])]
  rw [decItems_nil]

end Verif.MopId
