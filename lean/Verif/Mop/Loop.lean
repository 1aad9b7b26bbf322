import Verif.Mop.Model
import Verif.Fields.Lemmas

/-!
# Lemmas about loop packets and receipt numbers
-/

namespace Verif.Mop

open Verif.Fields (le fromLe)

theorem genAfter_eq {r : Nat} (h1 : 1 ≤ r) (h2 : r ≤ 65535) (n : Nat) :
    genAfter r n = (r - 1 + n) % 65535 + 1 := by
  induction n with
  | zero => simp only [genAfter]; omega
  | succ n ih =>
    simp only [genAfter, next, ih]
    split <;> omega

theorem fromLe_le2 {n : Nat} (h : n < 65536) : fromLe (le 2 n) = n := by
  simp only [le, fromLe, UInt8.toNat_ofNat']
  omega

theorem le2_length (n : Nat) : (le 2 n).length = 2 := rfl

/-- When a packet is forwarded, and as what. -/
theorem forward_iff (b d p : Bytes) :
    loopDispatch b = .forward d p ↔
      ∃ skip rest, fromLe (b.take 2) = skip ∧ 2 ≤ b.length ∧ skip % 2 = 0 ∧ rest = b.drop (skip + 2) ∧
        8 ≤ rest.length ∧ fromLe (rest.take 2) = 2 ∧ d = (rest.drop 2).take 6 ∧ isMulti d = false ∧
        skip + 8 < 65536 ∧ b.length ≤ 1500 ∧ p = le 2 (skip + 8) ++ b.drop 2 := by
  unfold loopDispatch
  by_cases h0 : b.length < 2
  · rw [if_pos h0]
    constructor
    · intro h; exact absurd h (by simp)
    · rintro ⟨_, _, _, h, _⟩; omega
  rw [if_neg h0]
  simp only
  by_cases h1 : fromLe (b.take 2) % 2 = 1 ∨ fromLe (b.take 2) + 4 > b.length
  · rw [if_pos h1]
    constructor
    · intro h; exact absurd h (by simp)
    · rintro ⟨_, _, rfl, _, hm, rfl, hl, _⟩
      rw [List.length_drop] at hl
      omega
  rw [if_neg h1]
  by_cases h2 : fromLe ((b.drop (fromLe (b.take 2) + 2)).take 2) = 2
  · rw [if_pos h2]
    by_cases h3 : (b.drop (fromLe (b.take 2) + 2)).length < 8
    · rw [if_pos h3]
      constructor
      · intro h; exact absurd h (by simp)
      · rintro ⟨_, _, rfl, _, _, rfl, hl, _⟩
        omega
    rw [if_neg h3]
    by_cases h4 : isMulti (((b.drop (fromLe (b.take 2) + 2)).drop 2).take 6) = true
    · rw [if_pos h4]
      constructor
      · intro h; exact absurd h (by simp)
      · rintro ⟨_, _, rfl, _, _, rfl, _, _, rfl, hm, _⟩
        rw [hm] at h4; exact absurd h4 (by simp)
    rw [if_neg h4]
    by_cases h5 : fromLe (b.take 2) + 8 ≥ 65536 ∨ b.length > 1500
    · rw [if_pos h5]
      constructor
      · intro h; exact absurd h (by simp)
      · rintro ⟨_, _, rfl, _, _, rfl, _, _, rfl, _, _, _, _⟩
        omega
    rw [if_neg h5]
    constructor
    · intro h
      injection h with ha hb
      exact ⟨_, _, rfl, by omega, by omega, rfl, by omega, h2, ha.symm, by rw [← ha]; simpa using h4,
        by omega, by omega, hb.symm⟩
    · rintro ⟨_, _, rfl, _, _, rfl, _, _, rfl, _, _, _, rfl⟩
      rfl
  · rw [if_neg h2]
    constructor
    · intro h
      by_cases h3 : fromLe ((b.drop (fromLe (b.take 2) + 2)).take 2) = 1
      · rw [if_pos h3] at h
        split at h <;> simp at h
      · rw [if_neg h3] at h; simp at h
    · rintro ⟨_, _, rfl, _, _, rfl, _, h, _⟩
      exact absurd h h2

theorem onWire_length (b : Bytes) : (onWire b).length = max b.length 46 := by
  unfold onWire
  rw [List.length_append, List.length_replicate]
  omega

theorem onWire_long {b : Bytes} (h : 46 ≤ b.length) : onWire b = b := by
  unfold onWire
  rw [show 46 - b.length = 0 by omega]
  simp

/-- A forwarded packet differs from the received one only in the skip count, which grew by 8. -/
theorem forward_grows {b d p : Bytes} (h : loopDispatch b = .forward d p) :
    p.length = b.length ∧ p.drop 2 = b.drop 2 ∧
      fromLe (p.take 2) = fromLe (b.take 2) + 8 ∧ fromLe (b.take 2) + 10 ≤ b.length := by
  obtain ⟨skip, rest, rfl, h1, h2, rfl, h4, h5, h6, h7, h8, h9, rfl⟩ := (forward_iff b d p).mp h
  rw [List.length_drop] at h4
  refine ⟨?_, ?_, ?_, by omega⟩
  · rw [List.length_append, le2_length, List.length_drop]; omega
  · rw [List.drop_append, le2_length]; simp [le]
  · rw [show List.take 2 (le 2 (fromLe (List.take 2 b) + 8) ++ List.drop 2 b) =
      le 2 (fromLe (List.take 2 b) + 8) by simp [le]]
    exact fromLe_le2 h8

theorem path_bound {a b : Bytes} {l : List Bytes} {o : LoopOut} (h : Path a b l o) :
    1 ≤ l.length ∧ (2 ≤ l.length →
      fromLe ((onWire b).take 2) + 8 * (l.length - 1) + 2 ≤ (onWire b).length) := by
  induction h with
  | stop _ _ => exact ⟨Nat.le_refl _, by intro h; simp at h⟩
  | @hop at_ b d p l o hd hp ih =>
    obtain ⟨g1, g2, g3, g4⟩ := forward_grows hd
    have hp46 : 46 ≤ p.length := by rw [g1, onWire_length]; omega
    rw [onWire_long hp46] at ih
    rw [List.length_cons]
    refine ⟨by omega, fun _ => ?_⟩
    by_cases h2 : 2 ≤ l.length
    · have := ih.2 h2; omega
    · omega

theorem path_exists (a b : Bytes) : ∃ l o, Path a b l o := by
  suffices H : ∀ n a b, (onWire b).length - fromLe ((onWire b).take 2) ≤ n → ∃ l o, Path a b l o from
    H _ a b (Nat.le_refl _)
  intro n
  induction n with
  | zero =>
    intro a b hn
    refine ⟨[a], _, Path.stop rfl ?_⟩
    intro d p he
    have := forward_grows he
    omega
  | succ n ih =>
    intro a b hn
    cases ho : loopDispatch (onWire b) with
    | forward d p =>
      obtain ⟨g1, g2, g3, g4⟩ := forward_grows ho
      have hp46 : 46 ≤ p.length := by rw [g1, onWire_length]; omega
      obtain ⟨l, o, hl⟩ := ih d p (by rw [onWire_long hp46]; omega)
      exact ⟨a :: l, o, .hop ho hl⟩
    | _ => exact ⟨[a], _, .stop ho (by intro d p; simp)⟩

theorem path_unique {a b : Bytes} {l l' : List Bytes} {o o' : LoopOut} (h : Path a b l o)
    (h' : Path a b l' o') : l = l' ∧ o = o' := by
  induction h generalizing l' o' with
  | stop hd hn =>
    cases h' with
    | stop hd' _ => exact ⟨rfl, hd.symm.trans hd'⟩
    | hop hd' _ => exact absurd (hd.symm.trans hd') (hn _ _)
  | hop hd _ ih =>
    cases h' with
    | stop hd' hn' => exact absurd (hd'.symm.trans hd) (hn' _ _)
    | hop hd' hp' =>
      rw [hd] at hd'
      injection hd' with e1 e2
      subst e1; subst e2
      obtain ⟨rfl, rfl⟩ := ih hp'
      exact ⟨rfl, rfl⟩

theorem body_length (rnum : Nat) (payload : Bytes) (ds : List Bytes) (h : ∀ d ∈ ds, d.length = 6) :
    (loopBody rnum payload ds).length = 8 * ds.length + 4 + payload.length := by
  induction ds with
  | nil => simp only [loopBody, List.length_append, le2_length, List.length_nil]
  | cons d ds ih =>
    have := ih (fun x hx => h x (by simp [hx]))
    have hd := h d (by simp)
    simp only [loopBody, List.length_append, le2_length, List.length_cons]
    omega

theorem path_body (rnum : Nat) (payload pad : Bytes) (hr : rnum < 65536) (ds : List Bytes)
    (hds : ∀ d ∈ ds, d.length = 6 ∧ isMulti d = false) :
    ∀ (a b pre : Bytes) (k : Nat), pre.length = 8 * k →
      onWire b = le 2 (8 * k) ++ (pre ++ (loopBody rnum payload ds ++ pad)) →
      (onWire b).length ≤ 1500 → Path a b (a :: ds) (.reply rnum (payload ++ pad)) := by
  induction ds with
  | nil =>
    intro a b pre k hpre hb hl
    refine Path.stop ?_ (by intro d p; simp)
    have hlen := hl
    rw [hb] at hlen ⊢
    simp only [List.length_append, le2_length, loopBody, hpre] at hlen
    have e1 : List.take 2 (le 2 (8 * k) ++ (pre ++ (loopBody rnum payload [] ++ pad))) = le 2 (8 * k) := by
      simp [le]
    have e2 : fromLe (le 2 (8 * k)) = 8 * k := fromLe_le2 (by omega)
    have e3 : List.drop (8 * k + 2) (le 2 (8 * k) ++ (pre ++ (loopBody rnum payload [] ++ pad))) =
        le 2 1 ++ (le 2 rnum ++ (payload ++ pad)) := by
      rw [List.drop_append, le2_length, List.drop_of_length_le (by rw [le2_length]; omega),
        List.drop_append, List.drop_of_length_le (by omega), hpre,
        show 8 * k + 2 - 2 - 8 * k = 0 by omega]
      simp [loopBody]
    have e4 : List.take 2 (le 2 1 ++ (le 2 rnum ++ (payload ++ pad))) = le 2 1 := by simp [le]
    have e5 : List.drop 2 (le 2 1 ++ (le 2 rnum ++ (payload ++ pad))) = le 2 rnum ++ (payload ++ pad) := by
      simp [le]
    have e6 : List.take 2 (le 2 rnum ++ (payload ++ pad)) = le 2 rnum := by simp [le]
    have e7 : List.drop 4 (le 2 1 ++ (le 2 rnum ++ (payload ++ pad))) = payload ++ pad := by simp [le]
    unfold loopDispatch
    simp only [e1, e2, e3, e4, e5, e6, e7, fromLe_le2 hr]
    rw [if_neg (by simp only [List.length_append, le2_length]; omega),
      if_neg (by simp only [List.length_append, le2_length, loopBody, hpre]; omega),
      if_neg (by rw [fromLe_le2 (by omega)]; omega), if_pos (fromLe_le2 (by omega)),
      if_neg (by simp only [List.length_append, le2_length]; omega)]
  | cons d ds ih =>
    intro a b pre k hpre hb hl
    have hd := hds d (by simp)
    have hlen := hl
    rw [hb] at hlen
    simp only [List.length_append, le2_length, loopBody, hpre, hd.1] at hlen
    have hfw : loopDispatch (onWire b) =
        .forward d (le 2 (8 * (k + 1)) ++ ((pre ++ (le 2 2 ++ d)) ++ (loopBody rnum payload ds ++ pad))) := by
      rw [forward_iff]
      refine ⟨8 * k, le 2 2 ++ (d ++ (loopBody rnum payload ds ++ pad)), ?_, ?_, by omega, ?_, ?_, ?_,
        ?_, hd.2, by omega, hl, ?_⟩
      · rw [hb, show List.take 2 (le 2 (8 * k) ++ (pre ++ (loopBody rnum payload (d :: ds) ++ pad))) =
          le 2 (8 * k) by simp [le]]
        exact fromLe_le2 (by omega)
      · rw [hb, List.length_append, le2_length]; omega
      · rw [hb, List.drop_append, le2_length, List.drop_of_length_le (by rw [le2_length]; omega),
          List.drop_append, List.drop_of_length_le (by omega), hpre,
          show 8 * k + 2 - 2 - 8 * k = 0 by omega]
        simp [loopBody]
      · simp only [List.length_append, le2_length, hd.1]; omega
      · rw [show List.take 2 (le 2 2 ++ (d ++ (loopBody rnum payload ds ++ pad))) = le 2 2 by simp [le]]
        exact fromLe_le2 (by omega)
      · rw [show List.drop 2 (le 2 2 ++ (d ++ (loopBody rnum payload ds ++ pad))) =
          d ++ (loopBody rnum payload ds ++ pad) by simp [le]]
        rw [List.take_append_of_le_length (by omega), List.take_of_length_le (by omega)]
      · rw [hb, show List.drop 2 (le 2 (8 * k) ++ (pre ++ (loopBody rnum payload (d :: ds) ++ pad))) =
          pre ++ (loopBody rnum payload (d :: ds) ++ pad) by simp [le]]
        simp [loopBody, Nat.mul_add]
    obtain ⟨g1, _, _, _⟩ := forward_grows hfw
    refine Path.hop hfw (ih (fun x hx => hds x (by simp [hx])) d _ (pre ++ (le 2 2 ++ d)) (k + 1) ?_ ?_ ?_)
    · simp only [List.length_append, le2_length, hpre, hd.1]; omega
    · exact onWire_long (by rw [g1, onWire_length]; omega)
    · rw [onWire_long (by rw [g1, onWire_length]; omega), g1]; exact hl

end Verif.Mop
