import Verif.ScanVer.Props

/-!
# C143: texts and numbers
-/

namespace Verif.ScanVer

theorem big_snoc (b : List Nat) (x : Nat) : big (b ++ [x]) = 256 * big b + x := by
  unfold big; rw [List.foldl_append]; rfl

theorem toBig_big (r : List Nat) (h : ∀ x ∈ r, x < 256) :
    toBig r.length (big r.reverse) = r.reverse ∧ big r.reverse < 256 ^ r.length := by
  induction r with
  | nil => exact ⟨rfl, by simp [big]⟩
  | cons x r ih =>
    obtain ⟨h1, h2⟩ := ih fun y hy => h y (by simp [hy])
    have hx := h x (by simp)
    rw [List.reverse_cons, big_snoc, List.length_cons]
    refine ⟨?_, ?_⟩
    · unfold toBig
      rw [show (256 * big r.reverse + x) / 256 = big r.reverse by omega, show (256 * big r.reverse + x) % 256 = x by omega, h1]
    · rw [Nat.pow_succ]; omega

theorem big_inj {a b : List Nat} (ha : Eight a) (hb : Eight b) (h : big a = big b) : a = b := by
  have key : ∀ c, Eight c → toBig 8 (big c) = c := by
    intro c hc
    have := (toBig_big c.reverse (fun x hx => hc.2 x (List.mem_reverse.1 hx))).1
    rw [List.reverse_reverse, List.length_reverse, hc.1] at this
    exact this
  rw [← key a ha, ← key b hb, h]

/-- Two hexadecimal texts are the same verification exactly if they are the same number. -/
theorem number_inj (int16 : Str → Option Nat) (s t : Str) (hs : Hex s) (ht : Hex t) (b c : List Nat)
    (h1 : scanVer int16 s = .ok b) (h2 : scanVer int16 t = .ok c) : b = c ↔ int16 s = int16 t := by
  have e1 := (hex_iff int16 s hs).1 b h1
  have e2 := (hex_iff int16 t ht).1 c h2
  rw [e1, e2, Option.some.injEq]
  exact ⟨fun h => by rw [h], fun h => big_inj (eight int16 s b h1) (eight int16 t c h2) h⟩

/-- Every verification that is accepted may also be given as a number. -/
theorem also_number (int16 : Str → Option Nat) (s t : Str) (ht : Hex t) (b : List Nat) (h1 : scanVer int16 s = .ok b)
    (h2 : int16 t = some (big b)) : scanVer int16 t = .ok b := by
  have hb := eight int16 s b h1
  have hl : big b < 2 ^ 64 := by
    have := (toBig_big b.reverse (fun x hx => hb.2 x (List.mem_reverse.1 hx))).2
    rw [List.reverse_reverse, List.length_reverse, hb.1] at this
    exact this
  obtain ⟨c, hc, he⟩ := (hex_iff int16 t ht).2.1 _ h2 hl
  rw [hc, big_inj (eight int16 t c hc) hb he]

example : big [65, 66, 0, 0, 0, 0, 0, 0] = 0x4142000000000000 := by decide

end Verif.ScanVer
