import Verif.RoutMsg.Model
import Verif.Fields.Lemmas

namespace Verif.RoutMsg

open Verif.Fields (Bytes le fromLe)

theorem bind_ok {α β : Type} {x : Except Err α} {f : α → Except Err β} {y : β} :
    (x >>= f) = .ok y ↔ ∃ a, x = .ok a ∧ f a = .ok y := by
  cases x <;> simp [bind, Except.bind]

theorem pure_ok {α : Type} {a : α} : (pure a : Except Err α) = .ok a := rfl

theorem and_ffff (s : Nat) : s &&& 0xffff = s % 65536 := by
  have := Nat.and_two_pow_sub_one_eq_mod s 16
  simpa using this

theorem shr16 (s : Nat) : s >>> 16 = s / 65536 := by rw [Nat.shiftRight_eq_div_pow]

theorem fold_spec {s : Nat} (h : s < 4294967296) :
    fold s < 65536 ∧ fold s % 65535 = s % 65535 ∧ (0 < s → 0 < fold s) ∧ (s = 0 → fold s = 0) := by
  unfold fold
  simp only [and_ffff, shr16]
  omega

theorem wordBytes_ok {w : Nat} {b : Bytes} :
    wordBytes w = .ok b ↔ w < 65536 ∧ b = le 2 w := by
  unfold wordBytes; split <;> simp_all [eq_comm]

theorem wordsBytes_ok {ws : List Nat} {b : Bytes} :
    wordsBytes ws = .ok b ↔ (∀ w ∈ ws, w < 65536) ∧ b = ws.flatMap (le 2) := by
  induction ws generalizing b with
  | nil => simp [wordsBytes, eq_comm]
  | cons w ws ih =>
    simp only [wordsBytes, bind_ok, pure_ok, Except.ok.injEq]
    constructor
    · rintro ⟨b1, h1, b2, h2, rfl⟩
      obtain ⟨h3, rfl⟩ := wordBytes_ok.1 h1
      obtain ⟨h4, rfl⟩ := ih.1 h2
      exact ⟨by simpa using ⟨h3, h4⟩, rfl⟩
    · rintro ⟨h, rfl⟩
      exact ⟨_, wordBytes_ok.2 ⟨h w (by simp), rfl⟩, _,
        ih.2 ⟨fun x hx => h x (by simp [hx]), rfl⟩, rfl⟩

theorem toWords_le (w : Nat) (hw : w < 65536) (b : Bytes) :
    toWords (le 2 w ++ b) = w :: toWords b := by
  have h := Verif.Fields.fromLe_le_lt (k := 2) (n := w) (by norm_num; omega)
  simp only [le, List.cons_append, List.nil_append, toWords] at h ⊢
  rw [h]

theorem toWords_flatMap {ws : List Nat} (h : ∀ w ∈ ws, w < 65536) (b : Bytes) :
    toWords (ws.flatMap (le 2) ++ b) = ws ++ toWords b := by
  induction ws with
  | nil => rfl
  | cons w ws ih =>
    rw [List.flatMap_cons, List.append_assoc, toWords_le w (h w (by simp)),
      ih (fun x hx => h x (by simp [hx]))]
    rfl

theorem flatMap_length (ws : List Nat) : (ws.flatMap (le 2)).length = 2 * ws.length := by
  induction ws with
  | nil => rfl
  | cons w ws ih => simp [List.flatMap_cons, ih]; omega

theorem sum_le {ws : List Nat} (h : ∀ w ∈ ws, w < 65536) : ws.sum ≤ 65535 * ws.length := by
  induction ws with
  | nil => simp
  | cons w ws ih =>
    have h1 := h w (by simp)
    have := ih (fun x hx => h x (by simp [hx]))
    simp only [List.sum_cons, List.length_cons]
    omega

/-- Decoding, once the payload is known as words followed by a checksum word. -/
theorem decode_words {l2 : Bool} {src : Nat} (hsrc : src < 65536) {h : Bytes}
    (hh : hdr (if l2 then 4 else 3) src = .ok h) {ws : List Nat} {ck : Nat}
    (hws : ∀ w ∈ ws, w < 65536) (hck : ck < 65536) :
    decode l2 (h ++ (ws.flatMap (le 2) ++ le 2 ck)) =
      (let s := fold (ws.sum + (65535 - ck))
       if s = 0xfffe ∨ (s = 0xffff ∧ l2 = false) then
        if s = 0xffff then .ok (.ph3 src ws)
          else
            match segsDec l2 ws with
            | .error e => .error e
            | .ok segs => .ok (.ph4 src segs)
       else .error .checksum) := by
  unfold hdr at hh
  rw [if_pos hsrc] at hh
  injection hh with hh
  subst hh
  have hle : fromLe (le 2 src) = src := Verif.Fields.fromLe_le_lt (by norm_num; omega)
  have hdrop : (UInt8.ofNat (1 + 2 * (if l2 then 4 else 3)) :: le 2 src ++ [0] ++
      (ws.flatMap (le 2) ++ le 2 ck)).drop 4 = ws.flatMap (le 2) ++ le 2 ck := by
    rw [List.drop_left' (by simp)]
  have hw : toWords (ws.flatMap (le 2) ++ le 2 ck) = ws ++ [ck] := by
    rw [toWords_flatMap hws]
    have := toWords_le ck hck []
    rw [List.append_nil] at this
    rw [this]; rfl
  unfold decode
  simp only [hdrop, hw, residue]
  rw [if_neg (by
    rw [not_or]
    constructor
    · intro hc
      have := congrArg List.length hc
      simp at this
    · rw [List.length_append, flatMap_length, Verif.Fields.le_length]; omega)]
  rw [List.dropLast_concat, List.getLastD_concat]
  split
  · simp only [le, List.cons_append, List.nil_append]
    rw [if_neg]
    · simp only [le] at hle
      rw [hle]
      cases segsDec l2 ws <;> rfl
    · cases l2 <;> decide
  · rfl

/-- Segments written one after another are read back. -/
theorem segsDec_enc (l2 : Bool) (segs : List Seg)
    (h : ∀ s ∈ segs, segValid l2 s.entries.length s.startid = true) :
    segsDec l2 (segs.flatMap segWords) = .ok segs := by
  induction segs with
  | nil => rw [List.flatMap_nil, segsDec]
  | cons s segs ih =>
    rw [List.flatMap_cons, segWords, List.cons_append, List.cons_append, segsDec,
      if_pos (h s (by simp)), List.drop_left' rfl, List.take_left' rfl,
      ih (fun x hx => h x (by simp [hx]))]

theorem hdr_ok {t src : Nat} {h : Bytes} (hh : hdr t src = .ok h) : src < 65536 := by
  unfold hdr at hh
  split at hh
  · assumption
  · cases hh

theorem entry_split {h c : Nat} (hc : c < 1024) :
    (entry h c) >>> 10 = h ∧ (entry h c) &&& 1023 = c := by
  have h1 : ∀ x : Nat, x &&& 1023 = x % 1024 := by
    intro x
    have := Nat.and_two_pow_sub_one_eq_mod x 10
    simpa using this
  unfold entry
  rw [h1, Nat.shiftRight_eq_div_pow, Nat.shiftLeft_eq]
  omega

end Verif.RoutMsg
