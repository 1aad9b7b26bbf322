import Verif.Addr.Model
import Verif.Fields.Lemmas
import Mathlib.Data.List.TakeDrop

/-!
# C12: node addresses convert without loss
-/

namespace Verif.Addr

open Verif.Fields (Bytes Err le fromLe toBytes toBytes_ok fromLe_le_lt le_fromLe' fromLe_lt)

/-! ## Helpers -/

theorem mk_ok {a n : Int} {wild : Bool} {area x : Int} :
    mk a n wild area = .ok x ↔ a ≤ 63 ∧ n ≤ 1023 ∧ ¬ (n = 0 ∧ a ≠ 0 ∧ wild = false) ∧
      x = (if a = 0 then area else a) * 1024 + n := by
  unfold mk
  split
  · rename_i h
    simp only [reduceCtorEq, false_iff]
    rintro ⟨h1, h2, h3, _⟩
    rcases h with h | h | h
    · omega
    · omega
    · exact h3 h
  · rename_i h
    rw [not_or, not_or] at h
    constructor
    · intro h1; injection h1 with h1; exact ⟨by omega, by omega, h.2.2, h1.symm⟩
    · rintro ⟨_, _, _, rfl⟩; rfl

theorem digit_rt (d : Nat) (h : d < 10) : digitVal (Char.ofNat ('0'.toNat + d)) = some d := by
  have : d = 0 ∨ d = 1 ∨ d = 2 ∨ d = 3 ∨ d = 4 ∨ d = 5 ∨ d = 6 ∨ d = 7 ∨ d = 8 ∨ d = 9 := by omega
  rcases this with rfl | rfl | rfl | rfl | rfl | rfl | rfl | rfl | rfl | rfl <;> decide

theorem natText_ne_nil (n : Nat) : natText n ≠ [] := by
  rw [natText]; split <;> simp

theorem parseNat_natText (n : Nat) : parseNat (natText n) = some n := by
  have key : ∀ n, (natText n).foldl addDigit (some 0) = some n := by
    intro n
    induction n using Nat.strong_induction_on with
    | _ n ih =>
      rw [natText]
      split
      · rename_i h
        simp only [List.foldl_cons, List.foldl_nil, addDigit, digit_rt n h]
        congr 1; omega
      · rename_i h
        rw [List.foldl_append, ih (n / 10) (by omega)]
        simp only [List.foldl_cons, List.foldl_nil, addDigit, digit_rt (n % 10) (by omega)]
        congr 1; omega
  unfold parseNat
  rw [if_neg (natText_ne_nil n), key]

theorem digitVal_dot {c : Char} {d : Nat} (h : digitVal c = some d) : c ≠ '.' := by
  rintro rfl
  simp [digitVal] at h

theorem natText_no_dot (n : Nat) : ∀ c ∈ natText n, c ≠ '.' := by
  induction n using Nat.strong_induction_on with
  | _ n ih =>
    rw [natText]
    split
    · rename_i h
      intro c hc
      rw [List.mem_singleton] at hc
      exact digitVal_dot (by rw [hc]; exact digit_rt n h)
    · rename_i h
      intro c hc
      rcases List.mem_append.1 hc with hc | hc
      · exact ih _ (by omega) c hc
      · rw [List.mem_singleton] at hc
        exact digitVal_dot (by rw [hc]; exact digit_rt (n % 10) (by omega))

theorem span_all {p : Char → Bool} {l : List Char} (h : ∀ c ∈ l, p c = true) :
    l.span p = (l, []) := by
  have h1 := List.takeWhile_append_of_pos (l₂ := []) h
  have h2 := List.dropWhile_append_of_pos (l₂ := []) h
  simp only [List.append_nil, List.takeWhile_nil, List.dropWhile_nil] at h1 h2
  rw [List.span_eq_takeWhile_dropWhile, h1, h2]

theorem span_stop {p : Char → Bool} {l r : List Char} {c : Char} (h : ∀ c ∈ l, p c = true)
    (hc : p c = false) : (l ++ c :: r).span p = (l, c :: r) := by
  rw [List.span_eq_takeWhile_dropWhile, List.takeWhile_append_of_pos h, List.dropWhile_append_of_pos h]
  simp [hc]

theorem parseId_plain (n : Nat) : parseId (natText n) = some (none, n) := by
  unfold parseId
  rw [span_all (by intro c hc; simpa using natText_no_dot n c hc)]
  simp [parseNat_natText]

theorem parseId_dotted (a n : Nat) :
    parseId (natText a ++ '.' :: natText n) = some (some a, n) := by
  unfold parseId
  rw [span_stop (by intro c hc; simpa using natText_no_dot a c hc) (by simp)]
  simp [parseNat_natText]

/-! ## Properties -/

/-- A DECnet address: area 1 to 63, node 1 to 1023. -/
def IsAddr (a n : Int) : Prop := 1 ≤ a ∧ a ≤ 63 ∧ 1 ≤ n ∧ n ≤ 1023

/-- C12: for every area 1..63 and node 1..1023 the pair denotes one address,
from which area and node number are recovered, and each other form — integer,
text, wire form and Ethernet address — converts back to that same address. -/
theorem address_forms (a n : Int) (h : IsAddr a n) :
    ∃ x, ofPair a n = .ok x ∧ area x = a ∧ tid x = n ∧ 0 < x ∧ x < 65536 ∧
      ofInt x = .ok x ∧
      ofText (text x) = .ok x ∧
      (∃ b, encode x = .ok b ∧ b.length = 2 ∧ ofBytes b = .ok x ∧
        ∀ rest, decode (b ++ rest) = .ok (x, rest)) ∧
      (∃ m, macOf x = .ok m ∧ m.length = 6 ∧ ofMac m = .ok x) := by
  obtain ⟨h1, h2, h3, h4⟩ := h
  have hx1 : (a * 1024 + n) / 1024 = a := by omega
  have hx2 : (a * 1024 + n) % 1024 = n := by omega
  have hmk : mk a n false 0 = .ok (a * 1024 + n) := by
    rw [mk_ok, if_neg (by omega)]
    exact ⟨h2, h4, by omega, rfl⟩
  have henc : encode (a * 1024 + n) = .ok (le 2 (a * 1024 + n).toNat) :=
    toBytes_ok.2 ⟨by omega, by norm_num; omega, rfl⟩
  have hle : fromLe (le 2 (a * 1024 + n).toNat) = (a * 1024 + n).toNat :=
    fromLe_le_lt (by norm_num; omega)
  have hcast : (((a * 1024 + n).toNat : Nat) : Int) = a * 1024 + n := by omega
  have hof : ofBytes (le 2 (a * 1024 + n).toNat) = .ok (a * 1024 + n) := by
    unfold ofBytes
    rw [if_neg (by simp)]
    simp only [hle, hcast, hx1, hx2]
    rw [if_neg (by omega)]
    exact hmk
  refine ⟨a * 1024 + n, hmk, hx1, hx2, by omega, by omega, ?_, ?_, ⟨_, henc, by simp, hof, ?_⟩, ?_⟩
  · unfold ofInt; rw [hx1, hx2]; exact hmk
  · unfold text
    rw [hx1, hx2, if_pos (by omega)]
    have e1 : intText a = natText a.toNat := by unfold intText; rw [if_neg (by omega)]
    have e2 : intText n = natText n.toNat := by unfold intText; rw [if_neg (by omega)]
    unfold ofText
    rw [e1, e2, parseId_dotted]
    simp only [ofPair]
    rw [Int.toNat_of_nonneg (by omega), Int.toNat_of_nonneg (by omega)]
    exact hmk
  · intro rest
    unfold decode
    rw [Verif.Fields.require_append (by simp), List.take_left' (by simp), List.drop_left' (by simp), hof]
    rfl
  · refine ⟨HIORD ++ le 2 (a * 1024 + n).toNat, by unfold macOf; rw [henc]; rfl, by simp [HIORD], ?_⟩
    unfold ofMac
    rw [List.take_left' (by rfl), List.drop_left' (by rfl), if_neg (by simp)]
    simp only [hle, hcast, hx1, hx2]
    rw [if_neg (by omega)]
    exact hmk

example : IsAddr 41 17 ∧ (ofPair 41 17).toOption = some 42001 ∧
    (encode 42001).toOption = some [0x11, 0xa4] ∧ text 42001 = ['4', '1', '.', '1', '7'] ∧
    (macOf 42001).toOption = some [0xaa, 0, 4, 0, 0x11, 0xa4] := by
  refine ⟨by unfold IsAddr; omega, by decide, by decide, ?_, by decide⟩
  have : ∀ n, n < 10 → natText n = [Char.ofNat ('0'.toNat + n)] := by
    intro n h; rw [natText, dif_pos h]
  have h41 : natText 41 = ['4', '1'] := by
    rw [natText, dif_neg (by omega), this 4 (by omega)]; decide
  have h17 : natText 17 = ['1', '7'] := by
    rw [natText, dif_neg (by omega), this 1 (by omega)]; decide
  show (if (42001 : Int) / 1024 ≠ 0 then intText (42001 / 1024) ++ '.' :: intText (42001 % 1024)
    else intText (42001 % 1024)) = _
  rw [if_pos (by decide), show (42001 : Int) / 1024 = 41 by decide,
    show (42001 : Int) % 1024 = 17 by decide]
  unfold intText
  rw [if_neg (by omega), if_neg (by omega)]
  show natText 41 ++ '.' :: natText 17 = _
  rw [h41, h17]; rfl

/-- C12 for Phase II and III addresses (no area): node 1 to 1023 round-trips
through text, integer and wire form, and a default area completes it. -/
theorem phase3_forms (n : Int) (h1 : 1 ≤ n) (h2 : n ≤ 1023) (dflt : Int) :
    ofPair 0 n = .ok n ∧ ofInt n = .ok n ∧ ofText (text n) = .ok n ∧
    (∃ b, encode n = .ok b ∧ ofBytes b = .ok n) ∧
    ofInt n false dflt = .ok (dflt * 1024 + n) := by
  have hx1 : n / 1024 = 0 := by omega
  have hx2 : n % 1024 = n := by omega
  have hmk : ∀ d, mk 0 n false d = .ok (d * 1024 + n) := by
    intro d
    rw [mk_ok, if_pos rfl]
    exact ⟨by omega, h2, by omega, rfl⟩
  have hmk0 : mk 0 n false 0 = .ok n := by rw [hmk]; simp
  have hle : fromLe (le 2 n.toNat) = n.toNat := fromLe_le_lt (by norm_num; omega)
  refine ⟨hmk0, ?_, ?_, ⟨le 2 n.toNat, toBytes_ok.2 ⟨by omega, by norm_num; omega, rfl⟩, ?_⟩, ?_⟩
  · unfold ofInt; rw [hx1, hx2]; exact hmk0
  · unfold text
    rw [hx1, hx2, if_neg (by simp)]
    have e2 : intText n = natText n.toNat := by unfold intText; rw [if_neg (by omega)]
    unfold ofText
    rw [e2, parseId_plain]
    simp only [ofInt]
    rw [Int.toNat_of_nonneg (by omega), hx1, hx2]
    exact hmk0
  · unfold ofBytes
    rw [if_neg (by simp)]
    have hcast : ((n.toNat : Nat) : Int) = n := by omega
    simp only [hle, hcast, hx1, hx2]
    rw [if_neg (by omega)]
    exact hmk0
  · unfold ofInt; rw [hx1, hx2]; exact hmk dflt

example : (ofInt 17 false 2).toOption = some 2065 := by decide

/-- C12: what is accepted from text, from the wire or from an Ethernet address
is always a 16 bit address with area at most 63 and node at most 1023; from the
wire the node number is never zero, and from an Ethernet address the area is
not zero either. -/
theorem accepted_in_range :
    (∀ s x, ofText s = .ok x → 0 ≤ x ∧ x < 65536) ∧
    (∀ b x, ofBytes b = .ok x → 0 < x ∧ x < 65536 ∧ tid x ≠ 0 ∧ encode x = .ok b) ∧
    (∀ m x, m.length = 6 → ofMac m = .ok x → 0 < x ∧ x < 65536 ∧ tid x ≠ 0 ∧ area x ≠ 0 ∧
      macOf x = .ok m) := by
  refine ⟨?_, ?_, ?_⟩
  · intro s x h
    unfold ofText at h
    split at h
    · cases h
    · unfold ofInt at h
      rw [mk_ok] at h
      obtain ⟨h1, h2, h3, h4⟩ := h
      split at h4 <;> omega
    · unfold ofPair at h
      rw [mk_ok] at h
      obtain ⟨h1, h2, h3, h4⟩ := h
      split at h4 <;> omega
  · intro b x h
    unfold ofBytes at h
    split at h
    · cases h
    rename_i hlen
    rw [not_not] at hlen
    simp only at h
    split at h
    · cases h
    rename_i h0
    rw [mk_ok] at h
    obtain ⟨h1, h2, h3, h4⟩ := h
    have hlt := fromLe_lt b
    rw [hlen] at hlt
    norm_num at hlt
    have hx : x = (fromLe b : Int) := by split at h4 <;> omega
    subst hx
    refine ⟨?_, by omega, ?_, ?_⟩
    · have : (fromLe b : Int) % 1024 ≠ 0 := fun hc => h0 ⟨hc, trivial⟩
      omega
    · exact fun hc => h0 ⟨hc, trivial⟩
    · refine toBytes_ok.2 ⟨by omega, by norm_num; omega, ?_⟩
      rw [Int.toNat_natCast, le_fromLe' hlen]
  · intro m x hm h
    unfold ofMac at h
    split at h
    · cases h
    rename_i hhi
    rw [not_not] at hhi
    simp only at h
    split at h
    · cases h
    rename_i h0
    rw [not_or] at h0
    rw [mk_ok] at h
    obtain ⟨h1, h2, h3, h4⟩ := h
    have hlen : (m.drop 4).length = 2 := by simp [hm]
    have hlt := fromLe_lt (m.drop 4)
    rw [hlen] at hlt
    norm_num at hlt
    have hx : x = (fromLe (m.drop 4) : Int) := by split at h4 <;> omega
    subst hx
    refine ⟨by omega, by omega, h0.1, h0.2, ?_⟩
    have : encode (fromLe (m.drop 4) : Int) = .ok (m.drop 4) :=
      toBytes_ok.2 ⟨by omega, by norm_num; omega, by rw [Int.toNat_natCast, le_fromLe' hlen]⟩
    unfold macOf
    rw [this, Verif.Fields.map_of_ok, ← hhi, List.take_append_drop]

example : (ofMac [0xaa, 0, 4, 0, 0x11, 0xa4]).toOption = some 42001 ∧
    (ofMac [0xaa, 0, 4, 1, 0x11, 0xa4]).toOption = none := by decide

/-- C12: two different addresses never have the same Ethernet address, nor the
same wire form, nor (from area.node text) the same text. -/
theorem forms_injective (x y : Int) :
    (∀ m, macOf x = .ok m → macOf y = .ok m → x = y) ∧
    (∀ b, encode x = .ok b → encode y = .ok b → x = y) ∧
    (0 ≤ x → x < 65536 → 0 ≤ y → y < 65536 → x % 1024 ≠ 0 → y % 1024 ≠ 0 → text x = text y → x = y) := by
  have h2 : ∀ b, encode x = .ok b → encode y = .ok b → x = y := by
    intro b hx hy
    obtain ⟨h1, h2, rfl⟩ := toBytes_ok.1 hx
    obtain ⟨h3, h4, h5⟩ := toBytes_ok.1 hy
    have e1 := fromLe_le_lt (Verif.Fields.toNat_lt_pow h1 h2)
    have e2 := fromLe_le_lt (Verif.Fields.toNat_lt_pow h3 h4)
    rw [h5, e2] at e1
    omega
  refine ⟨?_, h2, ?_⟩
  · intro m hx hy
    unfold macOf at hx hy
    rw [Verif.Fields.map_ok] at hx hy
    obtain ⟨b1, hb1, rfl⟩ := hx
    obtain ⟨b2, hb2, hb⟩ := hy
    have := List.append_cancel_left hb
    subst this
    exact h2 _ hb1 hb2
  · intro hx0 hx1 hy0 hy1 hxn hyn ht
    have rt : ∀ z : Int, 0 ≤ z → z < 65536 → z % 1024 ≠ 0 → ofText (text z) = .ok z := by
      intro z hz0 hz1 hzn
      by_cases hza : z / 1024 = 0
      · exact (phase3_forms z (by omega) (by omega) 0).2.2.1
      · obtain ⟨w, hw, _, _, _, _, _, hw2, _⟩ := address_forms (z / 1024) (z % 1024)
          ⟨by omega, by omega, by omega, by omega⟩
        unfold ofPair at hw
        rw [mk_ok, if_neg hza] at hw
        have : w = z := by omega
        subst this
        exact hw2
    have e1 := rt x hx0 hx1 hxn
    have e2 := rt y hy0 hy1 hyn
    rw [ht, e2] at e1
    injection e1 with e1
    exact e1.symm

example : macOf 42001 ≠ macOf 42002 := by decide

/-- Findings about out-of-range input.  `Nodeid (-5)` is accepted although it
cannot be encoded; `Nodeid (0)` is accepted and encoded, but that encoding is
not decodable; a pair with a negative node number is accepted and denotes
another node. -/
theorem unchecked_values :
    (ofInt (-5) = .ok (-5) ∧ encode (-5) = .error .overflowError) ∧
    (ofInt 0 = .ok 0 ∧ encode 0 = .ok [0, 0] ∧ decode [0, 0] = .error .other) ∧
    ofPair 2 (-1) = ofPair 1 1023 := by
  refine ⟨⟨by rfl, by rfl⟩, ⟨by rfl, by rfl, by rfl⟩, by rfl⟩

/-! ## Ethernet addresses as text -/

theorem hex_rt (n : Nat) (h : n < 16) : hexVal (hexChar n) = some n ∧ hexChar n ≠ '-' ∧ hexChar n ≠ ':' := by
  have : n = 0 ∨ n = 1 ∨ n = 2 ∨ n = 3 ∨ n = 4 ∨ n = 5 ∨ n = 6 ∨ n = 7 ∨ n = 8 ∨ n = 9 ∨ n = 10 ∨
      n = 11 ∨ n = 12 ∨ n = 13 ∨ n = 14 ∨ n = 15 := by omega
  rcases this with rfl | rfl | rfl | rfl | rfl | rfl | rfl | rfl | rfl | rfl | rfl | rfl | rfl |
    rfl | rfl | rfl <;> decide

theorem pieces_hex (b : UInt8) (rest : List Char) :
    pieces (hexByte b ++ '-' :: rest) = hexByte b :: pieces rest ∧
    pieces (hexByte b) = [hexByte b] := by
  have hb : b.toNat < 256 := by simpa using b.toNat_lt
  obtain ⟨_, h2, h3⟩ := hex_rt (b.toNat / 16) (by omega)
  obtain ⟨_, h5, h6⟩ := hex_rt (b.toNat % 16) (by omega)
  constructor
  · simp [hexByte, pieces, h2, h3, h5, h6]
  · simp [hexByte, pieces, h2, h3, h5, h6]

theorem parseHex_byte (b : UInt8) : parseHex (hexByte b) = some b.toNat := by
  have hb : b.toNat < 256 := by simpa using b.toNat_lt
  obtain ⟨h1, _⟩ := hex_rt (b.toNat / 16) (by omega)
  obtain ⟨h2, _⟩ := hex_rt (b.toNat % 16) (by omega)
  simp only [parseHex, hexByte, List.cons_ne_nil, if_false, List.foldl_cons, List.foldl_nil, h1, h2]
  congr 1; omega

theorem hexBytes_rt (m : Bytes) : hexBytes (m.map hexByte) = .ok m := by
  induction m with
  | nil => rfl
  | cons b m ih =>
    have hb : b.toNat < 256 := by simpa using b.toNat_lt
    simp only [List.map_cons, hexBytes, parseHex_byte, if_pos hb, ih]
    simp

theorem pieces_macText (b : UInt8) (m : Bytes) :
    pieces (macText (b :: m)) = (b :: m).map hexByte := by
  induction m generalizing b with
  | nil => simpa [macText, List.intercalate] using (pieces_hex b []).2
  | cons b2 m ih =>
    have : macText (b :: b2 :: m) = hexByte b ++ '-' :: macText (b2 :: m) := by
      simp [macText, List.intercalate]
    rw [this, (pieces_hex b _).1, ih b2]
    rfl

/-- C12: the text form of any six byte Ethernet address denotes that address. -/
theorem mac_text_roundtrip (m : Bytes) (h : m.length = 6) : macOfText (macText m) = .ok m := by
  cases m with
  | nil => simp at h
  | cons b m =>
    unfold macOfText
    simp only [pieces_macText]
    rw [if_neg (by simp only [List.length_map]; omega), if_neg (by simp only [List.length_map]; omega)]
    exact hexBytes_rt _

example : macText [0xaa, 0, 4, 0, 0x11, 0xa4] = "aa-00-04-00-11-a4".toList := by decide

/-- Finding: the branch of `Macaddr` meant for `area.node` text is never
reached.  It needs text with a separator which is also a node address, and node
addresses contain none; `Macaddr ("1.5")` is rejected. -/
theorem mac_from_node_text_rejected : macOfText "1.5".toList = .error .valueError := by rfl

end Verif.Addr
