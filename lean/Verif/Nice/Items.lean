import Verif.Nice.Lemmas

namespace Verif.Nice

open Verif.Fields (Bytes le fromLe toBytes signedEnc byte latin1Enc latin1Dec)

/-- What arrives of an item: counters beyond their range at the largest value. -/
def Item.sat : Item → Item
  | .ctr p w v => .ctr p w (min v w.max)
  | .ctm p w m v => .ctm p w m (min v w.max)
  | i => i

/-- The number has at most 12 bits, and the type is one there is a class for. -/
def Item.Valid : Item → Prop
  | .par p v => p < 4096 ∧ v.Valid
  | .ctr p _ _ => p < 4096
  | .ctm p _ _ _ => p < 4096

theorem toBytes2 {x : Nat} {b : Bytes} :
    toBytes 2 (x : Int) = .ok b ↔ x < 65536 ∧ b = le 2 x := by
  rw [Fields.toBytes_ok]
  simp only [Int.toNat_natCast]
  constructor
  · rintro ⟨_, h, rfl⟩; exact ⟨by omega, rfl⟩
  · rintro ⟨h, rfl⟩; exact ⟨by omega, by omega, rfl⟩

theorem le2 (x : Nat) : le 2 x = [UInt8.ofNat (x % 256), UInt8.ofNat (x / 256 % 256)] := by
  simp [le]

theorem le2_cons {x : Nat} (hx : x < 65536) :
    ∃ a b, le 2 x = [a, b] ∧ fromLe [a, b] = x := by
  refine ⟨_, _, le2 x, ?_⟩
  rw [← le2]; exact Fields.fromLe_le_lt (by simpa using hx)

theorem fromLe2_lt (a b : UInt8) : fromLe [a, b] < 65536 := by
  have := Fields.fromLe_lt [a, b]; simpa using this

theorem le_fromLe2 (a b : UInt8) : le 2 (fromLe [a, b]) = [a, b] := Fields.le_fromLe [a, b]

theorem ctrBytes_ok {w : Width} {v : Int} {d : Bytes} :
    ctrBytes w v = .ok d ↔ 0 ≤ v ∧ d = le w.bytes (min v w.max).toNat := by
  unfold ctrBytes
  rw [up_ok, Fields.toBytes_ok]
  have : (256 : Int) ^ w.bytes = w.max + 1 := by cases w <;> rfl
  have h0 : 0 ≤ w.max := by cases w <;> decide
  rw [this]
  constructor
  · rintro ⟨h1, _, h3⟩; exact ⟨by omega, h3⟩
  · rintro ⟨h1, h3⟩; exact ⟨by omega, by omega, h3⟩

theorem ctr_fromLe {w : Width} {v : Int} (h : 0 ≤ v) :
    (fromLe (le w.bytes (min v w.max).toNat) : Int) = min v w.max := by
  have h0 : 0 ≤ w.max := by cases w <;> decide
  have hw : (w.max.toNat : Int) = w.max := Int.toNat_of_nonneg h0
  rw [Fields.fromLe_le_lt]
  · omega
  · have : w.max.toNat < 256 ^ w.bytes := by cases w <;> decide
    omega

theorem fromLe_ctr {w : Width} {d : Bytes} (h : d.length = w.bytes) :
    (fromLe d : Int) ≤ w.max := by
  have := Fields.fromLe_lt d
  rw [h] at this
  have h2 : w.max.toNat + 1 = 256 ^ w.bytes := by cases w <;> decide
  have h0 : 0 ≤ w.max := by cases w <;> decide
  omega

def kindOf : Bool → Width → Nat
  | false, .w1 => 10 | false, .w2 => 12 | false, .w4 => 14
  | true, .w1 => 11 | true, .w2 => 13 | true, .w4 => 15

theorem kindOf_range (m : Bool) (w : Width) : 8 ≤ kindOf m w ∧ kindOf m w < 16 := by
  cases m <;> cases w <;> decide

theorem counterClass_ok {k : Nat} (hk : k < 16) {m : Bool} {w : Width} :
    counterClass (4096 * k) = .ok (m, w) ↔ k = kindOf m w := by
  have h : ∀ k : Fin 16, ∀ m : Bool, ∀ w ∈ [Width.w1, .w2, .w4],
      (counterClass (4096 * k.val) = .ok (m, w) ↔ k.val = kindOf m w) := by decide
  exact h ⟨k, hk⟩ m w (by cases w <;> decide)

theorem ctrCode_eq (w : Width) : ctrCode w = 4096 * kindOf false w := by cases w <;> rfl
theorem ctmCode_eq (w : Width) : ctmCode w = 4096 * kindOf true w := by cases w <;> rfl

theorem Item.enc_par {p : Nat} {v : Val} {e : Bytes} :
    (Item.par p v).enc = .ok e ↔ p < 65536 ∧ ∃ d, v.enc = .ok d ∧ e = le 2 p ++ d := by
  simp only [Item.enc]
  rw [ebind_ok]
  constructor
  · rintro ⟨a, h, h2⟩
    obtain ⟨d, hd, h3⟩ := ebind_ok.1 h2
    obtain ⟨h1, rfl⟩ := toBytes2.1 (up_ok.1 h)
    simp only [epure, Except.ok.injEq] at h3
    exact ⟨h1, d, hd, h3.symm⟩
  · rintro ⟨h, d, hd, rfl⟩
    exact ⟨_, up_ok.2 (toBytes2.2 ⟨h, rfl⟩), ebind_ok.2 ⟨d, hd, rfl⟩⟩

theorem Item.enc_ctr {p : Nat} {w : Width} {v : Int} {e : Bytes} (hp : p < 4096) :
    (Item.ctr p w v).enc = .ok e ↔
      0 ≤ v ∧ e = le 2 (4096 * kindOf false w + p) ++ le w.bytes (min v w.max).toNat := by
  have hk := kindOf_range false w
  have ho : p ||| 0x8000 ||| ctrCode w = 4096 * kindOf false w + p := by
    rw [ctrCode_eq]; exact or_code p _ hp hk.1 hk.2
  simp only [Item.enc, ho]
  rw [ebind_ok]
  constructor
  · rintro ⟨a, h, h2⟩
    obtain ⟨d, hd, h3⟩ := ebind_ok.1 h2
    obtain ⟨h1, rfl⟩ := toBytes2.1 (up_ok.1 h)
    obtain ⟨h0, rfl⟩ := ctrBytes_ok.1 hd
    simp only [epure, Except.ok.injEq] at h3
    exact ⟨h0, h3.symm⟩
  · rintro ⟨h, rfl⟩
    exact ⟨_, up_ok.2 (toBytes2.2 ⟨by omega, rfl⟩), ebind_ok.2 ⟨_, ctrBytes_ok.2 ⟨h, rfl⟩, rfl⟩⟩

theorem Item.enc_ctm {p : Nat} {w : Width} {m : Nat} {v : Int} {e : Bytes} (hp : p < 4096) :
    (Item.ctm p w m v).enc = .ok e ↔
      0 ≤ v ∧ m < 65536 ∧
        e = le 2 (4096 * kindOf true w + p) ++ (le 2 m ++ le w.bytes (min v w.max).toNat) := by
  have hk := kindOf_range true w
  have ho : p ||| 0x8000 ||| ctmCode w = 4096 * kindOf true w + p := by
    rw [ctmCode_eq]; exact or_code p _ hp hk.1 hk.2
  simp only [Item.enc, ho]
  rw [ebind_ok]
  constructor
  · rintro ⟨a, h, h2⟩
    obtain ⟨d, hd, h3⟩ := ebind_ok.1 h2
    obtain ⟨f, hf, h4⟩ := ebind_ok.1 h3
    obtain ⟨h1, rfl⟩ := toBytes2.1 (up_ok.1 h)
    obtain ⟨hm, rfl⟩ := toBytes2.1 (up_ok.1 hd)
    obtain ⟨h0, rfl⟩ := ctrBytes_ok.1 hf
    simp only [epure, Except.ok.injEq] at h4
    exact ⟨h0, hm, h4.symm⟩
  · rintro ⟨h, hm, rfl⟩
    exact ⟨_, up_ok.2 (toBytes2.2 ⟨by omega, rfl⟩), ebind_ok.2 ⟨_, up_ok.2 (toBytes2.2 ⟨hm, rfl⟩),
      ebind_ok.2 ⟨_, ctrBytes_ok.2 ⟨h, rfl⟩, rfl⟩⟩⟩

theorem decItem_par {a b c : UInt8} {tl r : Bytes} {i : Item} (hx : fromLe [a, b] < 0x8000) :
    decItem (a :: b :: c :: tl) = .ok (i, r) ↔
      ∃ v, i = .par (fromLe [a, b] % 4096) v ∧ v.Valid ∧ ∃ d, v.enc = .ok d ∧ c :: tl = d ++ r := by
  have hc : c.toNat < 256 := by simpa using c.toNat_lt
  simp only [decItem]
  rw [if_neg (fun h => by have := (flag_iff _ (fromLe2_lt a b)).1 h; omega), key_small _ hx, ebind_ok]
  constructor
  · rintro ⟨ty, h1, h2⟩
    obtain ⟨⟨v, r'⟩, h3, h4⟩ := ebind_ok.1 h2
    simp only [epure, Except.ok.injEq, Prod.mk.injEq] at h4
    obtain ⟨hi, rfl⟩ := h4
    obtain ⟨hv, hcode⟩ := (classOf_ok hc).1 h1
    obtain ⟨k1, rfl, d, hd, rfl⟩ := (decVal_iff hv).1 h3
    rw [Val.code_ty] at hcode
    refine ⟨v, hi.symm, k1, _, hd, ?_⟩
    rw [hcode]; simp
  · rintro ⟨v, rfl, hval, d, hd, h2⟩
    have hv := v.valid_iff hval
    have hcl := hv.code_lt
    rw [Val.code_ty] at hcl
    obtain ⟨d', rfl⟩ : ∃ d', d = UInt8.ofNat v.code :: d' := by
      cases v with
      | one s => obtain ⟨_, d', _, h⟩ := Simple.enc_ok.1 hd; exact ⟨d', h⟩
      | many ss => obtain ⟨_, d', _, h⟩ := Val.enc_many.1 hd; exact ⟨d', h⟩
    simp only [List.cons_append, List.cons.injEq] at h2
    obtain ⟨rfl, rfl⟩ := h2
    refine ⟨v.ty, (classOf_ok hc).2 ⟨hv, ?_⟩, ?_⟩
    · rw [u8_ofNat_toNat hcl, Val.code_ty]
    · exact ebind_ok.2 ⟨(v, r), (decVal_iff hv).2 ⟨hval, rfl, d', hd, rfl⟩, rfl⟩

theorem decItem_ctr {a b c : UInt8} {tl r : Bytes} {i : Item} (hx : 0x8000 ≤ fromLe [a, b]) :
    decItem (a :: b :: c :: tl) = .ok (i, r) ↔
      ∃ m w, fromLe [a, b] / 4096 = kindOf m w ∧
        decCounter (fromLe [a, b] % 4096) m w (c :: tl) = .ok (i, r) := by
  have hlt := fromLe2_lt a b
  simp only [decItem]
  rw [if_pos ((flag_iff _ hlt).2 hx), num_low, kind_eq _ hlt, ebind_ok]
  constructor
  · rintro ⟨⟨m, w⟩, h1, h2⟩
    exact ⟨m, w, (counterClass_ok (by omega)).1 h1, h2⟩
  · rintro ⟨m, w, h1, h2⟩
    exact ⟨(m, w), (counterClass_ok (by omega)).2 h1, h2⟩

theorem Width.bytes_pos (w : Width) : 1 ≤ w.bytes := by cases w <;> decide

theorem Val.enc_length {v : Val} {d : Bytes} (h : v.enc = .ok d) : 1 ≤ d.length := by
  cases v with
  | one s => obtain ⟨_, d', _, rfl⟩ := Simple.enc_ok.1 h; simp
  | many ss => obtain ⟨_, d', _, rfl⟩ := Val.enc_many.1 h; simp

/-- What was encoded is decoded again, whatever follows. -/
theorem decItem_enc {i : Item} (hv : i.Valid) {e : Bytes} (h : i.enc = .ok e) (r : Bytes) :
    decItem (e ++ r) = .ok (i.sat, r) := by
  cases i with
  | par p v =>
    obtain ⟨hp, hval⟩ := hv
    obtain ⟨_, d, hd, rfl⟩ := Item.enc_par.1 h
    obtain ⟨a, b, hab, hf⟩ := le2_cons (show p < 65536 by omega)
    obtain ⟨c, tl, rfl⟩ : ∃ c tl, d = c :: tl := by
      have := Val.enc_length hd
      cases d with
      | nil => simp at this
      | cons c tl => exact ⟨c, tl, rfl⟩
    rw [hab]
    show decItem (a :: b :: c :: (tl ++ r)) = _
    rw [decItem_par (by omega)]
    exact ⟨v, by rw [hf, Nat.mod_eq_of_lt hp]; rfl, hval, _, hd, rfl⟩
  | ctr p w v =>
    obtain ⟨h0, rfl⟩ := (Item.enc_ctr hv).1 h
    have hk := kindOf_range false w
    have hv' : p < 4096 := hv
    obtain ⟨a, b, hab, hf⟩ := le2_cons (show 4096 * kindOf false w + p < 65536 by omega)
    have hl := Fields.le_length w.bytes (min v w.max).toNat
    have hcf := ctr_fromLe (w := w) h0
    generalize le w.bytes (min v w.max).toNat = d at hl hcf
    obtain ⟨c, tl, rfl⟩ : ∃ c tl, d = c :: tl := by
      have := w.bytes_pos
      cases d with
      | nil => simp at hl; omega
      | cons c tl => exact ⟨c, tl, rfl⟩
    rw [hab]
    show decItem (a :: b :: c :: (tl ++ r)) = _
    rw [decItem_ctr (by omega)]
    refine ⟨false, w, by omega, ?_⟩
    rw [← List.cons_append]
    simp only [decCounter, Bool.false_eq_true, if_false]
    rw [if_neg (by rw [List.length_append]; omega), List.take_left' hl, List.drop_left' hl, hcf]
    have : fromLe [a, b] % 4096 = p := by omega
    rw [this]; rfl
  | ctm p w m v =>
    obtain ⟨h0, hm, rfl⟩ := (Item.enc_ctm hv).1 h
    have hk := kindOf_range true w
    have hv' : p < 4096 := hv
    obtain ⟨a, b, hab, hf⟩ := le2_cons (show 4096 * kindOf true w + p < 65536 by omega)
    obtain ⟨a', b', hab', hf'⟩ := le2_cons hm
    have hl := Fields.le_length w.bytes (min v w.max).toNat
    have hcf := ctr_fromLe (w := w) h0
    generalize le w.bytes (min v w.max).toNat = d at hl hcf
    rw [hab, hab']
    show decItem (a :: b :: a' :: (b' :: (d ++ r))) = _
    rw [decItem_ctr (by omega)]
    refine ⟨true, w, by omega, ?_⟩
    simp only [decCounter, if_true]
    rw [if_neg (by simp; omega)]
    simp only [List.take_succ_cons, List.take_zero, List.drop_succ_cons, List.drop_zero,
      List.take_left' hl, List.drop_left' hl, hcf, hf']
    have : fromLe [a, b] % 4096 = p := by omega
    rw [this]; rfl

/-- Whatever was decoded can be encoded: with the same bytes, apart from the bits 12 to 14 of a
parameter number. -/
theorem decItem_back {buf r : Bytes} {i : Item} (h : decItem buf = .ok (i, r)) :
    i.Valid ∧ i.sat = i ∧ ∃ a b e, i.enc = .ok e ∧ buf = a :: b :: (e.drop 2 ++ r) ∧ 3 ≤ e.length ∧
      e.take 2 = (if fromLe [a, b] < 0x8000 then le 2 (fromLe [a, b] % 4096) else [a, b]) := by
  obtain ⟨a, b, c, tl, rfl⟩ : ∃ a b c tl, buf = a :: b :: c :: tl := by
    match buf, h with
    | [], h => cases h
    | [_], h => cases h
    | [_, _], h => cases h
    | a :: b :: c :: tl, _ => exact ⟨a, b, c, tl, rfl⟩
  have hlt := fromLe2_lt a b
  by_cases hx : fromLe [a, b] < 0x8000
  · obtain ⟨v, rfl, hval, d, hd, h2⟩ := (decItem_par hx).1 h
    have hl := Val.enc_length hd
    refine ⟨⟨by omega, hval⟩, rfl, a, b, le 2 (fromLe [a, b] % 4096) ++ d,
      Item.enc_par.2 ⟨by omega, d, hd, rfl⟩, ?_, ?_, ?_⟩
    · rw [List.drop_left' (Fields.le_length 2 _), ← h2]
    · rw [List.length_append, Fields.le_length]; omega
    · rw [List.take_left' (Fields.le_length 2 _), if_pos hx]
  · obtain ⟨m, w, hk, hd⟩ := (decItem_ctr (by omega)).1 h
    have hp : fromLe [a, b] % 4096 < 4096 := by omega
    have hw := w.bytes_pos
    have hx2 : 4096 * kindOf m w + fromLe [a, b] % 4096 = fromLe [a, b] := by omega
    have hrange : ∀ d : Bytes, d.length = w.bytes →
        le w.bytes (min (fromLe d : Int) w.max).toNat = d := by
      intro d hd
      have := fromLe_ctr (w := w) hd
      rw [Int.min_eq_left this, Int.toNat_natCast]
      exact Fields.le_fromLe' hd
    cases m with
    | false =>
      simp only [decCounter, Bool.false_eq_true, if_false] at hd
      split at hd
      · cases hd
      · rename_i hlen
        simp only [Except.ok.injEq, Prod.mk.injEq] at hd
        obtain ⟨rfl, rfl⟩ := hd
        have hl : ((c :: tl).take w.bytes).length = w.bytes := by rw [List.length_take]; omega
        refine ⟨hp, ?_, a, b, [a, b] ++ (c :: tl).take w.bytes, (Item.enc_ctr hp).2 ⟨by omega, ?_⟩,
          ?_, ?_, ?_⟩
        · simp only [Item.sat]; rw [Int.min_eq_left (fromLe_ctr hl)]
        · rw [hx2, le_fromLe2, hrange _ hl]
        · show _ = a :: b :: ((c :: tl).take w.bytes ++ (c :: tl).drop w.bytes)
          rw [List.take_append_drop]
        · rw [List.length_append, hl]; show 3 ≤ 2 + _; omega
        · rw [if_neg hx]; rfl
    | true =>
      simp only [decCounter, if_true] at hd
      split at hd
      · cases hd
      · rename_i hlen
        simp only [Except.ok.injEq, Prod.mk.injEq] at hd
        obtain ⟨rfl, rfl⟩ := hd
        obtain ⟨c', tl', rfl⟩ : ∃ c' tl', tl = c' :: tl' := by
          cases tl with
          | nil => simp at hlen
          | cons c' tl' => exact ⟨c', tl', rfl⟩
        have hl : (tl'.take w.bytes).length = w.bytes := by
          rw [List.length_take]; simp at hlen; omega
        simp only [List.take_succ_cons, List.take_zero, List.drop_succ_cons, List.drop_zero]
        refine ⟨hp, ?_, a, b, [a, b] ++ ([c, c'] ++ tl'.take w.bytes),
          (Item.enc_ctm hp).2 ⟨by omega, fromLe2_lt c c', ?_⟩, ?_, ?_, ?_⟩
        · simp only [Item.sat]; rw [Int.min_eq_left (fromLe_ctr hl)]
        · rw [hx2, le_fromLe2, le_fromLe2, hrange _ hl]
        · show _ = a :: b :: (c :: c' :: (tl'.take w.bytes) ++ tl'.drop w.bytes)
          rw [List.cons_append, List.cons_append, List.take_append_drop]
        · simp
        · rw [if_neg hx]; rfl

theorem encode_cons {i : Item} {is : List Item} {e : Bytes} :
    encode (i :: is) = .ok e ↔ ∃ a b, i.enc = .ok a ∧ encode is = .ok b ∧ e = a ++ b := by
  simp only [encode]
  rw [ebind_ok]
  constructor
  · rintro ⟨a, h, h2⟩
    obtain ⟨b, hb, h3⟩ := ebind_ok.1 h2
    simp only [epure, Except.ok.injEq] at h3
    exact ⟨a, b, h, hb, h3.symm⟩
  · rintro ⟨a, b, h, hb, rfl⟩
    exact ⟨a, h, ebind_ok.2 ⟨b, hb, rfl⟩⟩

theorem decItem_shorter {buf r : Bytes} {i : Item} (h : decItem buf = .ok (i, r)) :
    r.length + 3 ≤ buf.length := by
  obtain ⟨_, _, a, b, e, _, rfl, h3, _⟩ := decItem_back h
  simp; omega

theorem decLoop_cons {fuel : Nat} {x : UInt8} {xs : Bytes} {is : List Item}
    (hf : (x :: xs).length ≤ fuel) :
    decLoop fuel (x :: xs) = .ok is ↔
      ∃ i r js, decItem (x :: xs) = .ok (i, r) ∧ decode r = .ok js ∧ is = i :: js := by
  have enough : ∀ f b, b.length ≤ f → decLoop f b = decode b := by
    intro f b
    induction hn : b.length using Nat.strongRecOn generalizing b f with
    | _ n ih =>
      intro hle
      subst hn
      cases b with
      | nil => cases f <;> rfl
      | cons y ys =>
        cases f with
        | zero => simp at hle
        | succ f =>
          show (decItem (y :: ys) >>= _) = (decItem (y :: ys) >>= _)
          cases hd : decItem (y :: ys) with
          | error e => rfl
          | ok ir =>
            obtain ⟨i, r⟩ := ir
            have hs := decItem_shorter hd
            simp only [List.length_cons] at hs hle ih
            show (decLoop f r >>= _) = (decLoop ys.length r >>= _)
            rw [ih r.length (by omega) f r rfl (by omega),
              ih r.length (by omega) ys.length r rfl (by omega)]
  cases fuel with
  | zero => simp at hf
  | succ f =>
    simp only [decLoop]
    rw [ebind_ok]
    simp only [List.length_cons] at hf
    constructor
    · rintro ⟨⟨i, r⟩, h1, h2⟩
      obtain ⟨js, h3, h4⟩ := ebind_ok.1 h2
      have hs := decItem_shorter h1
      simp only [List.length_cons] at hs
      rw [enough f r (by omega)] at h3
      simp only [epure, Except.ok.injEq] at h4
      exact ⟨i, r, js, h1, h3, h4.symm⟩
    · rintro ⟨i, r, js, h1, h3, rfl⟩
      have hs := decItem_shorter h1
      simp only [List.length_cons] at hs
      exact ⟨(i, r), h1, ebind_ok.2 ⟨js, by rw [enough f r (by omega)]; exact h3, rfl⟩⟩

theorem decode_cons {x : UInt8} {xs : Bytes} {is : List Item} :
    decode (x :: xs) = .ok is ↔
      ∃ i r js, decItem (x :: xs) = .ok (i, r) ∧ decode r = .ok js ∧ is = i :: js :=
  decLoop_cons (Nat.le_refl _)

end Verif.Nice
