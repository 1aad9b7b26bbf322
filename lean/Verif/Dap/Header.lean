import Verif.Dap.Omit

/-!
The header of a DAP message.
-/

namespace Verif.Dap

open Verif.Fields

/-- A flag that is not set. -/
def Off (p : Attrs) (f : String) : Prop := p f = none ∨ p f = some (.int 0)

theorem Off.getD {p : Attrs} {f : String} (h : Off p f) : (p f).getD (.int 0) = .int 0 := by
  rcases h with h | h <;> rw [h] <;> rfl

theorem Off.falsy {p : Attrs} {f : String} (h : Off p f) : truthy (p f) = false := by
  rcases h with h | h <;> rw [h] <;> rfl

/-- The rows after the header. -/
def Layout.body (L : Layout) : List Row := L.rows.drop 6

theorem rows_body {L : Layout} (hL : L ∈ classes) : L.rows = dapBaseRows ++ (dapHeaderRows ++ L.body) := by
  have : ∀ L ∈ classes, L.rows = dapBaseRows ++ (dapHeaderRows ++ L.body) := by decide +kernel
  exact this L hL

theorem type_lt {L : Layout} (hL : L ∈ classes) : L.type < 256 := by
  have : ∀ L ∈ classes, L.type < 256 := by decide +kernel
  exact this L hL

theorem classes_ok {L : Layout} (hL : L ∈ classes) : L.ok = true := by
  have : ∀ L ∈ classes, L.ok = true := by decide +kernel
  exact this L hL

theorem classes_fill {L : Layout} (hL : L ∈ classes) : fillOk L.rows = true := by
  have : ∀ L ∈ classes, fillOk L.rows = true := by decide +kernel
  exact this L hL

theorem find_class {L : Layout} (hL : L ∈ classes) (b : Bytes) :
    findClass (UInt8.ofNat L.type :: b) = .ok L := by
  have h1 : ∀ L ∈ classes, (classes.find? fun M => M.type == (UInt8.ofNat L.type).toNat) = some L := by
    decide +kernel
  simp only [findClass, h1 L hL]

theorem get_free {L : Layout} (p : Attrs) {n : String} (h1 : n ≠ "type") (h2 : n ≠ "m_syspec")
    (h3 : n ≠ "m_seg") : L.cls.get p n = p n := by
  simp [PktClass.get, Layout.cls, h1, h2, h3]

theorem bEnc_one {n : Nat} (h : n < 256) : bEnc 1 (n : Int) = .ok [UInt8.ofNat n] := by
  refine toBytes_ok.2 ⟨by omega, by omega, ?_⟩
  simp only [Int.toNat_natCast, le]
  rw [Nat.mod_eq_of_lt h]

theorem exEnc_small {m n : Nat} (h : n < 128) (hm : 1 ≤ m) : exEnc m n = .ok [UInt8.ofNat n] := by
  have : exGroups n = [UInt8.ofNat n] := by
    rw [exGroups, dif_pos (by rw [shr7]; omega)]
  refine exEnc_ok.2 ⟨by rw [this]; simpa using hm, this.symm⟩

/-- The encoding of the header, for a message without stream identification and bit count. -/
theorem header_bytes {L : Layout} (hL : L ∈ classes) {p : Attrs} (hs : Off p "m_streamid")
    (hb : Off p "m_bitcnt") (l1 l2 : Nat) (h1 : (p "m_length").getD (.int 0) = .int l1)
    (h2 : (p "m_len256").getD (.int 0) = .int l2) (hl1 : l1 < 2) (hl2 : l2 < 2) (n m : Nat)
    (hn : l1 = 1 → p "length" = some (.int n) ∧ n < 256)
    (hm : l2 = 1 → p "len256" = some (.int m) ∧ m < 256) :
    encode L p = (encRows L.cls p L.body).map fun b =>
      UInt8.ofNat L.type :: UInt8.ofNat (2 * l1 + 4 * l2) ::
        ((if l1 = 1 then [UInt8.ofNat n] else []) ++ ((if l2 = 1 then [UInt8.ofNat m] else []) ++ b)) := by
  have ht : ∀ f l, (p f).getD (.int 0) = .int l → truthy (p f) = decide (l ≠ 0) := by
    intro f l h
    cases hp : p f with
    | none => rw [hp] at h; simp at h; subst h; rfl
    | some v => rw [hp] at h; simp at h; subst h; rfl
  have hw : bmField L.cls p [⟨"m_streamid", 0, 1⟩, ⟨"m_length", 1, 1⟩, ⟨"m_len256", 2, 1⟩,
      ⟨"m_bitcnt", 3, 1⟩, ⟨"m_syspec", 5, 1⟩, ⟨"m_seg", 6, 1⟩] 0 = .ok (2 * l1 + 4 * l2) := by
    have g1 : L.cls.get p "m_streamid" = p "m_streamid" := get_free p (by decide) (by decide) (by decide)
    have g2 : L.cls.get p "m_length" = p "m_length" := get_free p (by decide) (by decide) (by decide)
    have g3 : L.cls.get p "m_len256" = p "m_len256" := get_free p (by decide) (by decide) (by decide)
    have g4 : L.cls.get p "m_bitcnt" = p "m_bitcnt" := get_free p (by decide) (by decide) (by decide)
    have g5 : L.cls.get p "m_syspec" = some (.int 0) := by simp [PktClass.get, Layout.cls]
    have g6 : L.cls.get p "m_seg" = some (.int 0) := by simp [PktClass.get, Layout.cls]
    simp only [bmField, g1, g2, g3, g4, g5, g6, hs.getD, hb.getD, h1, h2, Option.getD_some]
    have : (l1 = 0 ∨ l1 = 1) ∧ (l2 = 0 ∨ l2 = 1) := by omega
    rcases this with ⟨rfl | rfl, rfl | rfl⟩ <;> rfl
  unfold encode
  rw [rows_body hL]
  have hty : encRow L.cls p ⟨.always, .fld "type" (.b 1)⟩ = .ok [UInt8.ofNat L.type] := by
    have : L.cls.get p "type" = some (.int L.type) := by simp [PktClass.get, Layout.cls]
    simp only [encRow, encCore, this, Option.getD_some, Fld.codec, cB, intCodec]
    exact bEnc_one (type_lt hL)
  have hfl : encRow L.cls p ⟨.always, .bmex 5 [⟨"m_streamid", 0, 1⟩, ⟨"m_length", 1, 1⟩,
      ⟨"m_len256", 2, 1⟩, ⟨"m_bitcnt", 3, 1⟩, ⟨"m_syspec", 5, 1⟩, ⟨"m_seg", 6, 1⟩]⟩ =
      .ok [UInt8.ofNat (2 * l1 + 4 * l2)] := by
    simp only [encRow, encCore, hw]
    exact exEnc_small (by omega) (by omega)
  have hst : encRow L.cls p ⟨.when "m_streamid", .fld "streamid" (.b 1)⟩ = .ok [] := by
    simp only [encRow, get_free (L := L) p (n := "m_streamid") (by decide) (by decide) (by decide), hs.falsy]
    rfl
  have hbc : encRow L.cls p ⟨.when "m_bitcnt", .fld "bitcnt" (.b 1)⟩ = .ok [] := by
    simp only [encRow, get_free (L := L) p (n := "m_bitcnt") (by decide) (by decide) (by decide), hb.falsy]
    rfl
  have hln : encRow L.cls p ⟨.when "m_length", .fld "length" (.b 1)⟩ =
      .ok (if l1 = 1 then [UInt8.ofNat n] else []) := by
    simp only [encRow, get_free (L := L) p (n := "m_length") (by decide) (by decide) (by decide),
      ht _ _ (by exact_mod_cast h1)]
    have : l1 = 0 ∨ l1 = 1 := by omega
    rcases this with rfl | rfl
    · rfl
    · obtain ⟨h3, h4⟩ := hn rfl
      simp only [encCore, get_free (L := L) p (n := "length") (by decide) (by decide) (by decide), h3,
        Option.getD_some, Fld.codec, cB, intCodec, bEnc_one h4]
      rfl
  have hle : encRow L.cls p ⟨.when "m_len256", .fld "len256" (.b 1)⟩ =
      .ok (if l2 = 1 then [UInt8.ofNat m] else []) := by
    simp only [encRow, get_free (L := L) p (n := "m_len256") (by decide) (by decide) (by decide),
      ht _ _ (by exact_mod_cast h2)]
    have : l2 = 0 ∨ l2 = 1 := by omega
    rcases this with rfl | rfl
    · rfl
    · obtain ⟨h3, h4⟩ := hm rfl
      simp only [encCore, get_free (L := L) p (n := "len256") (by decide) (by decide) (by decide), h3,
        Option.getD_some, Fld.codec, cB, intCodec, bEnc_one h4]
      rfl
  simp only [dapBaseRows, dapHeaderRows, List.cons_append, List.nil_append, encRows, hty, hfl, hst, hbc, hln, hle]
  cases encRows L.cls p L.body with
  | error e => rfl
  | ok b => rfl

/-! ## Attributes that do not matter -/

def Guard.flags : Guard → List String
  | .always => []
  | .when f => [f]
  | .whenElse f _ => [f]
  | .orElse _ => []

theorem bmField_congr {c : PktClass} {p p' : Attrs} : ∀ {es : List Elem} {f : Nat},
    (∀ e ∈ es, c.get p e.name = c.get p' e.name) → bmField c p es f = bmField c p' es f := by
  intro es
  induction es with
  | nil => intro f _; rfl
  | cons e es ih =>
    intro f h
    simp only [bmField, h e (by simp)]
    split
    · split
      · rfl
      · exact ih (fun x hx => h x (by simp [hx]))
    · rfl

theorem encCore_congr {c : PktClass} {p p' : Attrs} {k : Core}
    (h : ∀ n ∈ k.names, c.get p n = c.get p' n) : encCore c p k = encCore c p' k := by
  cases k with
  | fld n f => simp only [encCore, h n (by simp [Core.names])]
  | bm es =>
    simp only [encCore, bmEnc]
    rw [bmField_congr (fun e he => h e.name (by simp only [Core.names]; exact List.mem_map_of_mem he))]
  | bmex m es =>
    simp only [encCore]
    rw [bmField_congr (fun e he => h e.name (by simp only [Core.names]; exact List.mem_map_of_mem he))]

theorem encRow_congr {c : PktClass} {p p' : Attrs} {r : Row}
    (h : ∀ n ∈ r.guard.flags ++ r.core.names, c.get p n = c.get p' n) : encRow c p r = encRow c p' r := by
  have hc := encCore_congr (k := r.core) (fun n hn => h n (List.mem_append.2 (.inr hn)))
  unfold encRow
  cases hg : r.guard with
  | always => exact hc
  | orElse d => exact hc
  | when f =>
    simp only [hc, h f (by rw [hg]; simp [Guard.flags])]
  | whenElse f d =>
    simp only [hc, h f (by rw [hg]; simp [Guard.flags])]

theorem encRows_congr {c : PktClass} {p p' : Attrs} : ∀ {rows : List Row},
    (∀ r ∈ rows, ∀ n ∈ r.guard.flags ++ r.core.names, c.get p n = c.get p' n) →
    encRows c p rows = encRows c p' rows := by
  intro rows
  induction rows with
  | nil => intro _; rfl
  | cons r rs ih =>
    intro h
    simp only [encRows, encRow_congr (h r (by simp)), ih (fun x hx => h x (by simp [hx]))]

/-- The rows after the header do not look at the length. -/
theorem body_names {L : Layout} (hL : L ∈ classes) : ∀ r ∈ L.body, ∀ n ∈ r.guard.flags ++ r.core.names,
    n ∉ ["m_length", "m_len256", "length", "len256"] := by
  have : ∀ L ∈ classes, ∀ r ∈ L.body, ∀ n ∈ r.guard.flags ++ r.core.names,
      n ∉ ["m_length", "m_len256", "length", "len256"] := by decide +kernel
  exact this L hL

/-- `p` with some attributes changed. -/
def setTo (p : Attrs) (ws : List (String × Val)) : Attrs := fun n =>
  match ws.lookup n with
  | some v => some v
  | none => p n

theorem body_setTo {L : Layout} (hL : L ∈ classes) (p : Attrs) (ws : List (String × Val))
    (h : ∀ w ∈ ws, w.1 ∈ ["m_length", "m_len256", "length", "len256"]) :
    encRows L.cls (setTo p ws) L.body = encRows L.cls p L.body := by
  refine encRows_congr (fun r hr n hn => ?_)
  have h1 := body_names hL r hr n hn
  have h2 : ws.lookup n = none := by
    cases hl : ws.lookup n with
    | none => rfl
    | some v =>
      exfalso
      apply h1
      rw [List.lookup_eq_some_iff] at hl
      obtain ⟨a, b, rfl, _⟩ := hl
      exact h (n, v) (by simp)
  unfold PktClass.get
  cases L.cls.fixed n with
  | some w => rfl
  | none => simp only [setTo, h2]

end Verif.Dap
