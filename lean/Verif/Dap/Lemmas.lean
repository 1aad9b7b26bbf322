import Verif.Dap.Spec

/-!
Lemmas about the DAP codec.
-/

namespace Verif.Dap

open Verif.Fields

/-! ## Fields -/

theorem leBytes_zero : leBytes 0 = [] := by rw [leBytes]; simp

theorem leBytes_pos {n : Nat} (h : n ≠ 0) : leBytes n = UInt8.ofNat (n % 256) :: leBytes (n / 256) := by
  rw [leBytes]; simp [h]

theorem fromLe_leBytes (n : Nat) : fromLe (leBytes n) = n := by
  induction n using Nat.strongRecOn with
  | _ n ih =>
    by_cases h : n = 0
    · subst h; rw [leBytes_zero]; rfl
    · rw [leBytes_pos h, fromLe, ih (n / 256) (by omega), ofNat_toNat_lt (by omega)]
      omega

theorem iintEnc_ok {m : Nat} {i : Int} {b : Bytes} :
    iintEnc m i = .ok b ↔ 0 ≤ i ∧ (leBytes i.toNat).length ≤ m ∧ (leBytes i.toNat).length < 256 ∧
      b = UInt8.ofNat (leBytes i.toNat).length :: leBytes i.toNat := by
  unfold iintEnc
  by_cases h0 : i < 0
  · rw [if_pos h0]
    constructor
    · intro h; cases h
    · rintro ⟨h, _⟩; omega
  · rw [if_neg h0]
    by_cases h1 : m < (leBytes i.toNat).length
    · rw [if_pos h1]
      constructor
      · intro h; cases h
      · rintro ⟨_, h, _⟩; omega
    · rw [if_neg h1, map_ok]
      constructor
      · rintro ⟨x, hx, rfl⟩
        obtain ⟨h2, rfl⟩ := byte_ok.1 hx
        exact ⟨by omega, by omega, h2, rfl⟩
      · rintro ⟨_, _, h2, rfl⟩
        exact ⟨_, byte_ok.2 ⟨h2, rfl⟩, rfl⟩

theorem iDec_cons {m : Nat} {v rest : Bytes} (h1 : v.length ≤ m) (h2 : v.length < 256) :
    iDec m (UInt8.ofNat v.length :: v ++ rest) = .ok (v, rest) := by
  simp only [iDec, List.cons_append]
  rw [ofNat_toNat_lt h2, if_neg (by omega), List.take_left' rfl, List.drop_left' rfl, if_neg (by simp)]

theorem iint_dec {m : Nat} {i : Int} {b rest : Bytes} (h : iintEnc m i = .ok b) :
    iintDec m (b ++ rest) = .ok (i, rest) := by
  obtain ⟨h0, h1, h2, rfl⟩ := iintEnc_ok.1 h
  unfold iintDec
  rw [iDec_cons h1 h2, map_of_ok, fromLe_leBytes]
  simp [Int.toNat_of_nonneg h0]

theorem av_dec {m : Nat} {s : List Nat} {b rest : Bytes} (h : avEnc m s = .ok b) :
    avDec m (b ++ rest) = .ok (s ++ List.replicate (m - s.length) 0, rest) ∧ b.length = m := by
  unfold avEnc at h
  rw [bind_ok] at h
  obtain ⟨v, hv, hb⟩ := h
  obtain ⟨h1, rfl⟩ := latin1Enc_ok.1 hv
  obtain ⟨h2, rfl⟩ := bvEnc_ok.1 hb
  simp only [List.length_map] at h2
  have hl : (s.map UInt8.ofNat ++ List.replicate (m - (s.map UInt8.ofNat).length) 0).length = m := by
    simp; omega
  refine ⟨?_, hl⟩
  unfold avDec
  rw [bvDec_append hl, map_of_ok]
  have h3 : latin1Dec (s.map UInt8.ofNat) = s := latin1Dec_enc h1
  unfold latin1Dec at h3 ⊢
  rw [List.map_append, h3]
  simp

/-- A simple field is read back. -/
theorem fld_dec {f : Fld} {v : Val} {b rest : Bytes} (hr : f = .payload → rest = [])
    (h : f.codec.enc v = .ok b) : f.codec.dec (b ++ rest) = .ok (f.shown v, rest) := by
  cases f with
  | b n => exact faithful_B False n v b rest (fun h => h.elim) h
  | a n => exact faithful_A False n v b rest (fun h => h.elim) h
  | i n => exact faithful_I False n v b rest (fun h => h.elim) h
  | version => exact faithful_fixed False 5 v b rest (fun h => h.elim) h
  | payload => exact faithful_rest v b rest (fun _ => hr rfl) h
  | iint n =>
    cases v with
    | int i =>
      have h : iintEnc n i = .ok b := h
      simp only [Fld.codec, cIint, intCodec, iint_dec h, map_of_ok]
      rfl
    | bytes x => simp [Fld.codec, cIint, intCodec] at h
    | str x => simp [Fld.codec, cIint, intCodec] at h
  | av n =>
    cases v with
    | str s =>
      have h : avEnc n s = .ok b := h
      simp only [Fld.codec, cAV, (av_dec h).1, map_of_ok]
      rfl
    | bytes x => simp [Fld.codec, cAV] at h
    | int x => simp [Fld.codec, cAV] at h

theorem unset_eq (f : Fld) : f.codec.dflt = f.unset := by cases f <;> rfl

/-- A simple field other than the open ended one takes room. -/
theorem fld_solid {n : String} {f : Fld} {v : Val} {b : Bytes} (hs : (Core.fld n f).solid = true)
    (h : f.codec.enc v = .ok b) : b ≠ [] := by
  cases f with
  | b k =>
    cases v with
    | int i =>
      have h : bEnc k i = .ok b := h
      obtain ⟨_, _, rfl⟩ := toBytes_ok.1 h
      simp only [Core.solid, decide_eq_true_eq] at hs
      obtain ⟨k, rfl⟩ : ∃ j, k = j + 1 := ⟨k - 1, by omega⟩
      simp [le]
    | bytes x => simp [Fld.codec, cB, intCodec] at h
    | str x => simp [Fld.codec, cB, intCodec] at h
  | a k =>
    cases v with
    | str s =>
      have h : aEnc k s = .ok b := h
      obtain ⟨_, _, rfl⟩ := iEnc_ok.1 (aEnc_ok.1 h).2
      simp
    | bytes x => simp [Fld.codec, cA] at h
    | int x => simp [Fld.codec, cA] at h
  | i k =>
    cases v with
    | bytes s =>
      have h : iEnc k s = .ok b := h
      obtain ⟨_, _, rfl⟩ := iEnc_ok.1 h
      simp
    | str x => simp [Fld.codec, cI, bytesCodec] at h
    | int x => simp [Fld.codec, cI, bytesCodec] at h
  | version =>
    cases v with
    | bytes s =>
      have h : (if s.length = 5 then Except.ok s else .error .typeError : Except Err Bytes) = .ok b := h
      split at h
      · cases h; intro hc; subst hc; simp at *
      · cases h
    | str x => simp [Fld.codec, cFixed, bytesCodec] at h
    | int x => simp [Fld.codec, cFixed, bytesCodec] at h
  | payload => simp [Core.solid] at hs
  | iint k =>
    cases v with
    | int i =>
      have h : iintEnc k i = .ok b := h
      obtain ⟨_, _, _, rfl⟩ := iintEnc_ok.1 h
      simp
    | bytes x => simp [Fld.codec, cIint, intCodec] at h
    | str x => simp [Fld.codec, cIint, intCodec] at h
  | av k =>
    cases v with
    | str s =>
      have h : avEnc k s = .ok b := h
      have := (av_dec (rest := []) h).2
      simp only [Core.solid, decide_eq_true_eq] at hs
      intro hc; subst hc; simp at this; omega
    | bytes x => simp [Fld.codec, cAV] at h
    | int x => simp [Fld.codec, cAV] at h

/-! ## Bit maps -/

/-- The word the encoder makes is the word of the specification. -/
theorem bmField_word {c : PktClass} {p : Attrs} :
    ∀ {es : List Elem} {f F : Nat}, bmField c p es f = .ok F → F = f ||| word c p es := by
  intro es
  induction es with
  | nil => intro f F h; simp only [bmField, Except.ok.injEq] at h; simp [word, h]
  | cons e es ih =>
    intro f F h
    simp only [bmField] at h
    split at h
    · rename_i v hv
      split at h
      · cases h
      · have hn : num c p e.name = v.toNat := by
          unfold num
          cases hg : c.get p e.name with
          | none => rw [hg] at hv; simp at hv; subst hv; rfl
          | some w => rw [hg] at hv; simp at hv; subst hv; rfl
        rw [ih h, word, hn, Nat.shiftLeft_eq, Nat.or_assoc]
    · cases h

theorem bmField_word0 {c : PktClass} {p : Attrs} {es : List Elem} {F : Nat}
    (h : bmField c p es 0 = .ok F) : F = word c p es := by
  rw [bmField_word h, Nat.zero_or]

theorem bmGet_bits (F : Nat) (e : Elem) : bmGet F e = F / 2 ^ e.start % 2 ^ e.bits := by
  unfold bmGet
  rw [Nat.shiftRight_eq_div_pow, Nat.shiftLeft_eq, Nat.one_mul, Nat.and_two_pow_sub_one_eq_mod]

/-- A field or group is read back. -/
theorem read_enc {c : PktClass} {p : Attrs} {k : Core} {b rest : Bytes}
    (hr : k.isPayload = true → rest = []) (h : encCore c p k = .ok b) :
    readCore (b ++ rest) k = .ok (sent c p k, rest) := by
  cases k with
  | fld n f =>
    simp only [encCore] at h
    rw [unset_eq] at h
    have := fld_dec (rest := rest) (by rintro rfl; exact hr rfl) h
    simp [readCore, this, sent]
  | bm es =>
    simp only [encCore, bmEnc] at h
    rw [bind_ok] at h
    obtain ⟨F, hF, hb⟩ := h
    obtain ⟨h0, h1, rfl⟩ := toBytes_ok.1 hb
    have hlt := bmField_lt hF
    have hFn : ((F : Int)).toNat = F := by simp
    rw [hFn]
    simp only [readCore]
    rw [require_append (by simp), List.take_left' (by simp), List.drop_left' (by simp), fromLe_le_lt hlt]
    simp only [sent, ← bmField_word0 hF, bmGet_bits]
    rfl
  | bmex m es =>
    simp only [encCore] at h
    rw [bind_ok] at h
    obtain ⟨F, hF, hb⟩ := h
    simp only [readCore, exDec_enc hb, sent, ← bmField_word0 hF, bmGet_bits]
    rfl

/-- It takes room. -/
theorem enc_solid {c : PktClass} {p : Attrs} {k : Core} {b : Bytes} (hs : k.solid = true)
    (h : encCore c p k = .ok b) : b ≠ [] := by
  cases k with
  | fld n f => exact fld_solid hs h
  | bm es =>
    have := bmEnc_length h
    simp only [Core.solid, decide_eq_true_eq] at hs
    intro hc; subst hc; simp at this; omega
  | bmex m es =>
    simp only [encCore] at h
    rw [bind_ok] at h
    obtain ⟨F, hF, hb⟩ := h
    obtain ⟨_, rfl⟩ := exEnc_ok.1 hb
    rw [exGroups]; split <;> simp

/-- Without overlap the elements arrive as they are. -/
theorem sent_apart {c : PktClass} {p : Attrs} {k : Core} {b : Bytes} (ha : k.apart = true)
    (h : encCore c p k = .ok b) :
    ∀ w ∈ sent c p k, w.1 ∈ k.names ∧ (c.get p w.1).getD (.int 0) = w.2 := by
  have main : ∀ (es : List Elem) (F : Nat), bmOk es = true → bmField c p es 0 = .ok F →
      ∀ w ∈ es.map (fun e => (e.name, Val.int ((word c p es / 2 ^ e.start % 2 ^ e.bits : Nat) : Int))),
        w.1 ∈ es.map (·.name) ∧ (c.get p w.1).getD (.int 0) = w.2 := by
    intro es F ho hF w hw
    obtain ⟨e, he, rfl⟩ := List.mem_map.1 hw
    refine ⟨List.mem_map_of_mem he, ?_⟩
    have := bmGet_eq hF (bmOk_pairwise ho) he
    rw [bmGet_bits, bmField_word0 hF] at this
    exact this
  cases k with
  | fld n f => simp [Core.apart] at ha
  | bm es =>
    simp only [encCore, bmEnc] at h
    rw [bind_ok] at h
    obtain ⟨F, hF, hb⟩ := h
    exact main es F ha hF
  | bmex m es =>
    simp only [encCore] at h
    rw [bind_ok] at h
    obtain ⟨F, hF, hb⟩ := h
    exact main es F ha hF

theorem sent_names (c : PktClass) (p : Attrs) (k : Core) : (sent c p k).map (·.1) = k.names := by
  cases k <;> simp [sent, Core.names, Function.comp_def]

theorem read_names {d : Bytes} {k : Core} {ws : List (String × Val)} {rest : Bytes}
    (h : readCore d k = .ok (ws, rest)) : ws.map (·.1) = k.names := by
  cases k with
  | fld n f =>
    simp only [readCore, bind_ok] at h
    obtain ⟨x, _, hx⟩ := h
    cases hx; rfl
  | bm es =>
    simp only [readCore, bind_ok] at h
    obtain ⟨x, _, hx⟩ := h
    cases hx; simp [Core.names, Function.comp_def]
  | bmex m es =>
    simp only [readCore, bind_ok] at h
    obtain ⟨x, _, hx⟩ := h
    cases hx; simp [Core.names, Function.comp_def]

/-! ## Assignments -/

theorem latest_nil (n : String) : latest [] n = none := rfl

theorem latest_append (a b : List (String × Val)) (n : String) :
    latest (a ++ b) n = (latest b n).or (latest a n) := by
  unfold latest
  rw [List.reverse_append, List.find?_append]
  cases List.find? (fun w => w.1 == n) b.reverse <;> simp

theorem latest_single (w : String × Val) (n : String) :
    latest [w] n = if w.1 = n then some w.2 else none := by
  unfold latest
  by_cases h : w.1 = n <;> simp [h]

theorem latest_some {ws : List (String × Val)} {n : String} {v : Val} (h : latest ws n = some v) :
    (n, v) ∈ ws := by
  unfold latest at h
  rw [Option.map_eq_some_iff] at h
  obtain ⟨w, hw, rfl⟩ := h
  have h1 := List.find?_some hw
  have h2 := List.mem_of_find?_eq_some hw
  rw [List.mem_reverse] at h2
  rw [beq_iff_eq] at h1
  rw [← h1]; exact h2

theorem latest_none {ws : List (String × Val)} {n : String} (h : n ∉ ws.map (·.1)) :
    latest ws n = none := by
  cases hl : latest ws n with
  | none => rfl
  | some v => exact absurd (List.mem_map_of_mem (latest_some hl)) h

theorem latest_mem {ws : List (String × Val)} {n : String} (h : n ∈ ws.map (·.1)) :
    ∃ v, latest ws n = some v := by
  cases hl : latest ws n with
  | some v => exact ⟨v, rfl⟩
  | none =>
    exfalso
    unfold latest at hl
    rw [Option.map_eq_none_iff, List.find?_eq_none] at hl
    obtain ⟨w, hw, rfl⟩ := List.mem_map.1 h
    exact hl w (List.mem_reverse.2 hw) (by simp)

/-- The assignments succeed if none of them contradicts a fixed value. -/
def Permitted (c : PktClass) (ws : List (String × Val)) : Prop :=
  ∀ w ∈ ws, ∀ x, c.fixed w.1 = some x → x.2 = true ∨ w.2 = x.1

theorem setAll_ok {c : PktClass} : ∀ {ws : List (String × Val)} {acc : Attrs}, Permitted c ws →
    ∃ acc', setAll c ws acc = .ok acc' ∧ ∀ n, c.get acc' n = match c.fixed n with
      | some w => some w.1
      | none => (latest ws n).or (c.get acc n) := by
  intro ws
  induction ws with
  | nil =>
    intro acc _
    refine ⟨acc, rfl, fun n => ?_⟩
    unfold PktClass.get
    cases c.fixed n with
    | some w => rfl
    | none => simp [latest_nil]
  | cons w ws ih =>
    intro acc hp
    have h1 : ∃ a1, c.set acc w.1 w.2 = .ok a1 ∧ ∀ n, c.fixed n = none →
        c.get a1 n = if w.1 = n then some w.2 else c.get acc n := by
      unfold PktClass.set
      cases hf : c.fixed w.1 with
      | some x =>
        obtain ⟨x, any⟩ := x
        have : (any || decide (w.2 = x)) = true := by
          rcases hp w (by simp) _ hf with h | h
          · simp only at h; simp [h]
          · simp only at h; simp [h]
        refine ⟨acc, by simp only [this, if_true], fun n hn => ?_⟩
        rw [if_neg (by rintro rfl; rw [hf] at hn; cases hn)]
      | none =>
        refine ⟨_, rfl, fun n hn => ?_⟩
        simp only [PktClass.get, hn]
        by_cases h : n = w.1
        · rw [if_pos h, if_pos h.symm]
        · rw [if_neg h, if_neg (Ne.symm h)]
    obtain ⟨a1, hs, hg⟩ := h1
    obtain ⟨a2, h2, h3⟩ := ih (acc := a1) (fun x hx => hp x (by simp [hx]))
    refine ⟨a2, by simp [setAll, hs, h2], fun n => ?_⟩
    rw [h3 n]
    cases hf : c.fixed n with
    | some x => rfl
    | none =>
      simp only
      rw [show w :: ws = [w] ++ ws from rfl, latest_append, latest_single, hg n hf]
      by_cases h : w.1 = n
      · simp [h]
      · simp [h]

theorem sent_permitted {c : PktClass} {p : Attrs} {k : Core} {b : Bytes} (hk : k.fixedOk c = true)
    (h : encCore c p k = .ok b) : Permitted c (sent c p k) := by
  intro w hw x hx
  unfold Core.fixedOk at hk
  rw [Bool.or_eq_true] at hk
  rcases hk with hk | hk
  · have := (sent_apart hk h w hw).2
    have hg : c.get p w.1 = some x.1 := by unfold PktClass.get; rw [hx]
    rw [hg] at this
    exact .inr this.symm
  · rw [List.all_eq_true] at hk
    have := hk w.1 (by rw [← sent_names c p k]; exact List.mem_map_of_mem hw)
    rw [hx] at this
    exact .inl this

end Verif.Dap
