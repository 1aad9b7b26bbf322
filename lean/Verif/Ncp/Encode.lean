import Verif.Ncp.Walk

/-!
# The bytes of the requests
-/

namespace Verif.Ncp

open Verif.Nml (Bytes Ent Value PVal NameB NodeB AreaB Pars LoopPar CircPar NodeQual CircQual ModQual text two)

/-! ## Text and entities -/

theorem latin_iff {s : List Nat} {b : Bytes} : latin s = some b ↔ s = text b := by
  unfold latin text
  constructor
  · intro h
    split at h
    · rename_i ha
      cases h
      rw [List.all_eq_true] at ha
      rw [List.map_map]
      conv_lhs => rw [← List.map_id s]
      apply List.map_congr_left
      intro n hn
      have : n < 256 := by simpa using ha n hn
      simp only [id, Function.comp, UInt8.toNat_ofNat']
      omega
    · cases h
  · rintro rfl
    rw [if_pos]
    · rw [List.map_map]
      congr 1
      conv_rhs => rw [← List.map_id b]
      apply List.map_congr_left
      intro n _
      simp
    · rw [List.all_eq_true]
      intro n hn
      obtain ⟨c, -, rfl⟩ := List.mem_map.1 hn
      have := c.toNat_lt
      simpa using this

theorem counted_iff {m : Nat} {s : List Nat} {d : Bytes} :
    counted m s = some d ↔ ∃ b, s = text b ∧ b.length ≤ m ∧ d = UInt8.ofNat b.length :: b := by
  unfold counted
  cases h : latin s with
  | none =>
    simp only [reduceCtorEq, false_iff, not_exists, not_and]
    rintro b rfl
    rw [latin_iff.2 rfl] at h
    cases h
  | some b =>
    have hb := latin_iff.1 h
    simp only
    constructor
    · intro h
      split at h
      · rename_i hl
        cases h
        exact ⟨b, hb, hl, rfl⟩
      · cases h
    · rintro ⟨b', h1, h2, rfl⟩
      have : b = b' := by
        have := latin_iff.2 h1
        rw [h] at this
        exact Option.some.inj this
      subst this
      rw [if_pos h2]

theorem length_text (b : Bytes) : (text b).length = b.length := by simp [text]

/-- Names that are sent are names in the format. -/
theorem encName_name {s : List Nat} {d : Bytes} (hs : s ≠ []) (h : encName ⟨s.length, .str s⟩ = some d) :
    NameB ⟨s.length, .str s⟩ d := by
  unfold encName at h
  rw [if_neg (by simp)] at h
  obtain ⟨b, rfl, h2, rfl⟩ := counted_iff.1 h
  rw [length_text]
  refine .name b ?_ h2
  have := List.length_pos_iff.2 hs
  rw [length_text] at this
  exact this

theorem encName_several {c : Int} (h : -128 ≤ c ∧ c < 0) {d : Bytes} (he : encName ⟨c, .none⟩ = some d) :
    NameB ⟨c, .none⟩ d ∧ (-5 ≤ c → NodeB ⟨c, .none⟩ d) ∧ AreaB ⟨c, .none⟩ d := by
  unfold encName at he
  rw [if_pos h.2] at he
  cases he
  generalize hb : UInt8.ofNat (c % 256).toNat = b
  have hn : b.toNat = (c % 256).toNat := by rw [← hb, UInt8.toNat_ofNat']; omega
  have hc : c = (b.toNat : Int) - 256 := by omega
  rw [hc]
  refine ⟨.several b (by omega), fun h5 => .several b (by omega), .several b (by omega)⟩

theorem encName_ok {e : Ent} {d : Bytes} (h : NameB e d) : ∃ b, encName e = some b := by
  unfold encName
  cases h with
  | several c hc => rw [if_pos (by have := c.toNat_lt; simp only; omega)]; exact ⟨_, rfl⟩
  | name s h1 h2 =>
    rw [if_neg (by simp only; omega)]
    exact ⟨_, counted_iff.2 ⟨s, rfl, h2, rfl⟩⟩

theorem encNode_ok {e : Ent} {d : Bytes} (h : NodeB e d) : ∃ b, encNode e = some b := by
  unfold encNode
  cases h with
  | address a b =>
    rw [if_pos rfl]
    simp only
    rw [if_pos (Nml.two_lt a b)]
    exact ⟨_, rfl⟩
  | several c hc =>
    have := c.toNat_lt
    rw [if_neg (by simp only; omega)]
    exact encName_ok (.several c (by omega))
  | adjacent c a b h1 h2 =>
    have := c.toNat_lt
    rw [if_neg (by simp only; omega)]
    unfold encName
    rw [if_pos (by simp only; omega)]
    exact ⟨_, rfl⟩
  | name s h1 h2 h3 =>
    rw [if_neg (by simp only; omega)]
    exact encName_ok (.name s h1 h2)
  | written s n h1 h2 h3 =>
    have := Addr.accepted_in_range.1 _ _ h3
    rw [if_pos rfl]
    simp only
    rw [if_pos (by omega)]
    exact ⟨_, rfl⟩

theorem encArea_ok {e : Ent} {d : Bytes} (h : AreaB e d) : ∃ b, encArea e = some b := by
  unfold encArea
  cases h with
  | number n => rw [if_pos rfl]; simp only; rw [if_pos n.toNat_lt]; exact ⟨_, rfl⟩
  | several c hc =>
    have := c.toNat_lt
    rw [if_neg (by simp only; omega), if_neg (by simp only; omega)]
    exact encName_ok (.several c hc)

theorem encEnt_ok {t : Nat} {e : Ent} {d : Bytes} (h : EntB t e d) : ∃ b, encEnt t e = some b := by
  unfold EntB at h
  unfold encEnt
  split
  · rw [if_pos (by assumption)] at h; exact encNode_ok h
  · rw [if_neg (by assumption)] at h
    split
    · rw [if_pos (by assumption)] at h; exact encArea_ok h
    · rw [if_neg (by assumption)] at h; exact encName_ok h

theorem two_split {n : Nat} (h : n < 65536) : two (UInt8.ofNat (n % 256)) (UInt8.ofNat (n / 256)) = n := by
  unfold two
  rw [UInt8.toNat_ofNat', UInt8.toNat_ofNat']
  omega

theorem encNode_num {n : Nat} {d : Bytes} (h : encNode ⟨0, .num n⟩ = some d) : NodeB ⟨0, .num n⟩ d := by
  unfold encNode at h
  rw [if_pos rfl] at h
  simp only at h
  split at h
  · rename_i hn
    cases h
    have := NodeB.address (UInt8.ofNat (n % 256)) (UInt8.ofNat (n / 256))
    rwa [two_split hn] at this
  · cases h

theorem char_text {s : Str} {b : Bytes} (h : s.map Char.toNat = text b) : (text b).map Char.ofNat = s := by
  rw [← h, List.map_map]
  conv_rhs => rw [← List.map_id s]
  apply List.map_congr_left
  intro c _
  simp [Function.comp]

theorem encNode_name {s : Str} {d : Bytes} (hs : ∀ n, Addr.ofText s ≠ .ok n)
    (h : encNode ⟨s.length, .str (s.map Char.toNat)⟩ = some d) :
    NodeB ⟨s.length, .str (s.map Char.toNat)⟩ d := by
  unfold encNode at h
  by_cases h0 : s = []
  · subst h0
    rw [if_pos (by rfl)] at h
    cases h
  · have hl := List.length_pos_iff.2 h0
    rw [if_neg (by simp; omega)] at h
    unfold encName at h
    rw [if_neg (by simp)] at h
    obtain ⟨b, hb, h2, rfl⟩ := counted_iff.1 h
    have hlen : s.length = b.length := by
      have := congrArg List.length hb
      simpa [length_text] using this
    rw [hb, hlen]
    refine .name b (by omega) h2 ?_
    rw [char_text hb]
    exact hs

theorem encEnt_one {t : Nat} {s : Str} {e : Ent} {d : Bytes} (hs : s ≠ []) (ho : One t s e) (h : encEnt t e = some d) :
    EntB t e d := by
  unfold encEnt at h
  unfold EntB
  cases ho with
  | address s n hn => rw [if_pos rfl] at h ⊢; exact encNode_num h
  | area s n hn =>
    rw [if_neg (by decide), if_pos rfl] at h ⊢
    unfold encArea at h
    rw [if_pos rfl] at h
    simp only at h
    split at h
    · rename_i hlt
      cases h
      have := AreaB.number (UInt8.ofNat n)
      rwa [Nml.ofNat_len (by omega)] at this
    · cases h
  | name t s h5 h0 =>
    split
    · rename_i ht
      subst ht
      rw [if_pos rfl] at h
      have := encNode_name (s := upper s) (d := d) ((address_upper s).1 (h0 rfl))
      rw [upper_length] at this
      exact this h
    · rename_i ht
      rw [if_neg ht, if_neg h5] at h
      have := encName_name (s := (upper s).map Char.toNat) (d := d)
        (by have := List.length_pos_iff.2 hs; intro he; simp [upper] at he; exact hs he)
      rw [List.length_map, upper_length] at this
      exact this h

theorem encEnt_phrase {a : List Str} {t : Nat} {e : Ent} {d : Bytes} (hs : [] ∉ a) (hp : EntPhrase a t e)
    (h : encEnt t e = some d) : EntB t e d := by
  cases hp with
  | executor tok ha => exact encNode_num h
  | several a b w c v t hw hv ha hb =>
    have hc : -5 ≤ c ∧ c < 0 := by
      simp only [selectors, List.mem_cons, List.not_mem_nil, or_false, Prod.mk.injEq] at hw
      omega
    have key : ∀ {d}, encName ⟨c, .none⟩ = some d → _ := fun {d} => encName_several (c := c) (by omega) (d := d)
    unfold encEnt at h
    unfold EntB
    split
    · rename_i ht
      rw [if_pos ht] at h
      unfold encNode at h
      rw [if_neg (by simp only; omega)] at h
      exact (key h).2.1 hc.1
    · rename_i ht
      rw [if_neg ht] at h
      split
      · rename_i h5
        rw [if_pos h5] at h
        unfold encArea at h
        rw [if_neg (by simp only; omega), if_neg (by simp only; omega)] at h
        exact (key h).2.2
      · rename_i h5
        rw [if_neg h5] at h
        exact (key h).1
  | one a s w t e hw ha ho => exact encEnt_one (by rintro rfl; simp at hs) ho h

/-! ## Parameters -/

theorem lastOf_snoc (qs : Sets) (f : Fld) (v : PVal) (n : Nat) :
    lastOf (qs ++ [(f, v)]) n = if f = .par n then some v else lastOf qs n := by
  unfold lastOf
  rw [List.filter_append]
  by_cases h : f = .par n
  · subst h; simp
  · simp [h]

theorem attr_lastOf (qs : Sets) (n : Nat) : attr qs (.par n) = lastOf qs n := by
  unfold attr lastOf
  rw [List.getLast?_eq_head?_reverse, ← List.filter_reverse, List.head?_filter]
  rfl

theorem lastOf_mem {qs : Sets} {n : Nat} {v : PVal} (h : lastOf qs n = some v) : (Fld.par n, v) ∈ qs := by
  unfold lastOf at h
  obtain ⟨⟨f, v'⟩, hp, rfl⟩ := Option.map_eq_some_iff.1 h
  have := List.mem_of_getLast? hp
  rw [List.mem_filter] at this
  obtain ⟨h1, h2⟩ := this
  simp only [decide_eq_true_eq] at h2
  rw [← h2]; exact h1

/-- The parameters that a request carries. -/
def carried (rows : List Row) (qs : Sets) : List (Nat × PVal) :=
  rows.filterMap fun r => (attr qs (.par r.num)).map fun v => (r.num, v)

theorem mem_carried {rows : List Row} {qs : Sets} {n : Nat} {v : PVal} :
    (n, v) ∈ carried rows qs ↔ lastOf qs n = some v ∧ ∃ r ∈ rows, r.num = n := by
  unfold carried
  simp only [List.mem_filterMap, attr_lastOf, Option.map_eq_some_iff, Prod.mk.injEq]
  constructor
  · rintro ⟨r, hr, w, h, rfl, rfl⟩; exact ⟨h, r, hr, rfl⟩
  · rintro ⟨h, r, hr, rfl⟩; exact ⟨r, hr, v, h, rfl, rfl⟩

theorem carried_settled {rows : List Row} {qs : Sets} (hr : rows.Pairwise fun a b => a.num < b.num)
    (hq : ∀ n v, (Fld.par n, v) ∈ qs → ∃ r ∈ rows, r.num = n) : Settled qs (carried rows qs) := by
  constructor
  · unfold carried
    rw [List.pairwise_filterMap]
    refine hr.imp ?_
    intro a b hab x hx y hy
    simp only [Option.map_eq_some_iff] at hx hy
    obtain ⟨_, _, rfl⟩ := hx
    obtain ⟨_, _, rfl⟩ := hy
    exact hab
  · intro n v
    rw [mem_carried]
    constructor
    · exact fun h => h.1
    · intro h; exact ⟨h, hq n v (lastOf_mem h)⟩

theorem encNice_pars {P : Nat → PVal → Bytes → Prop} {rows : List Row} {qs : Sets} {p : Bytes}
    (hP : ∀ r ∈ rows, ∀ v d, (Fld.par r.num, v) ∈ qs → encPar r.kind v = some d → P r.num v d)
    (hn : ∀ r ∈ rows, r.num < 4096) (h : encNice rows qs = some p) : Pars P (carried rows qs) p := by
  induction rows generalizing p with
  | nil => cases h; exact .nil
  | cons r rows ih =>
    unfold encNice at h
    have ih' := fun {p} => ih (p := p) (fun r' hr' => hP r' (List.mem_cons_of_mem _ hr'))
      (fun r' hr' => hn r' (List.mem_cons_of_mem _ hr'))
    unfold carried
    rw [List.filterMap_cons]
    cases ha : attr qs (.par r.num) with
    | none =>
      rw [ha] at h
      exact ih' h
    | some v =>
      rw [ha] at h
      simp only at h
      split at h
      · rename_i b m hb hm
        cases h
        have h4 := hn r List.mem_cons_self
        have h2 := two_split (n := r.num) (by omega)
        have := Pars.cons (P := P) (UInt8.ofNat (r.num % 256)) (UInt8.ofNat (r.num / 256)) v b _ m
          (by rw [UInt8.toNat_ofNat']; omega)
          (by rw [h2, Nat.mod_eq_of_lt h4]
              exact hP r List.mem_cons_self v b (lastOf_mem (by rw [← attr_lastOf]; exact ha)) hb) (ih' hm)
        rw [h2, Nat.mod_eq_of_lt h4] at this
        exact this
      · cases h

theorem encNice_ok {rows : List Row} {qs : Sets}
    (hP : ∀ r ∈ rows, ∀ v, (Fld.par r.num, v) ∈ qs → ∃ d, encPar r.kind v = some d) :
    ∃ p, encNice rows qs = some p := by
  induction rows with
  | nil => exact ⟨_, rfl⟩
  | cons r rows ih =>
    obtain ⟨m, hm⟩ := ih fun r' hr' => hP r' (List.mem_cons_of_mem _ hr')
    unfold encNice
    cases ha : attr qs (.par r.num) with
    | none => exact ⟨m, hm⟩
    | some v =>
      obtain ⟨d, hd⟩ := hP r List.mem_cons_self v (lastOf_mem (by rw [← attr_lastOf]; exact ha))
      simp only [hd, hm]
      exact ⟨_, rfl⟩

/-- What is assigned to an attribute was read as the syntax says. -/
theorem phrase_typed {syn : Syntax} {a : List Str} {qs : Sets} (h : ParsPhrase syn a qs) {f : Fld} {v : PVal}
    (hm : (f, v) ∈ qs) :
    (∃ words, ∃ n : Nat, (words, .value n f) ∈ syn ∧ v = .simple (.num .c 1 n)) ∨
      ∃ words k tok, (words, .arg k f) ∈ syn ∧ Reads k tok v ∧ tok ∈ a := by
  induction h with
  | nil => cases hm
  | cons a b f' v' qs h1 h2 ih =>
    rcases List.mem_cons.1 hm with he | hm
    · cases he
      cases h1 with
      | named toks words n f hm' hw => exact .inl ⟨words, n, hm', rfl⟩
      | given toks words k f tok v hm' hw hr => exact .inr ⟨words, k, tok, hm', hr, by simp⟩
    · rcases ih hm with h | ⟨w, k, tok, h1, h2, h3⟩
      · exact .inl h
      · exact .inr ⟨w, k, tok, h1, h2, List.mem_append_right _ h3⟩

/-- The field of a leaf. -/
def Leaf.fld : Leaf → Fld
  | .value _ f => f
  | .arg _ f => f

/-- A leaf and a row of the table are of a kind. -/
def compat : Kind ⊕ List Str → Leaf → Bool
  | .inl k, .arg k' _ => k == k'
  | .inr vs, .value i _ => i < vs.length
  | _, _ => false

/-- Every row and every leaf for the same parameter are of a kind, and every leaf for a parameter has a row. -/
def Agree (rows : List Row) (syn : Syntax) : Bool :=
  (rows.all fun r => syn.all fun p => p.2.fld != .par r.num || compat r.kind p.2) &&
    syn.all fun p => match p.2.fld with | .par n => rows.any fun r => r.num == n | _ => true

theorem agree_row {rows : List Row} {syn : Syntax} (h : Agree rows syn = true) {a : List Str} {qs : Sets}
    (hq : ParsPhrase syn a qs) {r : Row} (hr : r ∈ rows) {v : PVal} (hm : (Fld.par r.num, v) ∈ qs) :
    (∃ vs, ∃ n : Nat, r.kind = .inr vs ∧ n < vs.length ∧ v = .simple (.num .c 1 n)) ∨
      ∃ k tok, r.kind = .inl k ∧ Reads k tok v ∧ tok ∈ a := by
  unfold Agree at h
  simp only [Bool.and_eq_true, List.all_eq_true] at h
  rcases phrase_typed hq hm with ⟨words, n, h1, rfl⟩ | ⟨words, k, tok, h1, h2, h3⟩
  · have := h.1 r hr _ h1
    simp only [Leaf.fld, bne_self_eq_false, Bool.false_or] at this
    cases hk : r.kind with
    | inl k => rw [hk] at this; simp [compat] at this
    | inr vs => rw [hk] at this; exact .inl ⟨vs, n, rfl, by simpa [compat] using this, rfl⟩
  · have := h.1 r hr _ h1
    simp only [Leaf.fld, bne_self_eq_false, Bool.false_or] at this
    cases hk : r.kind with
    | inr k => rw [hk] at this; simp [compat] at this
    | inl k' =>
      rw [hk] at this
      have : k' = k := by simpa [compat] using this
      subst this
      exact .inr ⟨k', tok, rfl, h2, h3⟩

theorem agree_num {rows : List Row} {syn : Syntax} (h : Agree rows syn = true) {a : List Str} {qs : Sets}
    (hq : ParsPhrase syn a qs) {n : Nat} {v : PVal} (hm : (Fld.par n, v) ∈ qs) : ∃ r ∈ rows, r.num = n := by
  unfold Agree at h
  simp only [Bool.and_eq_true, List.all_eq_true] at h
  have key : ∀ p ∈ syn, p.2.fld = .par n → ∃ r ∈ rows, r.num = n := by
    intro p hp hf
    have := h.2 p hp
    rw [hf] at this
    simpa using this
  rcases phrase_typed hq hm with ⟨words, m, h1, -⟩ | ⟨words, k, tok, h1, -, -⟩
  · exact key _ h1 rfl
  · exact key _ h1 rfl

/-! ## Values -/

theorem enc_value {vs : List Str} {n : Nat} {d : Bytes} (h : encPar (.inr vs) (.simple (.num .c 1 n)) = some d) :
    ∃ a : UInt8, (n : Int) = a.toNat ∧ d = [a] := by
  simp only [encPar] at h
  split at h
  · rename_i hn
    cases h
    refine ⟨UInt8.ofNat n, ?_, by simp⟩
    rw [UInt8.toNat_ofNat']
    omega
  · cases h

theorem enc_du2 {tok : Str} {v : PVal} {d : Bytes} (hr : Reads .du2 tok v) (h : encPar (.inl .du2) v = some d) :
    ∃ a b : UInt8, v = .simple (.num .du 2 (two a b)) ∧ d = [a, b] := by
  cases hr with
  | du2 s n hn =>
    simp only [encPar] at h
    split at h
    · rename_i hlt
      cases h
      have h1 : ((n : Int) % 256).toNat = n % 256 := by omega
      have h2 : ((n : Int) / 256).toNat = n / 256 := by omega
      refine ⟨UInt8.ofNat (n % 256), UInt8.ofNat (n / 256), ?_, by rw [h1, h2]⟩
      rw [two_split (by omega)]
    · cases h

theorem enc_hi {tok : Str} {v : PVal} {d : Bytes} (hr : Reads .hi tok v) (h : encPar (.inl .hi) v = some d) :
    ∃ b : Bytes, v = .simple (.hi b) ∧ b.length ≤ 255 ∧ d = UInt8.ofNat b.length :: b := by
  cases hr with
  | hi s b hb =>
    simp only [encPar] at h
    split at h
    · rename_i hl; cases h; exact ⟨b, rfl, hl, rfl⟩
    · cases h

theorem enc_ai {tok : Str} {v : PVal} {d : Bytes} (hr : Reads .ai tok v) (h : encPar (.inl .ai) v = some d) :
    ∃ b : Bytes, v = .simple (.ai (text b)) ∧ b.length ≤ 255 ∧ d = UInt8.ofNat b.length :: b := by
  cases hr with
  | ai s =>
    simp only [encPar] at h
    obtain ⟨b, h1, h2, h3⟩ := counted_iff.1 h
    exact ⟨b, by rw [h1], h2, h3⟩

theorem enc_str {tok : Str} {v : PVal} {d : Bytes} (ht : tok ≠ []) (hr : Reads .strQual tok v)
    (h : encPar (.inl .strQual) v = some d) : ∃ e, v = .ent e ∧ NameB e d := by
  cases hr with
  | strQual s =>
    simp only [encPar] at h
    have := encName_name (s := tok.map Char.toNat) (d := d) (by simpa using ht)
    rw [List.length_map] at this
    exact ⟨_, rfl, this h⟩

theorem enc_node {tok : Str} {v : PVal} {d : Bytes} (hr : Reads .nodeQual tok v)
    (h : encPar (.inl .nodeQual) v = some d) : ∃ e, v = .ent e ∧ NodeB e d := by
  cases hr with
  | nodeAddr s n hn => exact ⟨_, rfl, encNode_num h⟩
  | nodeName s hn => exact ⟨_, rfl, encNode_name hn h⟩

end Verif.Ncp
