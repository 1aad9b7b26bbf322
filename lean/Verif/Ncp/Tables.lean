import Verif.Ncp.Encode

/-!
# The tables of parameters, and the parts of a command
-/

namespace Verif.Ncp

open Verif.Nml (Bytes Ent Value PVal NameB NodeB AreaB Pars LoopPar CircPar NodeQual CircQual ModQual text two Req ReqB)

/-! ## Parameters per table -/

theorem node_par {syn : Syntax} {a : List Str} {qs : Sets} (hs : [] ∉ a) (ha : Agree nodeRows syn = true)
    (hq : ParsPhrase syn a qs) : ∀ r ∈ nodeRows, ∀ v d, (Fld.par r.num, v) ∈ qs → encPar r.kind v = some d →
      NodeQual r.num v d := by
  intro r hr v d hm he
  have hne : ∀ tok ∈ a, tok ≠ [] := fun tok ht e => hs (e ▸ ht)
  rcases agree_row ha hq hr hm with ⟨vs, n, hk, -, rfl⟩ | ⟨k, tok, hk, hrd, ht⟩
  · simp only [nodeRows, List.mem_cons, List.not_mem_nil, or_false] at hr
    rcases hr with rfl | rfl <;> cases hk
  · simp only [nodeRows, List.mem_cons, List.not_mem_nil, or_false] at hr
    rcases hr with rfl | rfl <;> cases hk
    · obtain ⟨e, rfl, h⟩ := enc_str (hne _ ht) hrd he
      exact .owner e d h
    · obtain ⟨e, rfl, h⟩ := enc_str (hne _ ht) hrd he
      exact .circuit e d h

theorem circ_par {syn : Syntax} {a : List Str} {qs : Sets} (ha : Agree circRows syn = true)
    (hq : ParsPhrase syn a qs) : ∀ r ∈ circRows, ∀ v d, (Fld.par r.num, v) ∈ qs → encPar r.kind v = some d →
      CircQual r.num v d := by
  intro r hr v d hm he
  rcases agree_row ha hq hr hm with ⟨vs, n, hk, -, rfl⟩ | ⟨k, tok, hk, hrd, ht⟩
  · simp only [circRows, List.mem_cons, List.not_mem_nil, or_false] at hr
    subst hr; cases hk
  · simp only [circRows, List.mem_cons, List.not_mem_nil, or_false] at hr
    subst hr; cases hk
    obtain ⟨e, rfl, h⟩ := enc_node hrd he
    exact .adjacent e d h

theorem mod_par {syn : Syntax} {a : List Str} {qs : Sets} (hs : [] ∉ a) (ha : Agree modRows syn = true)
    (hq : ParsPhrase syn a qs) : ∀ r ∈ modRows, ∀ v d, (Fld.par r.num, v) ∈ qs → encPar r.kind v = some d →
      ModQual r.num v d := by
  intro r hr v d hm he
  have hne : ∀ tok ∈ a, tok ≠ [] := fun tok ht e => hs (e ▸ ht)
  rcases agree_row ha hq hr hm with ⟨vs, n, hk, -, rfl⟩ | ⟨k, tok, hk, hrd, ht⟩
  · simp only [modRows, List.mem_cons, List.not_mem_nil, or_false] at hr
    rcases hr with rfl | rfl | rfl | rfl | rfl | rfl <;> cases hk
  · simp only [modRows, List.mem_cons, List.not_mem_nil, or_false] at hr
    rcases hr with rfl | rfl | rfl | rfl | rfl | rfl <;> cases hk
    · obtain ⟨e, rfl, h⟩ := enc_str (hne _ ht) hrd he
      exact .named _ e d (by simp) h
    · obtain ⟨b, rfl, h1, rfl⟩ := enc_hi hrd he
      exact .address b h1
    · obtain ⟨e, rfl, h⟩ := enc_str (hne _ ht) hrd he
      exact .named _ e d (by simp) h
    · obtain ⟨e, rfl, h⟩ := enc_str (hne _ ht) hrd he
      exact .named _ e d (by simp) h
    · obtain ⟨e, rfl, h⟩ := enc_str (hne _ ht) hrd he
      exact .named _ e d (by simp) h
    · obtain ⟨e, rfl, h⟩ := enc_str (hne _ ht) hrd he
      exact .named _ e d (by simp) h

theorem loop_par {syn : Syntax} {a : List Str} {qs : Sets} (ha : Agree loopRows syn = true)
    (hq : ParsPhrase syn a qs) : ∀ r ∈ loopRows, ∀ v d, (Fld.par r.num, v) ∈ qs → encPar r.kind v = some d →
      LoopPar r.num v d := by
  intro r hr v d hm he
  rcases agree_row ha hq hr hm with ⟨vs, n, hk, -, rfl⟩ | ⟨k, tok, hk, hrd, ht⟩
  · simp only [loopRows, List.mem_cons, List.not_mem_nil, or_false] at hr
    rcases hr with rfl | rfl | rfl <;> cases hk
    obtain ⟨x, hx, rfl⟩ := enc_value he
    rw [hx]; exact .data x
  · simp only [loopRows, List.mem_cons, List.not_mem_nil, or_false] at hr
    rcases hr with rfl | rfl | rfl <;> cases hk
    · obtain ⟨x, y, rfl, rfl⟩ := enc_du2 hrd he
      exact .count x y
    · obtain ⟨x, y, rfl, rfl⟩ := enc_du2 hrd he
      exact .length x y

theorem loopCirc_par {syn : Syntax} {a : List Str} {qs : Sets} (ha : Agree loopCircRows syn = true)
    (hq : ParsPhrase syn a qs) : ∀ r ∈ loopCircRows, ∀ v d, (Fld.par r.num, v) ∈ qs → encPar r.kind v = some d →
      CircPar r.num v d := by
  intro r hr v d hm he
  rcases agree_row ha hq hr hm with ⟨vs, n, hk, -, rfl⟩ | ⟨k, tok, hk, hrd, ht⟩
  · simp only [loopCircRows, loopRows, List.cons_append, List.nil_append, List.mem_cons, List.not_mem_nil,
      or_false] at hr
    rcases hr with rfl | rfl | rfl | rfl | rfl | rfl | rfl | rfl <;> cases hk
    · obtain ⟨x, hx, rfl⟩ := enc_value he
      rw [hx]; exact .loop _ _ _ (.data x)
    · obtain ⟨x, hx, rfl⟩ := enc_value he
      rw [hx]; exact .help x
  · simp only [loopCircRows, loopRows, List.cons_append, List.nil_append, List.mem_cons, List.not_mem_nil,
      or_false] at hr
    rcases hr with rfl | rfl | rfl | rfl | rfl | rfl | rfl | rfl <;> cases hk
    · obtain ⟨b, rfl, h1, rfl⟩ := enc_hi hrd he
      exact .station b h1
    · obtain ⟨x, y, rfl, rfl⟩ := enc_du2 hrd he
      exact .loop _ _ _ (.count x y)
    · obtain ⟨x, y, rfl, rfl⟩ := enc_du2 hrd he
      exact .loop _ _ _ (.length x y)
    · obtain ⟨b, rfl, h1, rfl⟩ := enc_hi hrd he
      exact .assistant b h1
    · obtain ⟨b, rfl, h1, rfl⟩ := enc_ai hrd he
      exact .node b h1
    · obtain ⟨b, rfl, h1, rfl⟩ := enc_ai hrd he
      exact .assistNode b h1

/-! ## And back: what has a format can be sent -/

theorem du2_ok (a b : UInt8) : ∃ d, encPar (.inl .du2) (.simple (.num .du 2 (two a b))) = some d := by
  simp only [encPar]
  rw [if_pos (by have := Nml.two_lt a b; omega)]
  exact ⟨_, rfl⟩

theorem c1_ok (vs : List Str) (a : UInt8) : ∃ d, encPar (.inr vs) (.simple (.num .c 1 a.toNat)) = some d := by
  simp only [encPar]
  rw [if_pos (by have := a.toNat_lt; omega)]
  exact ⟨_, rfl⟩

theorem hi_ok {s : Bytes} (h : s.length ≤ 255) : ∃ d, encPar (.inl .hi) (.simple (.hi s)) = some d := by
  simp only [encPar]
  rw [if_pos h]
  exact ⟨_, rfl⟩

theorem ai_ok {s : Bytes} (h : s.length ≤ 255) : ∃ d, encPar (.inl .ai) (.simple (.ai (text s))) = some d := by
  simp only [encPar]
  exact ⟨_, counted_iff.2 ⟨s, rfl, h, rfl⟩⟩

theorem qual_ok {t : Nat} {rows : List Row} (hr : readRows t = some rows) {r : Row} (hm : r ∈ rows) {v : PVal}
    {d : Bytes} (h : QualB t r.num v d) : ∃ b, encPar r.kind v = some b := by
  unfold readRows at hr
  unfold QualB at h
  split at hr
  · cases hr
    rw [if_pos (by assumption)] at h
    simp only [nodeRows, List.mem_cons, List.not_mem_nil, or_false] at hm
    rcases hm with rfl | rfl
    · cases h with | owner e d h => exact encName_ok h
    · cases h with | circuit e d h => exact encName_ok h
  · rw [if_neg (by assumption)] at h
    split at hr
    · cases hr
      rw [if_pos (by assumption)] at h
      simp only [circRows, List.mem_cons, List.not_mem_nil, or_false] at hm
      subst hm
      cases h with | adjacent e d h => exact encNode_ok h
    · rw [if_neg (by assumption)] at h
      split at hr
      · cases hr
        rw [if_pos (by assumption)] at h
        simp only [modRows, List.mem_cons, List.not_mem_nil, or_false] at hm
        rcases hm with rfl | rfl | rfl | rfl | rfl | rfl
        · cases h with | named _ e d h0 h => exact encName_ok h
        · cases h with
          | named _ e d h0 h => simp at h0
          | address s h => exact hi_ok h
        · cases h with | named _ e d h0 h => exact encName_ok h
        · cases h with | named _ e d h0 h => exact encName_ok h
        · cases h with | named _ e d h0 h => exact encName_ok h
        · cases h with | named _ e d h0 h => exact encName_ok h
      · cases hr

theorem loopPar_ok {r : Row} (hm : r ∈ loopRows) {v : PVal} {d : Bytes} (h : LoopPar r.num v d) :
    ∃ b, encPar r.kind v = some b := by
  simp only [loopRows, List.mem_cons, List.not_mem_nil, or_false] at hm
  rcases hm with rfl | rfl | rfl
  · cases h with | count a b => exact du2_ok a b
  · cases h with | length a b => exact du2_ok a b
  · cases h with | data a => exact c1_ok _ a

theorem circPar_ok {r : Row} (hm : r ∈ loopCircRows) {v : PVal} {d : Bytes} (h : CircPar r.num v d) :
    ∃ b, encPar r.kind v = some b := by
  simp only [loopCircRows, loopRows, List.cons_append, List.nil_append, List.mem_cons, List.not_mem_nil,
    or_false] at hm
  rcases hm with rfl | rfl | rfl | rfl | rfl | rfl | rfl | rfl
  · cases h with
    | loop _ _ _ h => cases h
    | station s h => exact hi_ok h
  · cases h with | loop _ _ _ h => cases h with | count a b => exact du2_ok a b
  · cases h with | loop _ _ _ h => cases h with | length a b => exact du2_ok a b
  · cases h with | loop _ _ _ h => cases h with | data a => exact c1_ok _ a
  · cases h with
    | loop _ _ _ h => cases h
    | assistant s h => exact hi_ok h
  · cases h with
    | loop _ _ _ h => cases h
    | help a => exact c1_ok _ a
  · cases h with
    | loop _ _ _ h => cases h
    | node s h => exact ai_ok h
  · cases h with
    | loop _ _ _ h => cases h
    | assistNode s h => exact ai_ok h

/-! ## Kinds of information are not qualifiers -/

theorem get_key {α : Type} {d : I3 α} {tok : Str} {v : α} (h : I3.get d tok = some v) :
    (lower tok).take 3 ∈ d.map (·.1) := by
  unfold I3.get at h
  split at h
  · cases h
  · rename_i p hp
    have h1 := List.mem_of_find?_eq_some hp
    have h2 := List.find?_some hp
    rw [List.mem_map]
    exact ⟨p, h1, by simpa using h2⟩

theorem info_no_qual {t : Nat} {rows : List Row} (hr : readRows t = some rows) {tok w : Str} {i : Nat}
    (hw : (w, i) ∈ kinds) (ha : Abbr tok w) : I3.get (makeparsetree rows []) tok = none := by
  cases hg : I3.get (makeparsetree rows []) tok with
  | none => rfl
  | some v =>
    exfalso
    have hk := get_key hg
    have hal : (lower tok).take 3 = (lower w).take 3 := ((alike_of_abbr ha.1).2 ha.2).symm
    rw [hal] at hk
    have hkeys : rows ∈ [nodeRows, circRows, modRows] := by
      unfold readRows at hr
      split at hr
      · cases hr; simp
      · split at hr
        · cases hr; simp
        · split at hr
          · cases hr; simp
          · cases hr
    have key : ∀ rs ∈ [nodeRows, circRows, modRows], ∀ p ∈ kinds,
        (lower p.1).take 3 ∉ (makeparsetree rs []).map (·.1) := by decide
    exact key rows hkeys (w, i) hw hk

theorem phrase_info {t : Nat} {a : List Str} {qs : Sets} (hq : ParsPhrase (showSyntax t) a qs) {tok : Str}
    {r : List Str} (ha : a = tok :: r) : info.get tok = none := by
  cases hq with
  | nil => cases ha
  | cons b c f v qs h1 h2 =>
    have hne : ∃ tok' r' w ws l, b ++ c = tok' :: r' ∧ (w :: ws, l) ∈ showSyntax t ∧ Abbr tok' w := by
      have key : ∀ p ∈ nodeSyntax ++ circSyntax ++ modSyntax, p.1 ≠ [] := by decide
      have hsub : ∀ p ∈ showSyntax t, p ∈ nodeSyntax ++ circSyntax ++ modSyntax := by
        intro p hp
        unfold showSyntax at hp
        split at hp
        · simp [hp]
        · split at hp
          · simp [hp]
          · split at hp
            · simp [hp]
            · cases hp
      cases h1 with
      | named toks words n f hm hw =>
        cases words with
        | nil => exact absurd rfl (key _ (hsub _ hm))
        | cons w ws =>
          cases b with
          | nil => exact hw.elim
          | cons x b => exact ⟨x, b ++ c, w, ws, _, rfl, hm, hw.1⟩
      | given toks words k f tok v hm hw hr =>
        cases words with
        | nil => exact absurd rfl (key _ (hsub _ hm))
        | cons w ws =>
          cases toks with
          | nil => exact hw.elim
          | cons x b => exact ⟨x, b ++ [tok] ++ c, w, ws, _, rfl, hm, hw.1⟩
    obtain ⟨tok', r', w, ws, l, h3, h4, h5⟩ := hne
    rw [h3] at ha
    cases ha
    have hw : ∀ p ∈ kinds, ¬ Alike w p.1 := by
      have key : ∀ s ∈ nodeSyntax ++ circSyntax ++ modSyntax, ∀ p ∈ kinds, ¬ Alike (s.1.headD []) p.1 := by decide
      have hsub : (w :: ws, l) ∈ nodeSyntax ++ circSyntax ++ modSyntax := by
        unfold showSyntax at h4
        split at h4
        · simp [h4]
        · split at h4
          · simp [h4]
          · split at h4
            · simp [h4]
            · cases h4
      exact key _ hsub
    unfold info
    rw [get_ofList_none (by decide)]
    intro name i hm hb
    exact hw (name, i) hm (abbr_alike h5 hb)

/-! ## Commands -/

/-- Everything about one table of qualifiers. -/
theorem read_pars {t : Nat} {a : List Str} {qs : Sets} (hs : [] ∉ a) (hq : ParsPhrase (showSyntax t) a qs)
    {p : Bytes} (h : encNice ((readRows t).getD []) qs = some p) :
    ∃ ps, Settled qs ps ∧ Pars (QualB t) ps p := by
  unfold showSyntax at hq
  unfold QualB
  unfold readRows at h
  split at hq
  · rename_i ht
    rw [if_pos ht] at h ⊢
    exact ⟨_, carried_settled (by decide) fun n v hm => agree_num (rows := nodeRows) (by decide) hq hm,
      encNice_pars (node_par hs (by decide) hq) (by decide) h⟩
  · rename_i ht
    rw [if_neg ht] at h ⊢
    split at hq
    · rename_i ht
      rw [if_pos ht] at h ⊢
      exact ⟨_, carried_settled (by decide) fun n v hm => agree_num (rows := circRows) (by decide) hq hm,
        encNice_pars (circ_par (by decide) hq) (by decide) h⟩
    · rename_i ht
      rw [if_neg ht] at h ⊢
      split at hq
      · rename_i ht
        rw [if_pos ht] at h ⊢
        exact ⟨_, carried_settled (by decide) fun n v hm => agree_num (rows := modRows) (by decide) hq hm,
          encNice_pars (mod_par hs (by decide) hq) (by decide) h⟩
      · rename_i ht
        rw [if_neg ht] at h ⊢
        cases hq with
        | nil =>
          cases h
          exact ⟨[], ⟨.nil, by simp [lastOf]⟩, .nil⟩
        | cons a b f v qs h1 h2 =>
          cases h1 with
          | named _ _ _ _ hm _ => simp at hm
          | given _ _ _ _ _ _ hm _ _ => simp at hm

theorem show_sent {t : Nat} {a b' : List Str} {e : Ent} {qs : Sets} {i : Nat} {perm : Bool} {b : Bytes}
    (ha : EntPhrase a t e) (hq : ParsPhrase (showSyntax t) b' qs) (hs : [] ∉ a) (hs' : [] ∉ b')
    (h : encode 20 (t + 16 * i + if perm then 128 else 0) t e ((readRows t).getD []) qs = .ok b) :
    ∃ ps, Settled qs ps ∧ ShowB perm i t e ps b := by
  unfold encode at h
  split at h
  · rename_i d p hd hp
    cases h
    obtain ⟨ps, h1, h2⟩ := read_pars hs' hq hp
    exact ⟨ps, h1, d, p, encEnt_phrase hs ha hd, h2, rfl⟩
  · cases h

theorem quals_phrase {t : Nat} {b rest : List Str} {qs : Sets} (hq : ParsPhrase (showSyntax t) b qs)
    (hne : b ++ rest ≠ []) (hr : rest = [] ∨ (∃ rows, readRows t = some rows) ∧
      ∃ tok w i, rest = [tok] ∧ (w, i) ∈ kinds ∧ Abbr tok w) (hrows : ∃ rows, readRows t = some rows) :
    quals t (b ++ rest) = .ok (qs, rest) := by
  unfold quals
  rw [if_neg hne]
  obtain ⟨rows, hrr⟩ := hrows
  rw [hrr]
  simp only
  rw [parse_phrases true (readtree_is hrr) hq, List.nil_append]
  rcases hr with rfl | ⟨-, tok, w, i, rfl, hw, ha⟩
  · rw [parseargs]; simp
  · rw [parseargs, info_no_qual hrr hw ha]; simp

theorem syntax_ne {t : Nat} {words : List Str} {l : Leaf} (h : (words, l) ∈ showSyntax t) : words ≠ [] := by
  have key : ∀ p ∈ nodeSyntax ++ circSyntax ++ modSyntax, p.1 ≠ [] := by decide
  have hsub : (words, l) ∈ nodeSyntax ++ circSyntax ++ modSyntax := by
    unfold showSyntax at h
    split at h
    · simp [h]
    · split at h
      · simp [h]
      · split at h
        · simp [h]
        · cases h
  exact key _ hsub

theorem phrase_nil {t : Nat} {a : List Str} {qs : Sets} (hq : ParsPhrase (showSyntax t) a qs) (ha : a = []) : qs = [] := by
  cases hq with
  | nil => rfl
  | cons x y f v qs h1 h2 =>
    exfalso
    have hx := (List.append_eq_nil_iff.1 ha).1
    cases h1 with
    | named _ words n _ hm hw =>
      subst hx
      cases words with
      | nil => exact syntax_ne hm rfl
      | cons _ _ => exact hw.elim
    | given toks words k _ tok _ hm hw hr => simp at hx

theorem rows_of_phrase {t : Nat} {b : List Str} {qs : Sets} (hq : ParsPhrase (showSyntax t) b qs) (hb : b ≠ []) :
    ∃ rows, readRows t = some rows := by
  unfold showSyntax at hq
  unfold readRows
  split
  · exact ⟨_, rfl⟩
  · rw [if_neg (by assumption)] at hq
    split
    · exact ⟨_, rfl⟩
    · rw [if_neg (by assumption)] at hq
      split
      · exact ⟨_, rfl⟩
      · rw [if_neg (by assumption)] at hq
        exfalso
        cases hq with
        | nil => exact hb rfl
        | cons a b f v qs h1 h2 =>
          cases h1 with
          | named _ _ _ _ hm _ => simp at hm
          | given _ _ _ _ _ _ hm _ _ => simp at hm

theorem show_parts {toks : List Str} {t i : Nat} {e : Ent} {qs : Sets} (h : ShowPhrase toks t e qs i) :
    ∃ a c rest rest2, toks = a ++ rest ∧ EntPhrase a t e ∧ ParsPhrase (showSyntax t) c qs ∧ (∀ x ∈ c, x ∈ rest) ∧
      quals t (firstInfo rest).2 = .ok (qs, rest2) ∧ lastInfo (firstInfo rest).1 rest2 = .ok i := by
  cases h with
  | plain a c t e qs ha hq =>
    refine ⟨a, c, c, [], rfl, ha, hq, fun _ h => h, ?_⟩
    cases c with
    | nil =>
      have := phrase_nil hq rfl
      subst this
      exact ⟨by simp [firstInfo, quals], by simp [firstInfo, lastInfo]⟩
    | cons x r =>
      have hx := phrase_info hq rfl
      have hr := rows_of_phrase hq (by simp)
      have hq' := quals_phrase (rest := []) hq (by simp) (.inl rfl) hr
      rw [List.append_nil] at hq'
      simp only [firstInfo, hx]
      exact ⟨hq', by simp [lastInfo]⟩
  | before a tok w i c t e qs ha hw hab hq =>
    refine ⟨a, c, tok :: c, [], rfl, ha, hq, fun _ h => List.mem_cons_of_mem _ h, ?_⟩
    have hi := info_get.2 ⟨w, hw, hab⟩
    simp only [firstInfo, hi]
    refine ⟨?_, by simp [lastInfo]⟩
    by_cases hc : c = []
    · subst hc
      have := phrase_nil hq rfl
      subst this
      simp [quals]
    · have hr := rows_of_phrase hq hc
      have hq' := quals_phrase (rest := []) hq (by simpa using hc) (.inl rfl) hr
      rw [List.append_nil] at hq'
      exact hq'
  | after a c tok w i t e qs ha hw hab hq =>
    have hi := info_get.2 ⟨w, hw, hab⟩
    cases c with
    | nil =>
      refine ⟨a, [], [tok], [], rfl, ha, hq, by simp, ?_⟩
      have := phrase_nil hq rfl
      subst this
      simp only [firstInfo, hi]
      exact ⟨by simp [quals], by simp [lastInfo]⟩
    | cons x r =>
      refine ⟨a, x :: r, (x :: r) ++ [tok], [tok], rfl, ha, hq, fun _ h => List.mem_append_left _ h, ?_⟩
      have hx := phrase_info hq rfl
      have hr := rows_of_phrase hq (by simp)
      have hq' := quals_phrase (rest := [tok]) hq (by simp) (.inr ⟨hr, tok, w, i, rfl, hw, hab⟩) hr
      simp only [List.cons_append] at hq' ⊢
      simp only [firstInfo, hx]
      exact ⟨hq', by simp [lastInfo, hi]⟩

theorem class_le {a : List Str} {t : Nat} {e : Ent} (h : EntPhrase a t e) : t ≤ 5 := by
  cases h with
  | executor => omega
  | several a b w c v t hw hv ha hb =>
    have : ∀ p ∈ plurals, p.2 ≤ 5 := by decide
    exact this _ hv
  | one a s w t e hw ha ho =>
    have : ∀ p ∈ singles, p.2 ≤ 5 := by decide
    exact this _ hw

theorem phrase_le {toks : List Str} {t i : Nat} {e : Ent} {qs : Sets} (h : ShowPhrase toks t e qs i) : t ≤ 5 ∧ i ≤ 4 := by
  have key : ∀ p ∈ kinds, p.2 ≤ 4 := by decide
  cases h with
  | plain a b t e qs h => exact ⟨class_le h, by omega⟩
  | before a tok w i b t e qs h hw => exact ⟨class_le h, key _ hw⟩
  | after a b tok w i t e qs h hw => exact ⟨class_le h, key _ hw⟩

theorem loop_class {a : List Str} {t : Nat} {e : Ent} (h : LoopEnt a t e) : t = 0 ∨ t = 1 ∨ t = 3 := by
  cases h with | one a s w t e hw hu ha ho => exact hu

theorem loop_pars {t : Nat} (ht : t = 0 ∨ t = 1 ∨ t = 3) {a : List Str} {qs : Sets}
    (hq : ParsPhrase (loopSyntax t) a qs) {p : Bytes} (h : encNice (loopindex t).1 qs = some p) :
    ∃ ps, Settled qs ps ∧ Pars (LoopB t) ps p := by
  rcases ht with rfl | rfl | rfl
  · exact ⟨_, carried_settled (rows := loopRows) (by decide)
        fun n v hm => agree_num (rows := loopRows) (by decide) hq hm,
      encNice_pars (loop_par (by decide) hq) (by decide) h⟩
  · exact ⟨_, carried_settled (rows := loopRows) (by decide)
        fun n v hm => agree_num (rows := loopRows) (by decide) hq hm,
      encNice_pars (loop_par (by decide) hq) (by decide) h⟩
  · exact ⟨_, carried_settled (rows := loopCircRows) (by decide)
        fun n v hm => agree_num (rows := loopCircRows) (by decide) hq hm,
      encNice_pars (loopCirc_par (by decide) hq) (by decide) h⟩

theorem loop_sent {t : Nat} {a c : List Str} {e : Ent} {qs : Sets} {b : Bytes} (ha : LoopEnt a t e)
    (hq : ParsPhrase (loopSyntax t) c qs) (hs : [] ∉ a) (h : encode 18 t t e (loopindex t).1 qs = .ok b) :
    ∃ ps, Settled qs ps ∧ LoopMsgB t e ps b := by
  unfold encode at h
  split at h
  · rename_i d p hd hp
    cases h
    obtain ⟨ps, h1, h2⟩ := loop_pars (loop_class ha) hq hp
    refine ⟨ps, h1, d, p, ?_, h2, rfl⟩
    cases ha with
    | one a s w t e hw hu ha ho => exact encEnt_one (by rintro rfl; simp at hs) ho hd
  · cases h

end Verif.Ncp
