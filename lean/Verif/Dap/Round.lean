import Verif.Dap.Lemmas

/-!
Decoding an encoded DAP message, row by row.
-/

namespace Verif.Dap

open Verif.Fields

theorem given_names (c : PktClass) (p : Attrs) (r : Row) {n : String}
    (h : n ∈ (given c p r).map (·.1)) : n ∈ r.core.names := by
  unfold given at h
  cases hg : r.guard with
  | always => rw [hg] at h; simpa [sent_names] using h
  | orElse d => rw [hg] at h; simp only [sent_names] at h; exact h
  | when f =>
    rw [hg] at h
    simp only at h
    split at h
    · rwa [sent_names] at h
    · simp at h
  | whenElse f d =>
    rw [hg] at h
    simp only at h
    split at h
    · rwa [sent_names] at h
    · unfold standing at h
      split at h
      · rename_i x hx
        rwa [read_names (ws := x.1) (rest := x.2) hx] at h
      · simp at h

/-- `acc'` is `acc` with the assignments `ws` made. -/
def Updated (c : PktClass) (ws : List (String × Val)) (acc acc' : Attrs) : Prop :=
  ∀ n, c.get acc' n = match c.fixed n with
    | some w => some w.1
    | none => (latest ws n).or (c.get acc n)

theorem updated_nil (c : PktClass) (acc : Attrs) : Updated c [] acc acc := by
  intro n
  unfold PktClass.get
  cases c.fixed n with
  | some w => rfl
  | none => simp [latest_nil]

theorem updated_trans {c : PktClass} {a b : List (String × Val)} {x y z : Attrs}
    (h1 : Updated c a x y) (h2 : Updated c b y z) : Updated c (a ++ b) x z := by
  intro n
  rw [h2 n]
  have := h1 n
  cases hf : c.fixed n with
  | some w => rfl
  | none =>
    rw [hf] at this
    simp only at this ⊢
    rw [this, latest_append, Option.or_assoc]

theorem decCore_ok {c : PktClass} {buf rest : Bytes} {k : Core} {ws : List (String × Val)} {acc : Attrs}
    (h : readCore buf k = .ok (ws, rest)) (hp : Permitted c ws) :
    ∃ acc', decCore c buf acc k = .ok (acc', rest) ∧ Updated c ws acc acc' := by
  obtain ⟨a, h1, h2⟩ := setAll_ok (acc := acc) hp
  exact ⟨a, by simp [decCore, h, h1], h2⟩

theorem core_step {c : PktClass} {p acc : Attrs} {k : Core} {b rest : Bytes}
    (hk : k.fixedOk c = true) (hr : k.isPayload = true → rest = []) (h : encCore c p k = .ok b) :
    ∃ acc', decCore c (b ++ rest) acc k = .ok (acc', rest) ∧ Updated c (sent c p k) acc acc' :=
  decCore_ok (read_enc hr h) (sent_permitted hk h)

theorem solid_not_payload {k : Core} (h : k.solid = true) : k.isPayload = false := by
  cases k with
  | fld n f => cases f <;> first | rfl | simp [Core.solid] at h
  | bm es => rfl
  | bmex m es => rfl

/-- One row. -/
theorem row_step {c : PktClass} {p acc : Attrs} {flags : List String} {r : Row} {rs : List Row}
    {br bs buf : Bytes} {done : Bool}
    (hok : rowsOk c flags (r :: rs) = true) (he : encRow c p r = .ok br)
    (hf : ∀ f ∈ flags, truthy (c.get acc f) = truthy (c.get p f))
    (hrs : rs = [] → bs = [])
    (hd : done = true → br ++ bs = []) (hb : done = false → buf = br ++ bs) :
    ∃ acc' buf', decRow c done (if done then dapDefault else buf) acc r = .ok (acc', buf') ∧
      Updated c (given c p r) acc acc' ∧ (done = false → buf' = bs) := by
  obtain ⟨g, k⟩ := r
  simp only [rowsOk, Bool.and_eq_true] at hok
  obtain ⟨⟨hk, hg⟩, _⟩ := hok
  have active : k.solid = true → encCore c p k = .ok br →
      ∃ acc' buf', decCore c (if done then dapDefault else buf) acc k = .ok (acc', buf') ∧
        Updated c (sent c p k) acc acc' ∧ (done = false → buf' = bs) := by
    intro hs he
    have hne := enc_solid hs he
    cases done with
    | true => have := hd rfl; rw [List.append_eq_nil_iff] at this; exact absurd this.1 hne
    | false =>
      obtain ⟨a, h1, h2⟩ := core_step (acc := acc) (rest := bs) hk
        (fun h => by rw [solid_not_payload hs] at h; cases h) he
      refine ⟨a, bs, ?_, h2, fun _ => rfl⟩
      rw [hb rfl]; simpa using h1
  have skipped : br = [] → (done = false → (if done then dapDefault else buf) = bs) := by
    intro h hdn
    subst h
    rw [hdn, hb hdn]; rfl
  cases g with
  | always =>
    simp only at hg
    simp only [encRow] at he
    simpa only [decRow, given] using active hg he
  | when f =>
    simp only [Bool.and_eq_true, List.contains_iff_mem] at hg
    simp only [encRow] at he
    simp only [decRow, given, hf f hg.1]
    by_cases ht : truthy (c.get p f) = true
    · simp only [ht, if_true] at he ⊢
      exact active hg.2 he
    · simp only [Bool.not_eq_true] at ht
      simp only [ht, Bool.false_eq_true, if_false] at he ⊢
      injection he with he
      exact ⟨acc, _, rfl, updated_nil c acc, skipped he.symm⟩
  | whenElse f d =>
    simp only [Bool.and_eq_true, List.contains_iff_mem] at hg
    simp only [encRow] at he
    simp only [decRow, given, hf f hg.1.1.1]
    by_cases ht : truthy (c.get p f) = true
    · simp only [ht, if_true] at he ⊢
      exact active hg.1.1.2 he
    · simp only [Bool.not_eq_true] at ht
      simp only [ht, Bool.false_eq_true, if_false] at he ⊢
      injection he with he
      cases hread : readCore d k with
      | error e => have := hg.1.2; rw [hread] at this; cases this
      | ok x =>
        obtain ⟨ws, rest⟩ := x
        have hp : Permitted c ws := by
          intro w hw x hx
          have h2 := hg.2
          rw [List.all_eq_true] at h2
          have := h2 w.1 (by rw [← read_names hread]; exact List.mem_map_of_mem hw)
          rw [hx] at this; cases this
        obtain ⟨a, h1, h2⟩ := decCore_ok (acc := acc) hread hp
        refine ⟨a, _, ?_, ?_, skipped he.symm⟩
        · simp only [h1]; rfl
        · simpa only [standing, hread] using h2
  | orElse d =>
    simp only [Bool.or_eq_true, Bool.and_eq_true] at hg
    simp only [encRow] at he
    simp only [decRow, given]
    rcases hg with hs | ⟨⟨hpl, hlast⟩, hde⟩
    · cases done with
      | true =>
        have := hd rfl; rw [List.append_eq_nil_iff] at this; exact absurd this.1 (enc_solid hs he)
      | false => simpa using active hs he
    · have hbs : bs = [] := hrs (by simpa using hlast)
      have hde : d = [] := by simpa using hde
      subst hbs hde
      have key : (if done = true then [] else if done = true then dapDefault else buf) = br ++ [] := by
        cases done with
        | true => simp only [if_true]; exact (hd rfl).symm
        | false => simp only [Bool.false_eq_true, if_false]; exact hb rfl
      obtain ⟨a, h1, h2⟩ := core_step (acc := acc) (rest := []) hk (fun _ => rfl) he
      refine ⟨a, [], ?_, h2, fun _ => rfl⟩
      rw [key]; exact h1

/-- The flags known after a row. -/
theorem trust_step {c : PktClass} {p acc acc' : Attrs} {flags : List String} {r : Row} {br : Bytes}
    (he : encRow c p r = .ok br) (hu : Updated c (given c p r) acc acc')
    (hf : ∀ f ∈ flags, truthy (c.get acc f) = truthy (c.get p f)) :
    ∀ f ∈ r.trust flags, truthy (c.get acc' f) = truthy (c.get p f) := by
  intro f hm
  unfold Row.trust at hm
  have hfix : ∀ w, c.fixed f = some w → ∀ q, c.get q f = some w.1 := by
    intro w hw q; unfold PktClass.get; rw [hw]
  cases hfx : c.fixed f with
  | some w => rw [hfix w hfx, hfix w hfx]
  | none =>
    have h1 := hu f
    rw [hfx] at h1
    simp only at h1
    rcases List.mem_append.1 hm with hm | hm
    · rw [List.mem_filter] at hm
      have hn : f ∉ (given c p r).map (·.1) := by
        intro hc
        have := given_names c p r hc
        simp [this] at hm
      rw [h1, latest_none hn, Option.none_or]
      exact hf f hm.1
    · split at hm
      · rename_i hc
        have hgv : given c p r = sent c p r.core := by unfold given; rw [hc.1]
        have hec : encCore c p r.core = .ok br := by
          unfold encRow at he; rw [hc.1] at he; exact he
        obtain ⟨v, hv⟩ := latest_mem (ws := sent c p r.core) (n := f) (by rw [sent_names]; exact hm)
        rw [h1, hgv, hv, Option.some_or]
        have := (sent_apart hc.2 hec _ (latest_some hv)).2
        simp only at this
        cases hg : c.get p f with
        | none => rw [hg] at this; simp only [Option.getD_none] at this; rw [← this]; rfl
        | some x => rw [hg] at this; simp only [Option.getD_some] at this; rw [this]
      · simp at hm

/-- The rows. -/
theorem rows_step {c : PktClass} {p : Attrs} : ∀ {rows : List Row} {flags : List String} {b buf : Bytes}
    {done : Bool} {acc : Attrs}, rowsOk c flags rows = true → encRows c p rows = .ok b →
    (∀ f ∈ flags, truthy (c.get acc f) = truthy (c.get p f)) →
    (done = true → b = []) → (done = false → buf = b) →
    ∃ q, decRows c rows done buf acc = .ok q ∧ Updated c (rows.flatMap (given c p)) acc q := by
  intro rows
  induction rows with
  | nil => intro flags b buf done acc _ _ _ _ _; exact ⟨acc, rfl, updated_nil c acc⟩
  | cons r rs ih =>
    intro flags b buf done acc hok he hf hd hb
    simp only [encRows] at he
    rw [bind_ok] at he
    obtain ⟨br, h1, he⟩ := he
    rw [bind_ok] at he
    obtain ⟨bs, h2, he⟩ := he
    have he : br ++ bs = b := by injection he
    subst he
    obtain ⟨a, buf', h3, h4, h5⟩ := row_step hok h1 hf
      (by rintro rfl; simp only [encRows] at h2; injection h2 with h2; exact h2.symm) hd hb
    have hok' : rowsOk c (r.trust flags) rs = true := by
      simp only [rowsOk, Bool.and_eq_true] at hok; exact hok.2
    obtain ⟨q, h6, h7⟩ := ih (b := bs) (buf := buf') (done := done || buf'.isEmpty) (acc := a) hok' h2
      (trust_step h1 h4 hf)
      (by
        intro h
        rw [Bool.or_eq_true] at h
        rcases h with h | h
        · have := hd h; rw [List.append_eq_nil_iff] at this; exact this.2
        · cases hdn : done with
          | true => have := hd hdn; rw [List.append_eq_nil_iff] at this; exact this.2
          | false => rw [← h5 hdn]; simpa using h)
      (by
        intro h
        rw [Bool.or_eq_false_iff] at h
        exact h5 h.1)
    refine ⟨q, by simp [decRows, h3, h6], ?_⟩
    rw [List.flatMap_cons]
    exact updated_trans h4 h7

/-- A message is read back. -/
theorem message_step {L : Layout} {p : Attrs} {b : Bytes} (hok : L.ok = true) (h : encode L p = .ok b) :
    ∃ q, decRows L.cls L.rows false b (fun _ => none) = .ok q ∧
      Shows L.cls (L.rows.flatMap (given L.cls p)) q := by
  obtain ⟨q, h1, h2⟩ := rows_step (flags := []) (b := b) (buf := b) (done := false) (acc := fun _ => none)
    hok h (by simp) (by simp) (fun _ => rfl)
  refine ⟨q, h1, fun n => ?_⟩
  rw [h2 n]
  cases hf : L.cls.fixed n with
  | some w => rfl
  | none => simp [PktClass.get, hf]

end Verif.Dap
