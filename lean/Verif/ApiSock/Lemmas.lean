import Verif.ApiSock.Spec

/-!
# Lemmas on lines and dictionaries
-/

namespace Verif.ApiSock

theorem capitals_iff {s n : Str} : InCapitals s n ↔ upper s = n := by
  unfold InCapitals upper
  induction s generalizing n with
  | nil =>
    constructor
    · intro h; cases h; rfl
    · rintro rfl; exact .nil
  | cons a s ih =>
    constructor
    · intro h
      cases h with
      | cons h1 h2 =>
        rw [List.map_cons, ih.1 h2]
        by_cases hc : 97 ≤ a ∧ a ≤ 122
        · rw [if_pos hc] at h1 ⊢; rw [h1]; congr 1; omega
        · rw [if_neg hc] at h1 ⊢; rw [h1]
    · rintro rfl
      refine .cons ?_ (ih.2 rfl)
      by_cases hc : 97 ≤ a ∧ a ≤ 122
      · rw [if_pos hc]; show (if _ then _ else _) = _; rw [if_pos hc]; omega
      · rw [if_neg hc]; show (if _ then _ else _) = _; rw [if_neg hc]

theorem only_default (v : Server) : v.default = onlyNode v := by
  unfold Server.default onlyNode
  cases v.nodes with
  | nil => rfl
  | cons a l => cases l <;> simp

theorem lines_append (acc w s : Bytes) (h : 10 ∉ w) : lines acc (w ++ s) = lines (acc ++ w) s := by
  induction w generalizing acc with
  | nil => simp
  | cons b w ih =>
    have hb : b ≠ 10 := fun e => h (by simp [e])
    simp only [List.cons_append, lines, if_neg hb]
    rw [ih (acc ++ [b]) fun hm => h (by simp [hm])]
    simp

theorem readline_lines (p : Bytes) (cs : List Bytes) (hc : ∀ c ∈ cs, c ≠ []) :
    match readline p cs with
    | none => lines [] (p ++ cs.flatten) = []
    | some (l, p', cs') => lines [] (p ++ cs.flatten) = l :: lines [] (p' ++ cs'.flatten) ∧ ∀ c ∈ cs', c ≠ [] := by
  have key : ∀ (p : Bytes) (r : Bytes), 10 ∈ p →
      lines [] (p ++ r) = p.takeWhile (· ≠ 10) :: lines [] ((p.dropWhile (· ≠ 10)).drop 1 ++ r) := by
    intro p r hp
    have hs := List.takeWhile_append_dropWhile (p := fun x : UInt8 => decide (x ≠ 10)) (l := p)
    have hw : 10 ∉ p.takeWhile (· ≠ 10) := by
      intro hm
      have := List.mem_takeWhile_imp hm
      simp at this
    cases hd : p.dropWhile (· ≠ 10) with
    | nil =>
      rw [hd, List.append_nil] at hs
      rw [hs] at hw; exact absurd hp hw
    | cons b d =>
      have hb : b = 10 := by
        have := List.head_dropWhile_not (p := fun x : UInt8 => decide (x ≠ 10)) (l := p) (by rw [hd]; simp)
        simp only [hd, List.head_cons] at this
        simpa using this
      rw [hd] at hs
      conv => lhs; rw [← hs]
      rw [List.append_assoc, lines_append _ _ _ hw, hb]
      simp [lines]
  induction cs generalizing p with
  | nil =>
    unfold readline
    by_cases h10 : 10 ∈ p
    · rw [if_pos h10]
      exact ⟨key p _ h10, by simp⟩
    · rw [if_neg h10]
      simp only [List.flatten_nil]
      rw [lines_append _ _ _ h10]
      rfl
  | cons c cs ih =>
    unfold readline
    by_cases h10 : 10 ∈ p
    · rw [if_pos h10]
      exact ⟨key p _ h10, hc⟩
    · rw [if_neg h10]
      simp only [hc c (by simp), if_false]
      have := ih (p ++ c) fun d hd => hc d (by simp [hd])
      simpa [List.append_assoc] using this

/-! ## Dictionaries -/

theorem get_without (d : Dict) (k j : Str) : get (without d k) j = if j = k then none else get d j := by
  unfold get without
  by_cases h : j = k
  · subst h
    rw [if_pos rfl, List.find?_filter]
    simp
  · rw [if_neg h, List.find?_filter]
    congr 2
    funext a
    by_cases e : a.1 = j
    · simp [e, h]
    · simp [e]

theorem get_put (d : Dict) (k j : Str) (v : Val) : get (put d k v) j = if j = k then some v else get d j := by
  by_cases h : j = k
  · subst h; simp [put, get]
  · have := get_without d k j
    rw [if_neg h] at this
    rw [if_neg h, ← this]
    unfold get put
    rw [List.find?_cons_of_neg (by simpa using fun e => h e.symm)]

theorem without_nil (d : Dict) : without d kTag = [] ↔ Bare d := by
  unfold without Bare
  rw [List.filter_eq_nil_iff]
  simp

theorem pop_tag (d : Dict) : pop d kTag = tagOf d := by
  unfold pop tagOf
  cases h : get d kTag with
  | none => rfl
  | some v => cases v <;> rfl

/-- The entries left for the subsystem. -/
def argsOf (d : Dict) : Dict := without (without (without (without d kTag) kSystem) kApi) kType

theorem get_argsOf (d : Dict) (k : Str) :
    get (argsOf d) k = if k = kTag ∨ k = kSystem ∨ k = kApi ∨ k = kType then none else get d k := by
  simp only [argsOf, get_without]
  by_cases h1 : k = kType
  · simp [h1]
  · by_cases h2 : k = kApi
    · simp [h2]
    · by_cases h3 : k = kSystem
      · simp [h3]
      · by_cases h4 : k = kTag
        · simp [h4]
        · simp [h1, h2, h3, h4]

theorem turn_full (v : Server) (prev : Option (Option Dict)) (d : Dict) (a : Ans) (h : ¬ Bare d) :
    turn v prev (.dict d) a =
      match choose v ((systemOf v d).getD .null) ((get d kApi).getD .null) (typeOf d) (tagOf d) (argsOf d) a with
      | .raises o => .raises o
      | .ret o r => .ret o (tagged (tagOf d) r) := by
  have g1 : get (without d kTag) kSystem = get d kSystem := by rw [get_without, if_neg (by decide)]
  have g2 : get (without (without d kTag) kSystem) kApi = get d kApi := by
    rw [get_without, if_neg (by decide), get_without, if_neg (by decide)]
  have g3 : get (without (without (without d kTag) kSystem) kApi) kType = get d kType := by
    rw [get_without, if_neg (by decide), get_without, if_neg (by decide), get_without, if_neg (by decide)]
  have g4 : (get d kSystem).getD (v.default.getD .null) = (systemOf v d).getD .null := by
    unfold systemOf
    rw [only_default]
    cases get d kSystem <;> rfl
  have hw : without d kTag ≠ [] := fun e => h ((without_nil d).mp e)
  simp only [turn, dictReq, if_neg hw, fullReq, g1, g2, g3, g4, pop_tag]
  rfl

theorem turn_bare (v : Server) (prev : Option (Option Dict)) (d : Dict) (a : Ans) (h : Bare d) :
    turn v prev (.dict d) a = .ret [] (tagged (tagOf d) (some v.about)) := by
  simp only [turn, dictReq, if_pos ((without_nil d).mpr h), pop_tag]

theorem not_bare {d : Dict} {k : Str} {x : Val} (h : get d k = some x) (hk : k ≠ kTag) : ¬ Bare d := by
  intro hb
  unfold get at h
  cases hf : d.find? (·.1 = k) with
  | none => rw [hf] at h; cases h
  | some e =>
    have h1 := List.mem_of_find?_eq_some hf
    have h2 := List.find?_some hf
    simp only [decide_eq_true_eq] at h2
    exact hk (h2 ▸ hb e h1)

/-- A tagged reply: not empty if the reply was not, with the tag, and everything else the same. -/
theorem tagged_some (t : Option Val) (d : Dict) (h : d ≠ []) :
    ∃ y, tagged t (some d) = some y ∧ sends (some y) = [.reply y] ∧ (∀ k, k ≠ kTag → get y k = get d k) ∧
      get y kTag = t.or (get d kTag) := by
  cases d with
  | nil => exact absurd rfl h
  | cons x d =>
    cases t with
    | none => exact ⟨_, rfl, rfl, fun _ _ => rfl, rfl⟩
    | some t =>
      refine ⟨_, rfl, rfl, ?_, ?_⟩
      · intro k hk; rw [get_put, if_neg hk]
      · rw [get_put, if_pos rfl]; rfl

theorem named_some (s p : Val) (d : Dict) (h : d ≠ []) :
    ∃ y, named s p (some d) = some y ∧ y ≠ [] ∧ get y kSystem = some s ∧ get y kApi = some p ∧
      ∀ k, k ≠ kSystem → k ≠ kApi → get y k = get d k := by
  cases d with
  | nil => exact absurd rfl h
  | cons x d =>
    refine ⟨_, rfl, by simp [put], ?_, ?_, ?_⟩
    · rw [get_put, if_neg (by decide), get_put, if_pos rfl]
    · rw [get_put, if_pos rfl]
    · intro k k1 k2; rw [get_put, if_neg k2, get_put, if_neg k1]

theorem choose_for (v : Server) (d : Dict) (n : Str) (apis : List Str) (api type : Val) (tag : Option Val) (args : Dict)
    (a : Ans) (h : For v d n apis) (ht : api.truth = true) :
    choose v ((systemOf v d).getD .null) api type tag args a
      = callNode v n apis ((systemOf v d).getD .null) api type tag args a := by
  obtain ⟨s, h1, h2, h3, h4⟩ := h
  rw [capitals_iff] at h3
  subst h3
  simp only [h1, Option.getD_some, choose, if_neg h2, ht, Bool.not_true, Bool.false_eq_true, if_false, h4]

end Verif.ApiSock
