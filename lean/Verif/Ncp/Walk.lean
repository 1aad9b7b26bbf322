import Verif.Ncp.Lemmas

/-!
# Parameters: from trees of keywords to phrases
-/

namespace Verif.Ncp

open Verif.Nml (Bytes Ent Value PVal NameB NodeB AreaB Pars LoopPar CircPar NodeQual CircQual ModQual)

/-- Tokens that lead to a leaf. -/
inductive Walk : I3 Tree → List Str → Leaf → Prop
  | leaf (d tok l) : I3.get d tok = some (.leaf l) → Walk d [tok] l
  | dict (d tok d2 toks l) : I3.get d tok = some (.dict d2) → Walk d2 toks l → Walk d (tok :: toks) l

theorem walk_cons {d : I3 Tree} {tok : Str} {toks : List Str} {l : Leaf} :
    Walk d (tok :: toks) l ↔ (toks = [] ∧ I3.get d tok = some (.leaf l)) ∨
      ∃ d2, I3.get d tok = some (.dict d2) ∧ Walk d2 toks l := by
  constructor
  · intro h
    cases h with
    | leaf _ _ _ h => exact .inl ⟨rfl, h⟩
    | dict _ _ d2 _ _ h1 h2 => exact .inr ⟨d2, h1, h2⟩
  · rintro (⟨rfl, h⟩ | ⟨d2, h1, h2⟩)
    · exact .leaf _ _ _ h
    · exact .dict _ _ d2 _ _ h1 h2

theorem walk_ne {d : I3 Tree} {toks : List Str} {l : Leaf} (h : Walk d toks l) : toks ≠ [] := by
  cases h <;> simp

/-- A tree leads to what a syntax says. -/
def Tree.Is (d : I3 Tree) (syn : Syntax) : Prop :=
  ∀ toks l, Walk d toks l ↔ ∃ words, (words, l) ∈ syn ∧ Words toks words

/-- Trees are dictionaries of the same by their first words. -/
theorem walk_ofList {l : List (Str × Tree)} (hl : l.Pairwise fun p q => ¬ Alike p.1 q.1) {toks : List Str} {lf : Leaf} :
    Walk (I3.ofList l) toks lf ↔ ∃ tok r name v, toks = tok :: r ∧ (name, v) ∈ l ∧ Abbr tok name ∧
      ((v = .leaf lf ∧ r = []) ∨ ∃ d2, v = .dict d2 ∧ Walk d2 r lf) := by
  cases toks with
  | nil => constructor
           · intro h; exact absurd rfl (walk_ne h)
           · rintro ⟨_, _, _, _, h, _⟩; cases h
  | cons tok r =>
    rw [walk_cons]
    simp only [get_ofList hl]
    constructor
    · rintro (⟨rfl, name, hm, ha⟩ | ⟨d2, ⟨name, hm, ha⟩, hw⟩)
      · exact ⟨tok, [], name, _, rfl, hm, ha, .inl ⟨rfl, rfl⟩⟩
      · exact ⟨tok, r, name, _, rfl, hm, ha, .inr ⟨d2, rfl, hw⟩⟩
    · rintro ⟨tok', r', name, v, he, hm, ha, h⟩
      cases he
      rcases h with ⟨rfl, rfl⟩ | ⟨d2, rfl, hw⟩
      · exact .inl ⟨rfl, name, hm, ha⟩
      · exact .inr ⟨d2, ⟨name, hm, ha⟩, hw⟩

/-- The leaves of nested tables. -/
def leaves : List (Str × (Leaf ⊕ Syntax)) → Syntax
  | [] => []
  | (w, .inl l) :: r => ([w], l) :: leaves r
  | (w, .inr s) :: r => s.map (fun p => (w :: p.1, p.2)) ++ leaves r

theorem leaves_mem {l : List (Str × (Leaf ⊕ Syntax))} {words : List Str} {lf : Leaf} :
    (words, lf) ∈ leaves l ↔ (∃ w, (w, .inl lf) ∈ l ∧ words = [w]) ∨
      ∃ w s ws, (w, .inr s) ∈ l ∧ (ws, lf) ∈ s ∧ words = w :: ws := by
  induction l with
  | nil => simp [leaves]
  | cons p l ih =>
    obtain ⟨w, x⟩ := p
    cases x with
    | inl x =>
      simp only [leaves, List.mem_cons, ih, Prod.mk.injEq, Sum.inl.injEq, reduceCtorEq, and_false, false_or]
      constructor
      · rintro (⟨rfl, rfl⟩ | ⟨w', h, rfl⟩ | h)
        · exact .inl ⟨w, .inl ⟨rfl, rfl⟩, rfl⟩
        · exact .inl ⟨w', .inr h, rfl⟩
        · exact .inr h
      · rintro (⟨w', ⟨rfl, rfl⟩ | h, rfl⟩ | h)
        · exact .inl ⟨rfl, rfl⟩
        · exact .inr (.inl ⟨w', h, rfl⟩)
        · exact .inr (.inr h)
    | inr x =>
      simp only [leaves, List.mem_append, List.mem_map, List.mem_cons, ih, Prod.mk.injEq, Sum.inr.injEq, reduceCtorEq,
        and_false, false_or]
      constructor
      · rintro (⟨⟨ws, y⟩, h, rfl, rfl⟩ | h | ⟨w', s, ws, h, h2, rfl⟩)
        · exact .inr ⟨w, x, ws, .inl ⟨rfl, rfl⟩, h, rfl⟩
        · exact .inl h
        · exact .inr ⟨w', s, ws, .inr h, h2, rfl⟩
      · rintro (h | ⟨w', s, ws, ⟨rfl, rfl⟩ | h, h2, rfl⟩)
        · exact .inr (.inl h)
        · exact .inl ⟨(ws, lf), h2, rfl, rfl⟩
        · exact .inr (.inr ⟨w', s, ws, h, h2, rfl⟩)

/-- One level: if the dictionaries below are right, so is the one above. -/
theorem tree_level (l : List (Str × Tree)) (src : List (Str × (Leaf ⊕ Syntax)))
    (hl : l.Pairwise fun p q => ¬ Alike p.1 q.1)
    (h1 : ∀ w lf, (w, Tree.leaf lf) ∈ l ↔ (w, Sum.inl lf) ∈ src)
    (h2 : ∀ w d, (w, Tree.dict d) ∈ l → ∃ s, (w, Sum.inr s) ∈ src ∧ Tree.Is d s)
    (h3 : ∀ w s, (w, Sum.inr s) ∈ src → ∃ d, (w, Tree.dict d) ∈ l ∧ Tree.Is d s) :
    Tree.Is (I3.ofList l) (leaves src) := by
  intro toks lf
  rw [walk_ofList hl]
  constructor
  · rintro ⟨tok, r, name, v, rfl, hm, ha, ⟨rfl, rfl⟩ | ⟨d2, rfl, hw⟩⟩
    · exact ⟨[name], leaves_mem.2 (.inl ⟨name, (h1 _ _).1 hm, rfl⟩), ha, trivial⟩
    · obtain ⟨s, hs, hi⟩ := h2 _ _ hm
      obtain ⟨ws, hws, hw⟩ := (hi r lf).1 hw
      exact ⟨name :: ws, leaves_mem.2 (.inr ⟨name, s, ws, hs, hws, rfl⟩), ha, hw⟩
  · rintro ⟨words, hm, hw⟩
    rcases leaves_mem.1 hm with ⟨w, hw1, rfl⟩ | ⟨w, s, ws, hs, hws, rfl⟩
    · cases toks with
      | nil => exact hw.elim
      | cons tok r =>
        cases r with
        | cons _ _ => exact hw.2.elim
        | nil => exact ⟨tok, [], w, _, rfl, (h1 _ _).2 hw1, hw.1, .inl ⟨rfl, rfl⟩⟩
    · cases toks with
      | nil => exact hw.elim
      | cons tok r =>
        obtain ⟨d, hd, hi⟩ := h3 _ _ hs
        exact ⟨tok, r, w, _, rfl, hd, hw.1, .inr ⟨d, rfl, (hi r lf).2 ⟨ws, hws, hw.2⟩⟩⟩

theorem Tree.Is.perm {d : I3 Tree} {s s' : Syntax} (h : Tree.Is d s) (hs : ∀ p, p ∈ s ↔ p ∈ s') : Tree.Is d s' := by
  intro toks l
  rw [h toks l]
  simp only [hs]

theorem walk_get_none {d : I3 Tree} {syn : Syntax} (h : Tree.Is d syn)
    (hd : ∀ tok d2, I3.get d tok = some (.dict d2) → ∃ toks l, Walk d2 toks l) {tok : Str} :
    I3.get d tok = none ↔ ∀ w ws l, (w :: ws, l) ∈ syn → ¬ Abbr tok w := by
  constructor
  · intro hn w ws l hm ha
    have := (h (tok :: ws) l).2 ⟨w :: ws, hm, ha, ?_⟩
    · rcases walk_cons.1 this with ⟨-, h2⟩ | ⟨d2, h2, -⟩ <;> rw [hn] at h2 <;> cases h2
    · clear hm
      induction ws with
      | nil => trivial
      | cons x xs ih => exact ⟨⟨List.prefix_rfl, .inr rfl⟩, ih⟩
  · intro hall
    cases hg : I3.get d tok with
    | none => rfl
    | some t =>
      exfalso
      have : ∃ ws l, Walk d (tok :: ws) l := by
        cases t with
        | leaf l => exact ⟨[], l, .leaf _ _ _ hg⟩
        | dict d2 =>
          obtain ⟨toks, l, hw⟩ := hd _ _ hg
          exact ⟨toks, l, .dict _ _ _ _ _ hg hw⟩
      obtain ⟨ws, l, hw⟩ := this
      obtain ⟨words, hm, hws⟩ := (h _ _).1 hw
      cases words with
      | nil => exact hws
      | cons w r => exact hall w r l hm hws.1

/-! ## Reading parameters -/

/-- What follows a leaf. -/
def cont (part : Bool) (pd : I3 Tree) (l : Leaf) (rest : List Str) (acc : Sets) : Except Err (Sets × List Str) :=
  match l with
  | .value n f => parseargs part pd pd true rest (acc ++ [(f, .simple (.num .c 1 n))])
  | .arg k f =>
    match rest with
    | [] => .error .incomplete
    | v :: rest =>
      match conv k v with
      | .error e => .error e
      | .ok x => parseargs part pd pd true rest (acc ++ [(f, x)])

/-- What the tokens of one parameter lead to. -/
theorem parse_walk (part : Bool) (pd : I3 Tree) {d : I3 Tree} {toks : List Str} {l : Leaf} (h : Walk d toks l)
    (root : Bool) (rest : List Str) (acc : Sets) :
    parseargs part pd d root (toks ++ rest) acc = cont part pd l rest acc := by
  induction h generalizing root with
  | leaf d tok l h =>
    rw [List.cons_append, List.nil_append, parseargs, h]
    cases l <;> rfl
  | dict d tok d2 toks l h1 h2 ih =>
    rw [List.cons_append, parseargs, h1]
    exact ih false

theorem parse_phrase (part : Bool) {pd : I3 Tree} {syn : Syntax} (hp : Tree.Is pd syn) {a : List Str} {f : Fld}
    {v : PVal} (h : ParPhrase syn a f v) (rest : List Str) (acc : Sets) :
    parseargs part pd pd true (a ++ rest) acc = parseargs part pd pd true rest (acc ++ [(f, v)]) := by
  cases h with
  | named toks words n f hm hw => rw [parse_walk part pd ((hp _ _).2 ⟨words, hm, hw⟩), cont]
  | given toks words k f tok v hm hw hr =>
    rw [List.append_assoc, parse_walk part pd ((hp _ _).2 ⟨words, hm, hw⟩)]
    simp only [cont, List.cons_append, List.nil_append, conv_iff.2 hr]

theorem parse_phrases (part : Bool) {pd : I3 Tree} {syn : Syntax} (hp : Tree.Is pd syn) {a : List Str} {qs : Sets}
    (h : ParsPhrase syn a qs) (rest : List Str) (acc : Sets) :
    parseargs part pd pd true (a ++ rest) acc = parseargs part pd pd true rest (acc ++ qs) := by
  induction h generalizing acc with
  | nil => simp
  | cons a b f v qs h1 h2 ih =>
    rw [List.append_assoc, parse_phrase part hp h1, ih]
    simp

/-- Where reading may end: at the end, or in front of a token that begins no parameter. -/
def Stop (part : Bool) (pd : I3 Tree) (rest : List Str) : Prop :=
  rest = [] ∨ part = true ∧ ∃ tok r, rest = tok :: r ∧ I3.get pd tok = none

theorem parse_step (part : Bool) (pd : I3 Tree) (toks : List Str) : ∀ (d : I3 Tree) (root : Bool) (acc : Sets)
    (x : Sets × List Str), (root = true → d = pd) → parseargs part pd d root toks acc = .ok x →
      (root = true ∧ x = (acc, toks) ∧ Stop part pd toks) ∨
      ∃ ws l r, Walk d ws l ∧ toks = ws ++ r ∧ cont part pd l r acc = .ok x := by
  induction toks with
  | nil =>
    intro d root acc x hr h
    rw [parseargs] at h
    split at h
    · rename_i ht
      cases h
      exact .inl ⟨ht, rfl, .inl rfl⟩
    · cases h
  | cons tok rest ih =>
    intro d root acc x hr h
    have hw := h
    rw [parseargs] at h
    cases hg : I3.get d tok with
    | none =>
      rw [hg] at h
      simp only at h
      split at h
      · rename_i ht
        simp only [Bool.and_eq_true] at ht
        cases h
        rw [hr ht.2] at hg
        exact .inl ⟨ht.2, rfl, .inr ⟨ht.1, tok, rest, rfl, hg⟩⟩
      · cases h
    | some t =>
      cases t with
      | leaf l =>
        have hl : Walk d [tok] l := .leaf _ _ _ hg
        refine .inr ⟨[tok], l, rest, hl, rfl, ?_⟩
        rw [← parse_walk part pd hl root rest acc]
        exact hw
      | dict d2 =>
        rw [hg] at h
        rcases ih d2 false acc x (by simp) h with ⟨hf, -⟩ | ⟨ws, l, r, h1, h2, h3⟩
        · cases hf
        · exact .inr ⟨tok :: ws, l, r, .dict _ _ _ _ _ hg h1, by rw [h2]; rfl, h3⟩

/-- What the function takes, it takes apart as phrases. -/
theorem parse_sound (part : Bool) {pd : I3 Tree} {syn : Syntax} (hp : Tree.Is pd syn) :
    ∀ (k : Nat) (toks : List Str) (acc acc' : Sets) (rest : List Str), toks.length ≤ k →
      parseargs part pd pd true toks acc = .ok (acc', rest) →
      ∃ a qs, ParsPhrase syn a qs ∧ toks = a ++ rest ∧ acc' = acc ++ qs ∧ Stop part pd rest := by
  intro k
  induction k with
  | zero =>
    intro toks acc acc' rest hk h
    have : toks = [] := List.eq_nil_of_length_eq_zero (by omega)
    subst this
    rw [parseargs] at h
    simp only [if_true] at h
    cases h
    exact ⟨[], [], .nil, rfl, by simp, .inl rfl⟩
  | succ k ih =>
    intro toks acc acc' rest hk h
    rcases parse_step part pd toks pd true acc _ (fun _ => rfl) h with ⟨-, he, hs⟩ | ⟨ws, l, r, hw, rfl, hc⟩
    · cases he
      exact ⟨[], [], .nil, rfl, by simp, hs⟩
    · have hne : 0 < ws.length := List.length_pos_iff.2 (walk_ne hw)
      obtain ⟨words, hm, hwords⟩ := (hp _ _).1 hw
      unfold cont at hc
      cases l with
      | value n f =>
        simp only at hc
        obtain ⟨a, qs, h1, rfl, rfl, h4⟩ := ih r _ _ _ (by simp at hk; omega) hc
        refine ⟨ws ++ a, (f, _) :: qs, .cons _ _ _ _ _ (.named ws words n f hm hwords) h1, by simp, by simp, h4⟩
      | arg kd f =>
        simp only at hc
        cases r with
        | nil => cases hc
        | cons tok r =>
          simp only at hc
          cases hv : conv kd tok with
          | error e => rw [hv] at hc; cases hc
          | ok v =>
            rw [hv] at hc
            obtain ⟨a, qs, h1, rfl, rfl, h4⟩ := ih r _ _ _ (by simp at hk; omega) hc
            exact ⟨(ws ++ [tok]) ++ a, (f, v) :: qs,
              .cons _ _ _ _ _ (.given ws words kd f tok v hm hwords (conv_iff.1 hv)) h1, by simp, by simp, h4⟩

/-! ## The trees -/

theorem tree_leaf_level (l : Syntax) (d : List (Str × Tree)) (hd : d = l.map fun p => (p.1.headD [], .leaf p.2))
    (h1 : ∀ p ∈ l, p.1.length = 1) (hl : d.Pairwise fun p q => ¬ Alike p.1 q.1) : Tree.Is (I3.ofList d) l := by
  have hs : leaves (l.map fun p => (p.1.headD [], .inl p.2)) = l := by
    clear hd hl
    induction l with
    | nil => rfl
    | cons p l ih =>
      simp only [List.map_cons, leaves]
      rw [ih fun q hq => h1 q (List.mem_cons_of_mem _ hq)]
      obtain ⟨ws, lf⟩ := p
      have := h1 _ List.mem_cons_self
      match ws, this with
      | [w], _ => rfl
  rw [← hs]
  refine tree_level d _ hl ?_ ?_ ?_
  · intro w lf
    subst hd
    simp [List.mem_map, eq_comm]
  · intro w x hm
    subst hd
    simp [List.mem_map] at hm
  · intro w x hm
    simp [List.mem_map] at hm

/-- Subtree of the data of a test. -/
def withSyntax : Syntax :=
  [([k!"zeroes"], .value 0 (.par 152)), ([k!"ones"], .value 1 (.par 152)), ([k!"mixed"], .value 2 (.par 152))]

def withTree : I3 Tree :=
  I3.ofList [(k!"zeroes", .leaf (.value 0 (.par 152))), (k!"ones", .leaf (.value 1 (.par 152))),
    (k!"mixed", .leaf (.value 2 (.par 152)))]

theorem withTree_is : Tree.Is withTree withSyntax := tree_leaf_level _ _ rfl (by decide) (by decide)

/-- Subtree of the kind of help. -/
def helpSyntax : Syntax :=
  [([k!"transmit"], .value 0 (.par 154)), ([k!"receive"], .value 1 (.par 154)), ([k!"full"], .value 2 (.par 154))]

def helpTree : I3 Tree :=
  I3.ofList [(k!"transmit", .leaf (.value 0 (.par 154))), (k!"receive", .leaf (.value 1 (.par 154))),
    (k!"full", .leaf (.value 2 (.par 154)))]

theorem helpTree_is : Tree.Is helpTree helpSyntax := tree_leaf_level _ _ rfl (by decide) (by decide)

/-- One word with a value. -/
theorem single_is (w : Str) (lf : Leaf) : Tree.Is (I3.ofList [(w, .leaf lf)]) [([w], lf)] :=
  tree_leaf_level _ _ rfl (by simp) (by simp)

theorem line_is : Tree.Is looplineparams lineSyntax := by
  have : looplineparams = I3.ofList [(k!"count", .leaf (.arg .du2 (.par 150))),
    (k!"length", .leaf (.arg .du2 (.par 151))), (k!"with", .dict withTree)] := rfl
  rw [this]
  refine tree_level _ [(k!"count", .inl (.arg .du2 (.par 150))), (k!"length", .inl (.arg .du2 (.par 151))),
    (k!"with", .inr withSyntax)] (by decide) ?_ ?_ ?_
  · intro w lf; simp
  · intro w d hm
    simp at hm
    exact ⟨withSyntax, by simp [hm.1], hm.2 ▸ withTree_is⟩
  · intro w sy hm
    simp at hm
    exact ⟨withTree, by simp [hm.1], hm.2 ▸ withTree_is⟩

theorem loopnode_is : Tree.Is loopnodeparams (lineSyntax ++ accessSyntax) := by
  have : loopnodeparams = I3.ofList [(k!"count", .leaf (.arg .du2 (.par 150))),
    (k!"length", .leaf (.arg .du2 (.par 151))), (k!"with", .dict withTree), (k!"user", .leaf (.arg .ai .user)),
    (k!"password", .leaf (.arg .ai .password)), (k!"account", .leaf (.arg .ai .account))] := rfl
  rw [this]
  refine tree_level _ [(k!"count", .inl (.arg .du2 (.par 150))), (k!"length", .inl (.arg .du2 (.par 151))),
    (k!"with", .inr withSyntax), (k!"user", .inl (.arg .ai .user)), (k!"password", .inl (.arg .ai .password)),
    (k!"account", .inl (.arg .ai .account))] (by decide) ?_ ?_ ?_
  · intro w lf; simp
  · intro w d hm
    simp at hm
    exact ⟨withSyntax, by simp [hm.1], hm.2 ▸ withTree_is⟩
  · intro w sy hm
    simp at hm
    exact ⟨withTree, by simp [hm.1], hm.2 ▸ withTree_is⟩

theorem access_is : Tree.Is accessparams accessSyntax :=
  tree_leaf_level accessSyntax _ rfl (by decide) (by decide)

/-- Subtree of the assistant. -/
def assistTree : I3 Tree :=
  I3.ofList [(k!"physical", .dict (I3.ofList [(k!"address", .leaf (.arg .hi (.par 153)))])),
    (k!"node", .leaf (.arg .ai (.par 156)))]

def assistSyntax : Syntax :=
  [([k!"physical", k!"address"], .arg .hi (.par 153)), ([k!"node"], .arg .ai (.par 156))]

theorem assistTree_is : Tree.Is assistTree assistSyntax := by
  refine tree_level _ [(k!"physical", .inr [([k!"address"], .arg .hi (.par 153))]),
    (k!"node", .inl (.arg .ai (.par 156)))] (by decide) ?_ ?_ ?_
  · intro w lf; simp
  · intro w d hm
    simp at hm
    exact ⟨_, by simp [hm.1], hm.2 ▸ single_is _ _⟩
  · intro w sy hm
    simp at hm
    exact ⟨_, by simp [hm.1], hm.2 ▸ single_is _ _⟩

theorem loopcirc_is : Tree.Is loopcircparams loopCircSyntax := by
  have : loopcircparams = I3.ofList [
    (k!"physical", .dict (I3.ofList [(k!"address", .leaf (.arg .hi (.par 10)))])),
    (k!"count", .leaf (.arg .du2 (.par 150))), (k!"length", .leaf (.arg .du2 (.par 151))), (k!"with", .dict withTree),
    (k!"assistant", .dict assistTree), (k!"help", .dict helpTree), (k!"node", .leaf (.arg .ai (.par 155)))] := rfl
  rw [this]
  refine Tree.Is.perm (s := leaves [(k!"physical", .inr [([k!"address"], .arg .hi (.par 10))]),
    (k!"count", .inl (.arg .du2 (.par 150))), (k!"length", .inl (.arg .du2 (.par 151))), (k!"with", .inr withSyntax),
    (k!"assistant", .inr assistSyntax), (k!"help", .inr helpSyntax), (k!"node", .inl (.arg .ai (.par 155)))])
    (tree_level _ _ (by decide) ?_ ?_ ?_) ?_
  · intro w lf; simp
  · intro w d hm
    simp at hm
    rcases hm with ⟨rfl, rfl⟩ | ⟨rfl, rfl⟩ | ⟨rfl, rfl⟩ | ⟨rfl, rfl⟩
    · exact ⟨_, by simp, single_is _ _⟩
    · exact ⟨_, by simp, withTree_is⟩
    · exact ⟨_, by simp, assistTree_is⟩
    · exact ⟨_, by simp, helpTree_is⟩
  · intro w sy hm
    simp at hm
    rcases hm with ⟨rfl, rfl⟩ | ⟨rfl, rfl⟩ | ⟨rfl, rfl⟩ | ⟨rfl, rfl⟩
    · exact ⟨_, by simp, single_is _ _⟩
    · exact ⟨_, by simp, withTree_is⟩
    · exact ⟨_, by simp, assistTree_is⟩
    · exact ⟨_, by simp, helpTree_is⟩
  · intro p
    simp only [leaves, withSyntax, assistSyntax, helpSyntax, loopCircSyntax, lineSyntax, List.map_cons, List.map_nil,
      List.cons_append, List.nil_append, List.mem_cons, List.not_mem_nil, or_false]
    constructor <;> (intro h; rcases h with h | h | h | h | h | h | h | h | h | h | h | h <;> simp [h])

theorem noderead_is : Tree.Is (makeparsetree nodeRows []) nodeSyntax := by
  have : makeparsetree nodeRows [] = I3.ofList [(k!"circuit", .leaf (.arg .strQual (.par 501))),
    (k!"vms", .dict (I3.ofList [(k!"circuit", .leaf (.arg .strQual (.par 822)))]))] := rfl
  rw [this]
  refine tree_level _ [(k!"circuit", .inl (.arg .strQual (.par 501))),
    (k!"vms", .inr [([k!"circuit"], .arg .strQual (.par 822))])] (by decide) ?_ ?_ ?_
  · intro w lf; simp
  · intro w d hm
    simp at hm
    exact ⟨_, by simp [hm.1], hm.2 ▸ single_is _ _⟩
  · intro w sy hm
    simp at hm
    exact ⟨_, by simp [hm.1], hm.2 ▸ single_is _ _⟩

theorem circread_is : Tree.Is (makeparsetree circRows []) circSyntax := by
  have : makeparsetree circRows [] = I3.ofList [(k!"adjacent",
    .dict (I3.ofList [(k!"node", .leaf (.arg .nodeQual (.par 800)))]))] := rfl
  rw [this]
  refine tree_level _ [(k!"adjacent", .inr [([k!"node"], .arg .nodeQual (.par 800))])] (by decide) ?_ ?_ ?_
  · intro w lf; simp
  · intro w d hm
    simp at hm
    exact ⟨_, by simp [hm.1], hm.2 ▸ single_is _ _⟩
  · intro w sy hm
    simp at hm
    exact ⟨_, by simp [hm.1], hm.2 ▸ single_is _ _⟩

theorem modread_is : Tree.Is (makeparsetree modRows []) modSyntax := by
  have : makeparsetree modRows [] = I3.ofList [(k!"circuit", .leaf (.arg .strQual (.par 100))),
    (k!"physical", .dict (I3.ofList [(k!"address", .leaf (.arg .hi (.par 120)))])),
    (k!"destination", .leaf (.arg .strQual (.par 300))), (k!"dte", .leaf (.arg .strQual (.par 1100))),
    (k!"group", .leaf (.arg .strQual (.par 1101))), (k!"network", .leaf (.arg .strQual (.par 1110)))] := rfl
  rw [this]
  refine tree_level _ [(k!"circuit", .inl (.arg .strQual (.par 100))),
    (k!"physical", .inr [([k!"address"], .arg .hi (.par 120))]),
    (k!"destination", .inl (.arg .strQual (.par 300))), (k!"dte", .inl (.arg .strQual (.par 1100))),
    (k!"group", .inl (.arg .strQual (.par 1101))), (k!"network", .inl (.arg .strQual (.par 1110)))] (by decide) ?_ ?_ ?_
  · intro w lf; simp
  · intro w d hm
    simp at hm
    exact ⟨_, by simp [hm.1], hm.2 ▸ single_is _ _⟩
  · intro w sy hm
    simp at hm
    exact ⟨_, by simp [hm.1], hm.2 ▸ single_is _ _⟩

/-- The tree for LOOP. -/
theorem loopindex_is (t : Nat) (ht : t = 0 ∨ t = 1 ∨ t = 3) : Tree.Is (loopindex t).2 (loopSyntax t) := by
  rcases ht with rfl | rfl | rfl
  · exact loopnode_is
  · exact line_is
  · exact loopcirc_is

/-- The tree for SHOW. -/
theorem readtree_is {t : Nat} {rows : List Row} (h : readRows t = some rows) :
    Tree.Is (makeparsetree rows []) (showSyntax t) := by
  unfold readRows at h
  unfold showSyntax
  split at h
  · cases h; rw [if_pos (by assumption)]; exact noderead_is
  · rw [if_neg (by assumption)]
    split at h
    · cases h; rw [if_pos (by assumption)]; exact circread_is
    · rw [if_neg (by assumption)]
      split at h
      · cases h; rw [if_pos (by assumption)]; exact modread_is
      · cases h

end Verif.Ncp
