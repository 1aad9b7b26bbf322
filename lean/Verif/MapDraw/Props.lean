import Verif.MapDraw.Model
import Verif.Mapper.Lemmas

/-!
# C140: colours and lists of the map
-/
namespace Verif.MapDraw

open Verif.Mapper (Health get_of_mem get_mem get_put put_nodup put_mem)

/-! ## Specification: the rule of colours -/

/-- The colour for things with these healths: green if something is up and nothing down, yellow if something is down and
more is up, red if something is down and no more is up, else gray. -/
def Rule (l : List Health) (c : Color) : Prop :=
  let ups := l.countP (· = .up)
  let downs := l.countP (· = .down)
  (c = .green ↔ 0 < ups ∧ downs = 0) ∧ (c = .yellow ↔ 0 < downs ∧ downs < ups) ∧ (c = .red ↔ 0 < downs ∧ ups ≤ downs) ∧
    (c = .gray ↔ ups = 0 ∧ downs = 0)

/-- The connection joins the two nodes of a pair, the smaller first. -/
def Joins (s : Seen) (k : Nat × Nat) : Prop := k.1 ≤ k.2 ∧ (s.a = k.1 ∧ s.b = k.2 ∨ s.a = k.2 ∧ s.b = k.1)

/-- The best that was seen of the connections between two nodes, if not gone; from bad to good: gone, faded, down, up. -/
def Best (seen : List Seen) (k : Nat × Nat) (h : Health) : Prop :=
  h ≠ .gone ∧ (∃ s ∈ seen, Joins s k ∧ s.h = h) ∧
    ∀ s ∈ seen, Joins s k → (s.h = .up → h = .up) ∧ (s.h = .down → h = .up ∨ h = .down)

/-! ## Lemmas -/

theorem count_eq (h : Health) (l : List Health) : count h l = l.countP (· = h) := (List.countP_eq_length_filter).symm

theorem pos_iff (h : Health) (l : List Health) : 0 < l.countP (· = h) ↔ h ∈ l := by
  rw [List.countP_pos_iff]
  constructor
  · rintro ⟨a, ha, he⟩; simp only [decide_eq_true_eq] at he; subst he; exact ha
  · intro hm; exact ⟨h, hm, by simp⟩

theorem zero_iff (h : Health) (l : List Health) : l.countP (· = h) = 0 ↔ h ∉ l := by
  have := pos_iff h l
  constructor
  · intro h0 hm; have := this.2 hm; omega
  · intro hn
    cases hc : l.countP (· = h) with
    | zero => rfl
    | succ n => exact absurd (this.1 (by omega)) hn

theorem code_inj {a b : Health} (h : code a = code b) : a = b := by cases a <;> cases b <;> simp [code] at h ⊢

theorem top_some {l : List Health} {t : Nat} (h : top l = some t) : (∃ a ∈ l, code a = t) ∧ ∀ a ∈ l, code a ≤ t := by
  unfold top at h
  rw [List.max?_eq_some_iff] at h
  obtain ⟨h1, h2⟩ := h
  rw [List.mem_map] at h1
  exact ⟨h1, fun a ha => h2 _ (List.mem_map.2 ⟨a, ha, rfl⟩)⟩

theorem top_none {l : List Health} : top l = none ↔ l = [] := by
  unfold top
  rw [List.max?_eq_none_iff, List.map_eq_nil_iff]

theorem rule_of {l : List Health} {t : Nat} (h : top l = some t) :
    Rule l (if t = code .up then (mixed l).getD (h2color t) else h2color t) := by
  obtain ⟨⟨a, ha, rfl⟩, hm⟩ := top_some h
  have p1 := pos_iff .up l
  have p2 := pos_iff .down l
  have z1 := zero_iff .up l
  have z2 := zero_iff .down l
  unfold Rule mixed
  simp only [count_eq]
  generalize l.countP (· = .up) = u at *
  generalize l.countP (· = .down) = d at *
  cases a with
  | up =>
    have hu : 0 < u := p1.2 ha
    rw [if_pos rfl]
    by_cases hd : d = 0
    · simp [hd, h2color, code]; omega
    · rw [if_pos hd]
      by_cases hlt : d < u
      · rw [if_pos hlt]; simp; omega
      · rw [if_neg hlt]; simp; omega
  | down =>
    have hu : u = 0 := z1.2 fun hh => by have := hm _ hh; simp [code] at this
    have hd : 0 < d := p2.2 ha
    simp [code, h2color]; omega
  | fade =>
    have hu : u = 0 := z1.2 fun hh => by have := hm _ hh; simp [code] at this
    have hd : d = 0 := z2.2 fun hh => by have := hm _ hh; simp [code] at this
    simp [code, h2color]; omega
  | gone =>
    have hu : u = 0 := z1.2 fun hh => by have := hm _ hh; simp [code] at this
    have hd : d = 0 := z2.2 fun hh => by have := hm _ hh; simp [code] at this
    simp [code, h2color]; omega

theorem rule_perm {l l' : List Health} (h : l.Perm l') {c c' : Color} (hr : Rule l c) (hr' : Rule l' c') : c = c' := by
  unfold Rule at hr hr'
  rw [← h.countP_eq, ← h.countP_eq] at hr'
  obtain ⟨a1, a2, a3, a4⟩ := hr
  obtain ⟨b1, b2, b3, b4⟩ := hr'
  cases c with
  | green => exact (b1.2 (a1.1 rfl)).symm
  | yellow => exact (b2.2 (a2.1 rfl)).symm
  | red => exact (b3.2 (a3.1 rfl)).symm
  | gray => exact (b4.2 (a4.1 rfl)).symm

theorem key_iff (s : Seen) (k : Nat × Nat) : key s.a s.b = k ↔ Joins s k := by
  obtain ⟨x, y⟩ := k
  unfold key Joins
  simp only
  split
  · rw [Prod.mk.injEq]; omega
  · rw [Prod.mk.injEq]; omega

structure Inv (seen : List Seen) (c : Conns) : Prop where
  nodup : (c.map Prod.fst).Nodup
  sound : ∀ k h, (k, h) ∈ c → h ≠ .gone ∧ ∃ s ∈ seen, key s.a s.b = k ∧ s.h = h
  cover : ∀ s ∈ seen, code s.h ≤ code ((Mapper.get c (key s.a s.b)).getD .gone)

theorem inv_add (seen : List Seen) (c : Conns) (s : Seen) (h : Inv seen c) : Inv (seen ++ [s]) (c.add s) := by
  unfold Conns.add
  simp only
  split
  · rename_i hlt
    refine ⟨put_nodup h.nodup, fun k h' hm => ?_, fun x hx => ?_⟩
    · rcases put_mem hm with hm | hm
      · obtain ⟨h1, y, hy, h2⟩ := h.sound k h' hm
        exact ⟨h1, y, List.mem_append_left _ hy, h2⟩
      · injection hm with e1 e2
        subst e1 e2
        refine ⟨fun e => ?_, s, by simp, rfl, rfl⟩
        rw [e] at hlt
        simp [code] at hlt
    · rw [get_put]
      split
      · rename_i he
        rw [List.mem_append, List.mem_singleton] at hx
        rcases hx with hx | rfl
        · have := h.cover x hx
          rw [← he] at this
          simp only [Option.getD_some]
          omega
        · exact Nat.le_refl _
      · rename_i he
        rw [List.mem_append, List.mem_singleton] at hx
        rcases hx with hx | rfl
        · exact h.cover x hx
        · exact absurd rfl he
  · rename_i hge
    refine ⟨h.nodup, fun k h' hm => ?_, fun x hx => ?_⟩
    · obtain ⟨h1, y, hy, h2⟩ := h.sound k h' hm
      exact ⟨h1, y, List.mem_append_left _ hy, h2⟩
    · rw [List.mem_append, List.mem_singleton] at hx
      rcases hx with hx | rfl
      · exact h.cover x hx
      · omega

theorem inv_fold (l : List Seen) : ∀ (seen : List Seen) (c : Conns), Inv seen c → Inv (seen ++ l) (l.foldl Conns.add c) := by
  induction l with
  | nil => intro seen c h; rw [List.append_nil]; exact h
  | cons s r ih =>
    intro seen c h
    have := ih _ _ (inv_add seen c s h)
    rw [List.append_assoc] at this
    exact this

theorem inv_all (seen : List Seen) : Inv seen (seen.foldl Conns.add []) := by
  have := inv_fold seen [] [] ⟨.nil, fun k h hm => by simp at hm, fun s hs => by simp at hs⟩
  simpa using this

theorem best_iff {seen : List Seen} {c : Conns} (hi : Inv seen c) (k : Nat × Nat) (h : Health) :
    (k, h) ∈ c ↔ Best seen k h := by
  constructor
  · intro hm
    obtain ⟨h1, s, hs, hk, he⟩ := hi.sound k h hm
    refine ⟨h1, ⟨s, hs, (key_iff s k).1 hk, he⟩, fun x hx hj => ?_⟩
    have hc := hi.cover x hx
    rw [(key_iff x k).2 hj, get_of_mem hi.nodup hm] at hc
    simp only [Option.getD_some] at hc
    constructor <;> intro hh <;> rw [hh] at hc <;> cases h <;> simp [code] at hc ⊢
  · rintro ⟨h1, ⟨s, hs, hj, he⟩, hb⟩
    have hc := hi.cover s hs
    rw [(key_iff s k).2 hj, he] at hc
    cases hg : Mapper.get c k with
    | none =>
      rw [hg] at hc
      cases h <;> simp [code] at hc h1
    | some h' =>
      rw [hg] at hc
      simp only [Option.getD_some] at hc
      have hm := get_mem hg
      obtain ⟨h1', x, hx, hk, he'⟩ := hi.sound k h' hm
      have := hb x hx ((key_iff x k).1 hk)
      have e : h = h' := by
        rw [he'] at this
        cases h <;> cases h' <;> simp [code] at hc this h1 h1' ⊢
      rw [e]
      exact hm

theorem nodup_of_keys {c : Conns} (h : (c.map Prod.fst).Nodup) : c.Nodup := by
  rw [List.nodup_iff_pairwise_ne, List.pairwise_map] at h
  exact List.nodup_iff_pairwise_ne.2 (h.imp fun hne e => hne (by rw [e]))

/-! ## Markers -/

/-- The marker of a place has the colour of the rule; a place without nodes ends with an exception. -/
theorem marker_color (l : List Health) :
    (l = [] → locColor l = none) ∧ (l ≠ [] → ∃ c, locColor l = some c ∧ Rule l c) := by
  unfold locColor
  cases h : top l with
  | none =>
    have := top_none.1 h
    exact ⟨fun _ => rfl, fun hn => absurd this hn⟩
  | some t =>
    refine ⟨fun hn => ?_, fun _ => ⟨_, rfl, rule_of h⟩⟩
    rw [top_none.2 hn] at h
    cases h

theorem split_length (l : List Health) : (∀ h ∈ l, h = .up ∨ h = .down) →
    l.length = l.countP (· = .up) + l.countP (· = .down) := by
  induction l with
  | nil => intro _; rfl
  | cons a r ih =>
    intro hf
    have hr := ih fun h hh => hf h (by simp [hh])
    rcases hf a (by simp) with rfl | rfl
    · rw [List.length_cons, List.countP_cons_of_pos (by simp), List.countP_cons_of_neg (by simp)]; omega
    · rw [List.length_cons, List.countP_cons_of_neg (by simp), List.countP_cons_of_pos (by simp)]; omega

/-- Where nothing is faded or gone, the legend of the map is right: green if all are up, yellow if some are down and the
majority up; red if half or more are down. -/
theorem legend_partial (l : List Health) (hn : l ≠ []) (hf : ∀ h ∈ l, h = .up ∨ h = .down) :
    (locColor l = some .green ↔ ∀ h ∈ l, h = .up) ∧
    (locColor l = some .yellow ↔ .down ∈ l ∧ l.length < 2 * l.countP (· = .up)) ∧
    (locColor l = some .red ↔ l.length ≤ 2 * l.countP (· = .down)) := by
  obtain ⟨c, hc, h1, h2, h3, _⟩ := (marker_color l).2 hn
  have hlen := split_length l hf
  have hpos : 0 < l.length := List.length_pos_iff.2 hn
  have pd := pos_iff .down l
  have zd := zero_iff .down l
  rw [hc]
  simp only [Option.some.injEq, h1, h2, h3]
  refine ⟨⟨fun h a ha => ?_, fun h => ?_⟩, ?_, ?_⟩
  · rcases hf a ha with e | e
    · exact e
    · rw [e] at ha; exact absurd ha (zd.1 h.2)
  · have : l.countP (· = .down) = 0 := zd.2 fun hm => by cases h _ hm
    omega
  · rw [← pd]; omega
  · omega

/-- The legend is wrong of faded nodes: a green place with a node that is not up, and a red place where one of three nodes
is down; and half is not more than half. -/
theorem legend_wrong :
    (∃ l : List Health, locColor l = some .green ∧ ¬ ∀ h ∈ l, h = .up) ∧
    (∃ l : List Health, locColor l = some .red ∧ 2 * l.countP (· = .down) < l.length) ∧
    (∃ l : List Health, locColor l = some .red ∧ (∀ h ∈ l, h = .up ∨ h = .down) ∧ 2 * l.countP (· = .down) = l.length) :=
  ⟨⟨[.up, .fade], by decide, by decide⟩, ⟨[.down, .fade, .fade], by decide, by decide⟩,
    ⟨[.up, .down], by decide, by decide, by decide⟩⟩

/-- The popup lists every node of the place once, first those up, then those down, then the others; in the tool tip these
are left out. -/
theorem marker_lists (l : List (Nat × Health)) :
    (marker false l).2.Perm (l.map (·.1)) ∧
    ∃ us ds fs : List (Nat × Health), us = l.filter (·.2 = .up) ∧ ds = l.filter (·.2 = .down) ∧
      fs = l.filter (fun x => x.2 = .fade ∨ x.2 = .gone) ∧
      (marker false l).2 = us.map (·.1) ++ ds.map (·.1) ++ fs.map (·.1) ∧
      (marker false l).1 = us.map (·.1) ++ ds.map (·.1) := by
  have e1 : (fun x : Nat × Health => decide (shownAs x.2 = .up)) = fun x => decide (x.2 = .up) := by
    funext x; obtain ⟨a, h⟩ := x; cases h <;> rfl
  have e2 : (fun x : Nat × Health => decide (shownAs x.2 = .down)) = fun x => decide (x.2 = .down) := by
    funext x; obtain ⟨a, h⟩ := x; cases h <;> rfl
  have e3 : (fun x : Nat × Health => decide (shownAs x.2 = .fade)) = fun x => decide (x.2 = .fade ∨ x.2 = .gone) := by
    funext x; obtain ⟨a, h⟩ := x; cases h <;> rfl
  have h2 : (marker false l).2 = (l.filter (·.2 = .up)).map (·.1) ++ (l.filter (·.2 = .down)).map (·.1) ++
      (l.filter (fun x => x.2 = .fade ∨ x.2 = .gone)).map (·.1) := by
    simp only [marker, actnodes, e1, e2, e3, Bool.false_eq_true, and_false, if_false]
  have h1 : (marker false l).1 = (l.filter (·.2 = .up)).map (·.1) ++ (l.filter (·.2 = .down)).map (·.1) := by
    simp only [marker, actnodes, e1, e2, Bool.false_eq_true, and_false, if_false]
  refine ⟨?_, _, _, _, rfl, rfl, rfl, h2, h1⟩
  rw [h2, ← List.map_append, ← List.map_append]
  apply List.Perm.map
  clear h1 h2
  induction l with
  | nil => exact .nil
  | cons x r ih =>
    obtain ⟨a, h⟩ := x
    cases h with
    | up => simpa using ih
    | down =>
      simp only [List.filter_cons, reduceCtorEq, decide_false, decide_true, Bool.false_eq_true, if_false, if_true, or_self]
      refine List.Perm.trans ?_ (ih.cons _)
      rw [List.append_assoc, List.append_assoc]
      exact List.perm_middle
    | fade =>
      simp only [List.filter_cons, reduceCtorEq, decide_false, decide_true, Bool.false_eq_true, if_false, if_true, true_or]
      exact List.Perm.trans List.perm_middle (ih.cons _)
    | gone =>
      simp only [List.filter_cons, reduceCtorEq, decide_false, decide_true, Bool.false_eq_true, if_false, if_true, or_true]
      exact List.Perm.trans List.perm_middle (ih.cons _)

/-- At the place of nodes without known place the popup is that of the tool tip, if there is one. -/
theorem default_lists (l : List (Nat × Health)) (h : (marker false l).1 ≠ []) :
    marker true l = ((marker false l).1, (marker false l).1) := by
  simp only [marker, Bool.false_eq_true, and_false, if_false] at h ⊢
  rw [if_pos ⟨h, trivial⟩]

/-- If no node there is up or down, the faded ones are listed, which the documentation says they are not. -/
theorem default_faded : ∃ l : List (Nat × Health), (∀ x ∈ l, x.2 = .fade) ∧ (marker true l).2 ≠ [] :=
  ⟨[(1, .fade)], by decide, by decide⟩

/-! ## Paths -/

theorem draw_conns (seen : List Seen) : ∃ c : Conns, (c.map Prod.fst).Nodup ∧ (∀ k h, (k, h) ∈ c ↔ Best seen k h) ∧
    ((c = [] ∧ draw seen = .nothing) ∨ ∃ x, draw seen = .arc x ∧ Rule (c.map (·.2)) x) := by
  have hi := inv_all seen
  refine ⟨_, hi.nodup, best_iff hi, ?_⟩
  have hd : draw seen = (let c : Conns := seen.foldl Conns.add []
    if c.filter (fun x => x.2 ≠ .gone) = [] then .nothing
    else match pathColor (c.map (·.2)) with
      | none => .raises
      | some none => .nothing
      | some (some k) => .arc k) := rfl
  rw [hd]
  generalize seen.foldl Conns.add [] = c at hi
  simp only
  have hf : c.filter (fun x => x.2 ≠ .gone) = c := by
    rw [List.filter_eq_self]
    intro x hx
    have := (hi.sound x.1 x.2 hx).1
    simpa using this
  rw [hf]
  by_cases hc : c = []
  · exact Or.inl ⟨hc, by rw [if_pos hc]⟩
  · right
    rw [if_neg hc]
    unfold pathColor
    cases ht : top (c.map (·.2)) with
    | none => exact absurd (List.map_eq_nil_iff.1 (top_none.1 ht)) hc
    | some t =>
      have hr := rule_of ht
      obtain ⟨⟨a, ha, rfl⟩, _⟩ := top_some ht
      have hg : a ≠ .gone := by
        obtain ⟨x, hx, rfl⟩ := List.mem_map.1 ha
        exact (hi.sound x.1 x.2 hx).1
      cases a with
      | gone => exact absurd rfl hg
      | up =>
        simp only [if_true] at hr ⊢
        cases hm : mixed (c.map (·.2)) with
        | none => rw [hm] at hr; exact ⟨_, rfl, hr⟩
        | some k => rw [hm] at hr; exact ⟨_, rfl, hr⟩
      | down => exact ⟨.red, rfl, hr⟩
      | fade => exact ⟨.gray, rfl, hr⟩

/-- The arc of a path has the colour of the rule, with every pair of nodes counted once, at the best that either end or
any of the circuits between them shows; it is drawn exactly if not all are gone.  There is no exception. -/
theorem path_color (seen : List Seen) :
    (draw seen = .nothing ↔ ∀ s ∈ seen, s.h = .gone) ∧ draw seen ≠ .raises ∧
    ∀ x, draw seen = .arc x → ∃ c : List ((Nat × Nat) × Health), (c.map Prod.fst).Nodup ∧
      (∀ k h, (k, h) ∈ c ↔ Best seen k h) ∧ Rule (c.map (·.2)) x := by
  obtain ⟨c, hn, hb, hd⟩ := draw_conns seen
  have hall : c = [] ↔ ∀ s ∈ seen, s.h = .gone := by
    have hi := inv_all seen
    constructor
    · intro h s hs
      have hnone : Mapper.get (seen.foldl Conns.add []) (key s.a s.b) = none := by
        cases hg : Mapper.get (seen.foldl Conns.add []) (key s.a s.b) with
        | none => rfl
        | some v =>
          have := (hb _ _).2 ((best_iff hi _ _).1 (get_mem hg))
          rw [h] at this
          cases this
      have := hi.cover s hs
      rw [hnone] at this
      cases hh : s.h <;> rw [hh] at this <;> simp [code] at this ⊢
    · intro h
      cases c with
      | nil => rfl
      | cons x r =>
        obtain ⟨h1, ⟨s, hs, _, he⟩, _⟩ := (hb x.1 x.2).1 (by simp)
        rw [h s hs] at he
        exact absurd he.symm h1
  rcases hd with ⟨h1, h2⟩ | ⟨x, h1, h2⟩
  · rw [h2]
    exact ⟨⟨fun _ => hall.1 h1, fun _ => rfl⟩, by simp, fun x hx => by cases hx⟩
  · rw [h1]
    refine ⟨Iff.intro (fun h => by cases h) (fun h => ?_), by simp, fun y hy => ?_⟩
    · have := hall.2 h
      rw [this] at h2
      exfalso
      cases seen with
      | nil => cases h1
      | cons s r =>
        have hi := inv_all (s :: r)
        have he : (s :: r).foldl Conns.add [] = [] := by
          cases hc : (s :: r).foldl Conns.add [] with
          | nil => rfl
          | cons y q =>
            obtain ⟨g1, z, hz, _, ge⟩ := hi.sound y.1 y.2 (by rw [hc]; simp)
            rw [h z hz] at ge
            exact absurd ge.symm g1
        unfold draw at h1
        simp only [he] at h1
        cases h1
    · injection hy with hy
      subst hy
      exact ⟨c, hn, hb, h2⟩

/-- The order in which connections are found does not matter. -/
theorem path_order (seen seen' : List Seen) (h : seen.Perm seen') : draw seen = draw seen' := by
  obtain ⟨c, hn, hb, hd⟩ := draw_conns seen
  obtain ⟨c', hn', hb', hd'⟩ := draw_conns seen'
  have hbb : ∀ k g, Best seen k g ↔ Best seen' k g := by
    intro k g
    unfold Best
    simp only [h.mem_iff]
  have hp : c.Perm c' := by
    rw [List.perm_ext_iff_of_nodup (nodup_of_keys hn) (nodup_of_keys hn')]
    rintro ⟨k, g⟩
    rw [hb, hb', hbb]
  rcases hd with ⟨h1, h2⟩ | ⟨x, h1, h2⟩ <;> rcases hd' with ⟨h1', h2'⟩ | ⟨x', h1', h2'⟩
  · rw [h2, h2']
  · exfalso
    have hall := (path_color seen).1.1 h2
    have : draw seen' = .nothing := (path_color seen').1.2 fun s hs => hall s (h.mem_iff.2 hs)
    rw [this] at h1'
    cases h1'
  · exfalso
    have hall := (path_color seen').1.1 h2'
    have : draw seen = .nothing := (path_color seen).1.2 fun s hs => hall s (h.mem_iff.1 hs)
    rw [this] at h1
    cases h1
  · rw [h1, h1', rule_perm (hp.map _) h2 h2']

/-- A path whose circuit went down 61 days before the scan is not drawn; the documentation says it is for 180 days. -/
theorem gone_early (a b scan : Nat) (i : Mapper.Item) (h : i.up ≤ i.down) (hs : i.down + 61 * 86400 ≤ scan) :
    draw [⟨a, b, i.health scan⟩] = .nothing := by
  rw [(path_color _).1]
  intro s hs'
  rw [List.mem_singleton] at hs'
  subst hs'
  unfold Mapper.Item.health
  rw [if_neg (by omega)]
  simp only
  rw [if_pos (by omega)]

/-! ## Cases -/

example : draw [⟨1, 2, .down⟩, ⟨2, 1, .up⟩, ⟨3, 1, .down⟩, ⟨4, 1, .up⟩] = .arc .yellow ∧ draw [⟨1, 2, .gone⟩] = .nothing ∧
    draw [⟨1, 2, .fade⟩, ⟨2, 1, .gone⟩] = .arc .gray := by decide

example : marker true [(1, .fade), (2, .down), (3, .up), (4, .gone)] = ([3, 2], [3, 2]) ∧
    marker false [(1, .fade), (2, .down), (3, .up), (4, .gone)] = ([3, 2], [3, 2, 1, 4]) := by decide

end Verif.MapDraw
