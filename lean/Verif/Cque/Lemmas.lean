import Verif.Cque.Model

namespace Verif.Cque

/-- Following `nx` from `a` gives the nodes of `l` in order, then `b`. -/
def Path (nx : Node → Node) : Node → List Node → Node → Prop
  | a, [], b => nx a = b
  | a, x :: l, b => nx a = x ∧ Path nx x l b

/-- The memory holds the lists `slot`. -/
structure Rep (m : Mem) (slot : Nat → List Nat) : Prop where
  path : ∀ i, Path m.next (.head i) ((slot i).map .item) (.head i)
  back : ∀ x, m.prev (m.next x) = x
  forth : ∀ x, m.next (m.prev x) = x
  nodup : ∀ i, (slot i).Nodup
  once : ∀ i j t, t ∈ slot i → t ∈ slot j → i = j
  free : ∀ t, (∀ i, t ∉ slot i) → m.next (.item t) = .item t

theorem Rep.inj {m : Mem} {slot} (h : Rep m slot) {x y : Node} (e : m.next x = m.next y) : x = y := by
  rw [← h.back x, ← h.back y, e]

theorem path_congr {nx nx' : Node → Node} {l : List Node} {a b : Node}
    (h : ∀ y ∈ a :: l, nx' y = nx y) (p : Path nx a l b) : Path nx' a l b := by
  induction l generalizing a with
  | nil => show nx' a = b; rw [h a (by simp)]; exact p
  | cons x l ih =>
    refine ⟨by rw [h a (by simp)]; exact p.1, ih (fun y hy => h y ?_) p.2⟩
    exact List.mem_cons_of_mem _ hy

theorem path_mem {nx : Node → Node} {l : List Node} {a b y : Node} (p : Path nx a l b)
    (hy : y ∈ a :: l) : nx y ∈ l ∨ nx y = b := by
  induction l generalizing a with
  | nil =>
    have : y = a := by simpa using hy
    subst this; exact .inr p
  | cons x l ih =>
    rcases List.mem_cons.1 hy with rfl | hy
    · left; rw [p.1]; simp
    · rcases ih p.2 hy with h | h
      · exact .inl (List.mem_cons_of_mem _ h)
      · exact .inr h

theorem path_remove {nx nx' : Node → Node} (inj : ∀ x y, nx x = nx y → x = y) {x p : Node}
    (hp : nx p = x) (hnx : ∀ y, nx' y = if y = x then x else if y = p then nx x else nx y)
    {l : List Node} {a b : Node} (hd : (a :: l).Nodup) (ha : a ≠ x) (hb : b ≠ x)
    (h : Path nx a l b) : Path nx' a (l.filter (· ≠ x)) b := by
  induction l generalizing a with
  | nil =>
    show nx' a = b
    have h : nx a = b := h
    rw [hnx, if_neg ha, if_neg]
    · exact h
    · rintro rfl; exact hb (h.symm.trans hp)
  | cons y l ih =>
    obtain ⟨h1, h2⟩ := h
    have hd' := List.nodup_cons.1 hd
    by_cases hy : y = x
    · subst hy
      have hap : a = p := inj _ _ (h1.trans hp.symm)
      have hyl := (List.nodup_cons.1 hd'.2).1
      have hf : (y :: l).filter (· ≠ y) = l := by
        rw [List.filter_cons_of_neg (by simp)]
        exact List.filter_eq_self.2 fun z hz => by
          simp only [ne_eq, decide_not, Bool.not_eq_true', decide_eq_false_iff_not]
          rintro rfl; exact hyl hz
      rw [hf]
      have hna : nx' a = nx y := by rw [hnx, if_neg ha, if_pos hap]
      cases l with
      | nil => exact hna.trans h2
      | cons z l' =>
        refine ⟨hna.trans h2.1, path_congr (fun w hw => ?_) h2.2⟩
        rw [hnx, if_neg (fun e : w = y => hyl (e ▸ hw)), if_neg]
        rintro rfl
        exact hd'.1 (hap ▸ List.mem_cons_of_mem _ hw)
    · rw [List.filter_cons_of_pos (by simpa using hy)]
      refine ⟨?_, ih hd'.2 hy h2⟩
      rw [hnx, if_neg ha, if_neg]
      · exact h1
      · rintro rfl; exact hy (h1.symm.trans hp)

theorem path_append {nx nx' : Node → Node} (inj : ∀ x y, nx x = nx y → x = y) {x p h : Node}
    (hp : nx p = h) (hxh : x ≠ h)
    (hnx : ∀ y, nx' y = if y = p then x else if y = x then h else nx y)
    {l : List Node} {a : Node} (hx : x ∉ a :: l) (hl : h ∉ l) (hpx : p ≠ x)
    (hpath : Path nx a l h) : Path nx' a (l ++ [x]) h := by
  induction l generalizing a with
  | nil =>
    have hpath : nx a = h := hpath
    have : a = p := inj _ _ (hpath.trans hp.symm)
    refine ⟨by rw [hnx, if_pos this], ?_⟩
    show nx' x = h
    rw [hnx, if_neg (Ne.symm hpx), if_pos rfl]
  | cons y l ih =>
    obtain ⟨h1, h2⟩ := hpath
    refine ⟨?_, ih (fun hh => hx (List.mem_cons_of_mem _ hh)) (fun hh => hl (List.mem_cons_of_mem _ hh)) h2⟩
    rw [hnx, if_neg, if_neg]
    · exact h1
    · rintro rfl; exact hx (by simp)
    · rintro rfl; exact hl (by rw [← hp, h1]; simp)

/-! ## The operations as equations -/

theorem remove_next (m : Mem) (x y : Node) : (remove m x).next y =
      if y = x then x else if y = m.prev x then m.next x else m.next y := by
  have e : (if x = m.next x then m.prev x else m.prev x) = m.prev x := by split <;> rfl
  simp only [remove, reset, setNext, setPrev, bump, set, e]

theorem remove_prev (m : Mem) (x : Node) (y : Node) : (remove m x).prev y =
      if y = x then x else if y = m.next x then m.prev x else m.prev y := by
  simp only [remove, reset, setNext, setPrev, bump, set]

theorem remove_rev (m : Mem) (x y : Node) :
    (remove m x).rev y = if y = x then m.rev x + 1 else m.rev y := rfl

theorem addBefore_next (m : Mem) (h x y : Node) :
    (addBefore m h x).next y = if y = m.prev h then x else if y = x then h else m.next y := by
  have e : (if h = x then m.prev h else m.prev h) = m.prev h := by split <;> rfl
  simp only [addBefore, setNext, setPrev, bump, set, e]

theorem addBefore_prev (m : Mem) (h x : Node) (y : Node) :
    (addBefore m h x).prev y = if y = h then x else if y = x then m.prev h else m.prev y := rfl

theorem addBefore_rev (m : Mem) (h x y : Node) :
    (addBefore m h x).rev y = if y = h then m.rev h + 1 else m.rev y := rfl

theorem map_filter (l : List Nat) (t : Nat) :
    (l.filter (· ≠ t)).map Node.item = (l.map Node.item).filter (· ≠ .item t) := by
  induction l with
  | nil => rfl
  | cons a l ih =>
    by_cases h : a = t
    · subst h; simpa using ih
    · rw [List.filter_cons_of_pos (by simpa using h), List.map_cons, List.map_cons,
        List.filter_cons_of_pos (by simpa using h), ih]

theorem nodup_head {l : List Nat} (h : l.Nodup) (i : Nat) : (Node.head i :: l.map .item).Nodup := by
  refine List.nodup_cons.2 ⟨by simp, ?_⟩
  induction l with
  | nil => simp
  | cons a l ih =>
    have := List.nodup_cons.1 h
    exact List.nodup_cons.2 ⟨by simpa using this.1, ih this.2⟩

theorem Rep.remove_inverse {m : Mem} {slot} (r : Rep m slot) (x : Node) :
    (∀ y, (remove m x).prev ((remove m x).next y) = y) ∧
    (∀ y, (remove m x).next ((remove m x).prev y) = y) := by
  have hn : ∀ y, m.next y = x → y = m.prev x := fun y h => by rw [← h, r.back]
  have hp : ∀ y, m.prev y = x → y = m.next x := fun y h => by rw [← h, r.forth]
  constructor
  · intro y
    rw [remove_next m x]
    split
    · rename_i h; rw [remove_prev, if_pos rfl]; exact h.symm
    · rename_i h1
      split
      · rename_i h2
        rw [remove_prev, if_neg, if_pos rfl]
        · exact h2.symm
        · intro e; exact h1 ((h2.trans (hn x e).symm))
      · rename_i h2
        rw [remove_prev, if_neg (fun e => h2 (hn y e)), if_neg (fun e => h1 (r.inj e)), r.back]
  · intro y
    rw [remove_prev]
    split
    · rename_i h; rw [remove_next m x, if_pos rfl]; exact h.symm
    · rename_i h1
      split
      · rename_i h2
        rw [remove_next m x, if_neg, if_pos rfl]
        · exact h2.symm
        · intro e; exact h1 (h2.trans (hp x e).symm)
      · rename_i h2
        rw [remove_next m x, if_neg (fun e => h2 (hp y e)), if_neg, r.forth]
        intro e
        have := congrArg m.next e
        rw [r.forth, r.forth] at this
        exact h1 this

/-- `remove` of a timer, linked or not. -/
theorem Rep.remove_item {m : Mem} {slot} (r : Rep m slot) (t : Nat) :
    Rep (remove m (.item t)) (fun i => (slot i).filter (· ≠ t)) := by
  obtain ⟨i1, i2⟩ := r.remove_inverse (.item t)
  refine ⟨fun i => ?_, i1, i2, fun i => (r.nodup i).filter _, ?_, ?_⟩
  · rw [map_filter]
    exact path_remove (nx := m.next) (fun x y e => r.inj e) (r.forth (.item t))
      (remove_next m _) (nodup_head (r.nodup i) i) (by simp) (by simp) (r.path i)
  · intro i j u hi hj
    exact r.once i j u (List.mem_filter.1 hi).1 (List.mem_filter.1 hj).1
  · intro u hu
    rw [remove_next m _]
    split
    · rename_i h; exact h.symm
    · rename_i h
      have hut : u ≠ t := fun e => h (by rw [e])
      have hfree : m.next (.item u) = .item u := r.free u fun i hi =>
        hu i (List.mem_filter.2 ⟨hi, by simpa using hut⟩)
      split
      · rename_i h2
        have := congrArg m.next h2
        rw [r.forth, hfree] at this
        exact absurd this h
      · exact hfree

/-- `remove` of a list head whose list is empty changes nothing but its revision count. -/
theorem Rep.remove_head {m : Mem} {slot} (r : Rep m slot) (i : Nat) (h : slot i = []) :
    Rep (remove m (.head i)) slot := by
  have hp := r.path i
  rw [h] at hp
  have hn : m.next (.head i) = .head i := hp
  have hv : m.prev (.head i) = .head i := by have := r.back (.head i); rwa [hn] at this
  have e1 : (remove m (.head i)).next = m.next := by
    funext y
    rw [remove_next m _]
    split
    · rename_i h; rw [h, hn]
    · rename_i h; rw [hv, if_neg h]
  have e2 : (remove m (.head i)).prev = m.prev := by
    funext y
    rw [remove_prev]
    split
    · rename_i h; rw [h, hv]
    · rename_i h; rw [hn, if_neg h]
  exact ⟨by rw [e1]; exact r.path, by rw [e1, e2]; exact r.back, by rw [e1, e2]; exact r.forth,
    r.nodup, r.once, by rw [e1]; exact r.free⟩

/-- `add_before` on a list head, of a timer that is not linked. -/
theorem Rep.addBefore {m : Mem} {slot} (r : Rep m slot) (i t : Nat) (ht : ∀ j, t ∉ slot j) :
    Rep (addBefore m (.head i) (.item t)) (fun j => if j = i then slot j ++ [t] else slot j) := by
  have hfree := r.free t ht
  have hxh : Node.item t ≠ .head i := by simp
  have hvx : m.prev (.item t) = .item t := by have := r.back (.item t); rwa [hfree] at this
  have hpx : m.prev (.head i) ≠ .item t := by
    intro e
    have := r.forth (.head i)
    rw [e, hfree] at this; cases this
  have hnx := addBefore_next m (.head i) (.item t)
  have hpv := addBefore_prev m (.head i) (.item t)
  have hx : ∀ j, Node.item t ∉ Node.head j :: (slot j).map .item := by
    intro j hj
    rcases List.mem_cons.1 hj with h | h
    · cases h
    · obtain ⟨u, hu, e⟩ := List.mem_map.1 h
      cases e; exact ht j hu
  refine ⟨fun j => ?_, fun y => ?_, fun y => ?_, fun j => ?_, ?_, ?_⟩
  · by_cases hj : j = i
    · subst hj
      simp only [if_true, List.map_append]
      exact path_append (nx := m.next) (fun x y e => r.inj e) (r.forth _) hxh hnx (hx j) (by simp) hpx
        (r.path j)
    · simp only [if_neg hj]
      refine path_congr (fun y hy => ?_) (r.path j)
      rw [hnx, if_neg, if_neg]
      · rintro rfl; exact hx j hy
      · rintro rfl
        rcases path_mem (r.path j) hy with h | h
        · rw [r.forth] at h; simp at h
        · rw [r.forth] at h; exact hj (by cases h; rfl)
  · rw [hnx]
    split
    · rename_i h; rw [hpv, if_neg hxh, if_pos rfl]; exact h.symm
    · rename_i h
      split
      · rename_i h2; rw [hpv, if_pos rfl]; exact h2.symm
      · rename_i h2
        rw [hpv, if_neg, if_neg, r.back]
        · intro e; exact h2 (r.inj (e.trans hfree.symm))
        · intro e; exact h (by rw [← e, r.back])
  · rw [hpv]
    split
    · rename_i h; rw [hnx, if_neg (Ne.symm hpx), if_pos rfl]; exact h.symm
    · rename_i h
      split
      · rename_i h2; rw [hnx, if_pos rfl]; exact h2.symm
      · rename_i h2
        rw [hnx, if_neg, if_neg, r.forth]
        · intro e
          have := congrArg m.next e
          rw [r.forth, hfree] at this; exact h2 this
        · intro e
          have := congrArg m.next e
          rw [r.forth, r.forth] at this; exact h this
  · split
    · rw [List.nodup_append]
      refine ⟨r.nodup j, by simp, ?_⟩
      intro a ha b hb
      simp only [List.mem_singleton] at hb
      subst hb
      rintro rfl; exact ht j ha
    · exact r.nodup j
  · intro j k u hj hk
    have key : ∀ j, (u ∈ if j = i then slot j ++ [t] else slot j) → u ∈ slot j ∨ (u = t ∧ j = i) := by
      intro j hj
      split at hj
      · rename_i e
        rcases List.mem_append.1 hj with h | h
        · exact .inl h
        · exact .inr ⟨by simpa using h, e⟩
      · exact .inl hj
    rcases key j hj with h1 | ⟨rfl, rfl⟩ <;> rcases key k hk with h2 | ⟨h2, h3⟩
    · exact r.once j k u h1 h2
    · subst h2; exact absurd h1 (ht j)
    · exact absurd h2 (ht k)
    · exact h3.symm
  · intro u hu
    have hut : u ≠ t := by
      rintro rfl
      exact hu i (by simp)
    have hus : ∀ j, u ∉ slot j := by
      intro j hj
      apply hu j
      split
      · exact List.mem_append_left _ hj
      · exact hj
    have hfu := r.free u hus
    rw [hnx, if_neg, if_neg (by simpa using hut)]
    · exact hfu
    · intro e
      have := congrArg m.next e
      rw [r.forth, hfu] at this; cases this

theorem Rep.init : Rep Mem.init (fun _ => []) :=
  ⟨fun _ => rfl, fun _ => rfl, fun _ => rfl, fun _ => by simp, fun _ _ _ h => by simp at h,
    fun _ _ => rfl⟩

/-- The first element of a list. -/
theorem Rep.first {m : Mem} {slot} (r : Rep m slot) (i : Nat) :
    m.next (.head i) = match slot i with | [] => .head i | t :: _ => .item t := by
  have := r.path i
  cases h : slot i with
  | nil => rw [h] at this; exact this
  | cons t l => rw [h] at this; exact this.1

/-- A timer is linked exactly if it is on some list. -/
theorem Rep.linked {m : Mem} {slot} (r : Rep m slot) (t : Nat) :
    islinked m (.item t) = true ↔ ∃ i, t ∈ slot i := by
  unfold islinked
  rw [decide_eq_true_iff]
  constructor
  · intro h
    exact Classical.byContradiction fun hn => h (r.free t fun i hi => hn ⟨i, hi⟩)
  · rintro ⟨i, hi⟩ e
    -- a list with a node pointing to itself would not get back to the head
    have key : ∀ (l : List Node) (a : Node), Path m.next a l (.head i) → (a :: l).Nodup →
        (∀ y ∈ l, y ≠ .head i) → Node.item t ∈ l → False := by
      intro l
      induction l with
      | nil => intro a _ _ _ h; simp at h
      | cons x l ih =>
        intro a hp hd hne hm
        rcases List.mem_cons.1 hm with rfl | hm
        · cases l with
          | nil =>
            have : m.next (.item t) = .head i := hp.2
            rw [e] at this; cases this
          | cons z l =>
            have hz : m.next (.item t) = z := hp.2.1
            rw [e] at hz
            have := (List.nodup_cons.1 (List.nodup_cons.1 hd).2).1
            exact this (by rw [← hz]; simp)
        · exact ih x hp.2 (List.nodup_cons.1 hd).2 (fun y hy => hne y (by simp [hy])) hm
    exact key _ _ (r.path i) (nodup_head (r.nodup i) i) (by simp) (List.mem_map.2 ⟨t, hi, rfl⟩)

end Verif.Cque
