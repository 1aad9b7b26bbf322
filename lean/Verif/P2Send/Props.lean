import Verif.P2Send.Model

/-!
# C139: where a Phase II node sends
-/
namespace Verif.P2Send

/-! ## Specification: the state of a circuit from the history alone -/

/-- The neighbour on circuit `c` after a history, read from the front: the first start that is not undone. -/
def Link (ops : List Op) (c : Nat) : Option (Nat × Bool) :=
  ops.foldl (fun r op => match op with
    | .up d n o => if d = c ∧ r = none then some (n, o) else r
    | .down d => if d = c then none else r) none

/-- No circuit came up to a node that another one led to at that time, nor to this node. -/
def Single (self : Nat) (ops : List Op) : Prop :=
  ∀ pre c n o post, ops = pre ++ Op.up c n o :: post → n ≠ self ∧ ∀ d o', Link pre d ≠ some (n, o')

/-! ## Dictionaries -/

theorem get_mem {d : Dict} {k : Nat} {a : Adj} (h : d.get k = some a) : (k, a) ∈ d := by
  unfold Dict.get at h
  rw [Option.map_eq_some_iff] at h
  obtain ⟨x, hx, rfl⟩ := h
  have h1 := List.find?_some hx
  have h2 := List.mem_of_find?_eq_some hx
  simp only [beq_iff_eq] at h1
  rw [← h1]
  exact h2

theorem get_del (d : Dict) (k j : Nat) : (d.del k).get j = if j = k then none else d.get j := by
  unfold Dict.get Dict.del
  rw [List.find?_filter]
  by_cases h : j = k
  · subst h
    rw [if_pos rfl]
    simp
  · rw [if_neg h]
    congr 2
    funext x
    by_cases hx : x.1 = j
    · subst hx; simp [h]
    · simp [hx]

theorem get_set (d : Dict) (k j : Nat) (a : Adj) : (d.set k a).get j = if j = k then some a else d.get j := by
  unfold Dict.set
  split
  · rename_i h
    have hf : (fun x : Nat × Adj => (fun x : Nat × Adj => x.1 == j) (if x.1 = k then (k, a) else x)) =
        fun x : Nat × Adj => x.1 == j := by
      funext x
      by_cases hx : x.1 = k <;> simp [hx]
    unfold Dict.get at h ⊢
    rw [List.find?_map]
    have hf' : ((fun x : Nat × Adj => x.1 == j) ∘ fun x : Nat × Adj => if x.1 = k then (k, a) else x) =
        fun x : Nat × Adj => x.1 == j := hf
    rw [hf']
    by_cases hj : j = k
    · subst hj
      rw [if_pos rfl]
      obtain ⟨y, hy⟩ := Option.isSome_iff_exists.1 h
      rw [Option.map_eq_some_iff] at hy
      obtain ⟨x, hx, _⟩ := hy
      have h1 := List.find?_some hx
      simp only [beq_iff_eq] at h1
      rw [hx]
      simp [h1]
    · rw [if_neg hj, Option.map_map]
      cases hx : List.find? (fun x : Nat × Adj => x.1 == j) d with
      | none => rfl
      | some x =>
        have h1 := List.find?_some hx
        simp only [beq_iff_eq] at h1
        simp [h1, hj]
  · rename_i h
    unfold Dict.get at h ⊢
    rw [List.find?_append]
    by_cases hj : j = k
    · subst hj
      have hn : List.find? (fun x : Nat × Adj => x.1 == j) d = none := by
        cases hx : List.find? (fun x : Nat × Adj => x.1 == j) d with
        | none => rfl
        | some x => rw [hx] at h; exact absurd rfl h
      rw [hn, if_pos rfl]
      simp
    · rw [if_neg hj]
      have : List.find? (fun x : Nat × Adj => x.1 == j) [(k, a)] = none := by
        simp [show ¬ k = j from fun e => hj e.symm]
      rw [this]
      simp

theorem mem_set {d : Dict} {k : Nat} {a : Adj} {x : Nat × Adj} (h : x ∈ d.set k a) :
    x = (k, a) ∨ (x ∈ d ∧ x.1 ≠ k) := by
  unfold Dict.set at h
  split at h
  · rw [List.mem_map] at h
    obtain ⟨y, hy, rfl⟩ := h
    by_cases hk : y.1 = k
    · left; rw [if_pos hk]
    · right; rw [if_neg hk]; exact ⟨hy, hk⟩
  · rename_i hn
    rw [List.mem_append, List.mem_singleton] at h
    rcases h with h | h
    · by_cases hk : x.1 = k
      · exfalso
        apply hn
        unfold Dict.get
        rw [Option.isSome_map, List.find?_isSome]
        exact ⟨x, h, by simp [hk]⟩
      · exact Or.inr ⟨h, hk⟩
    · exact Or.inl h

theorem mem_del {d : Dict} {k : Nat} {x : Nat × Adj} : x ∈ d.del k ↔ x ∈ d ∧ x.1 ≠ k := by
  unfold Dict.del
  rw [List.mem_filter]
  simp

/-! ## Histories -/

theorem run_snoc (self : Nat) (ops : List Op) (op : Op) : run self (ops ++ [op]) = (run self ops).step op := by
  unfold run
  rw [List.foldl_append]
  rfl

theorem link_snoc (ops : List Op) (op : Op) (c : Nat) : Link (ops ++ [op]) c = match op with
    | .up d n o => if d = c ∧ Link ops c = none then some (n, o) else Link ops c
    | .down d => if d = c then none else Link ops c := by
  unfold Link
  rw [List.foldl_append]
  rfl

/-- What holds after every history. -/
structure Inv (w : Nat) (ops : List Op) : Prop where
  me : (run w ops).self = w
  up : ∀ c, (run w ops).up c = Link ops c
  entry : ∀ n c o, (n, Adj.circ c o) ∈ (run w ops).adjs → Link ops c = some (n, o)
  own : ∀ n, (n, Adj.own) ∈ (run w ops).adjs → n = w

theorem induct {P : List Op → Prop} (h0 : P []) (h1 : ∀ ops op, P ops → P (ops ++ [op])) (ops : List Op) : P ops := by
  have key : ∀ l : List Op, P l.reverse := by
    intro l
    induction l with
    | nil => exact h0
    | cons a r ih => rw [List.reverse_cons]; exact h1 _ _ ih
  have := key ops.reverse
  rwa [List.reverse_reverse] at this

theorem inv (self : Nat) (ops : List Op) : Inv self ops := by
  induction ops using induct with
  | h0 =>
    refine ⟨rfl, fun _ => rfl, ?_, ?_⟩
    · intro n c o h
      simp [run, init] at h
    · intro n h
      simpa [run, init] using h
  | h1 ops op ih =>
    cases op with
    | up c n o =>
      cases hu : (run self ops).up c with
      | some x =>
        have hl : Link ops c = some x := by rw [← ih.up]; exact hu
        have hr : run self (ops ++ [.up c n o]) = run self ops := by
          rw [run_snoc]; simp only [S.step, hu]
        have hk : ∀ d, Link (ops ++ [.up c n o]) d = Link ops d := by
          intro d
          rw [link_snoc]
          simp only
          rw [if_neg]
          rintro ⟨rfl, h⟩
          rw [hl] at h
          cases h
        refine ⟨by rw [hr]; exact ih.me, fun d => by rw [hr, hk]; exact ih.up d, fun m d p h => ?_, fun m h => ?_⟩
        · rw [hr] at h; rw [hk]; exact ih.entry m d p h
        · rw [hr] at h; exact ih.own m h
      | none =>
        have hl : Link ops c = none := by rw [← ih.up]; exact hu
        have hr : run self (ops ++ [.up c n o]) = { run self ops with
            adjs := (run self ops).adjs.set n (.circ c o)
            up := fun d => if d = c then some (n, o) else (run self ops).up d } := by
          rw [run_snoc]; simp only [S.step, hu]
        have hk : ∀ d, Link (ops ++ [.up c n o]) d = if d = c then some (n, o) else Link ops d := by
          intro d
          rw [link_snoc]
          simp only
          by_cases hd : d = c
          · subst hd; rw [if_pos ⟨rfl, hl⟩, if_pos rfl]
          · rw [if_neg (fun h => hd h.1.symm), if_neg hd]
        refine ⟨by rw [hr]; exact ih.me, fun d => ?_, fun m d p h => ?_, fun m h => ?_⟩
        · rw [hr, hk]; simp only; rw [ih.up]
        · rw [hr] at h
          rcases mem_set h with h | ⟨h, _⟩
          · injection h with h1 h2; injection h2 with h2 h3; subst h1 h2 h3
            rw [hk, if_pos rfl]
          · have he := ih.entry m d p h
            rw [hk, if_neg]
            · exact he
            · rintro rfl; rw [hl] at he; cases he
        · rw [hr] at h
          rcases mem_set h with h | ⟨h, _⟩
          · injection h with _ h2; cases h2
          · exact ih.own m h
    | down c =>
      have hk : ∀ d, Link (ops ++ [.down c]) d = if d = c then none else Link ops d := by
        intro d
        rw [link_snoc]
        simp only
        by_cases hd : d = c
        · subst hd; simp
        · rw [if_neg (fun h => hd h.symm), if_neg hd]
      cases hu : (run self ops).up c with
      | none =>
        have hl : Link ops c = none := by rw [← ih.up]; exact hu
        have hr : run self (ops ++ [.down c]) = run self ops := by
          rw [run_snoc]; simp only [S.step, hu]
        have hk' : ∀ d, Link (ops ++ [.down c]) d = Link ops d := by
          intro d
          rw [hk]
          split
          · rename_i h; rw [h, hl]
          · rfl
        refine ⟨by rw [hr]; exact ih.me, fun d => by rw [hr, hk']; exact ih.up d, fun m d p h => ?_, fun m h => ?_⟩
        · rw [hr] at h; rw [hk']; exact ih.entry m d p h
        · rw [hr] at h; exact ih.own m h
      | some x =>
        obtain ⟨n, o⟩ := x
        have hl : Link ops c = some (n, o) := by rw [← ih.up]; exact hu
        have hr : run self (ops ++ [.down c]) = { run self ops with
            adjs := (run self ops).adjs.del n
            up := fun d => if d = c then none else (run self ops).up d } := by
          rw [run_snoc]; simp only [S.step, hu]
        refine ⟨by rw [hr]; exact ih.me, fun d => ?_, fun m d p h => ?_, fun m h => ?_⟩
        · rw [hr, hk]; simp only; rw [ih.up]
        · rw [hr] at h
          obtain ⟨h, hm⟩ := mem_del.1 h
          have he := ih.entry m d p h
          rw [hk, if_neg]
          · exact he
          · rintro rfl
            rw [hl] at he
            injection he with he
            injection he with h1 _
            exact hm h1.symm
        · rw [hr] at h
          exact ih.own m (mem_del.1 h).1

/-- With single circuits, every circuit that is up is found, and so is this node. -/
theorem found (self : Nat) (ops : List Op) : Single self ops →
    (run self ops).adjs.get self = some .own ∧
    ∀ c n o, Link ops c = some (n, o) → n ≠ self ∧ (run self ops).adjs.get n = some (.circ c o) := by
  induction ops using induct with
  | h0 => intro _; exact ⟨by simp [run, init, Dict.get], fun c n o h => by cases h⟩
  | h1 ops op ih =>
    intro hs
    have hs' : Single self ops := by
      intro pre c n o post h
      exact hs pre c n o (post ++ [op]) (by rw [h]; simp)
    obtain ⟨h0, h1⟩ := ih hs'
    have hi := inv self ops
    cases op with
    | up c n o =>
      obtain ⟨hn, hd⟩ := hs ops c n o [] rfl
      cases hu : (run self ops).up c with
      | some x =>
        have hr : run self (ops ++ [.up c n o]) = run self ops := by
          rw [run_snoc]; simp only [S.step, hu]
        rw [hr]
        refine ⟨h0, fun d m p h => h1 d m p ?_⟩
        rw [link_snoc] at h
        simp only at h
        rw [if_neg] at h
        · exact h
        · rintro ⟨rfl, h'⟩
          rw [← hi.up, hu] at h'
          cases h'
      | none =>
        have hr : run self (ops ++ [.up c n o]) = { run self ops with
            adjs := (run self ops).adjs.set n (.circ c o)
            up := fun d => if d = c then some (n, o) else (run self ops).up d } := by
          rw [run_snoc]; simp only [S.step, hu]
        rw [hr]
        simp only [get_set]
        refine ⟨by rw [if_neg (Ne.symm hn)]; exact h0, fun d m p h => ?_⟩
        rw [link_snoc] at h
        simp only at h
        split at h
        · rename_i hc
          injection h with h
          injection h with e1 e2
          subst e1 e2
          rw [if_pos rfl, hc.1]
          exact ⟨hn, rfl⟩
        · have := h1 d m p h
          rw [if_neg]
          · exact this
          · rintro rfl
            exact hd d p h
    | down c =>
      have hc : ∀ d m p, Link (ops ++ [.down c]) d = some (m, p) → d ≠ c ∧ Link ops d = some (m, p) := by
        intro d m p h
        rw [link_snoc] at h
        simp only at h
        split at h
        · cases h
        · rename_i hd
          exact ⟨fun e => hd e.symm, h⟩
      cases hu : (run self ops).up c with
      | none =>
        have hr : run self (ops ++ [.down c]) = run self ops := by
          rw [run_snoc]; simp only [S.step, hu]
        rw [hr]
        exact ⟨h0, fun d m p h => h1 d m p (hc d m p h).2⟩
      | some x =>
        obtain ⟨n, o⟩ := x
        have hl : Link ops c = some (n, o) := by rw [← hi.up]; exact hu
        have hr : run self (ops ++ [.down c]) = { run self ops with
            adjs := (run self ops).adjs.del n
            up := fun d => if d = c then none else (run self ops).up d } := by
          rw [run_snoc]; simp only [S.step, hu]
        rw [hr]
        simp only [get_del]
        obtain ⟨hn, hg⟩ := h1 c n o hl
        refine ⟨by rw [if_neg (Ne.symm hn)]; exact h0, fun d m p h => ?_⟩
        obtain ⟨hd, h⟩ := hc d m p h
        obtain ⟨hm, hg'⟩ := h1 d m p h
        rw [if_neg]
        · exact ⟨hm, hg'⟩
        · rintro rfl
          rw [hg] at hg'
          injection hg' with hg'
          injection hg' with e _
          exact hd e.symm

/-! ## The property -/

/-- After every history a packet for a node goes only to a circuit that is up, with that node in its header, and the
neighbour there is that node or offers to pass packets on. -/
theorem sent_up (self : Nat) (ops : List Op) (n c dst : Nat) (rqr : Bool)
    (h : (run self ops).send (.node n) rqr = .sent c dst) :
    dst = n ∧ ∃ m o, Link ops c = some (m, o) ∧ (m = n ∨ o = true) := by
  have hi := inv self ops
  unfold S.send at h
  simp only at h
  cases hg : (run self ops).adjs.get n with
  | some a =>
    rw [hg] at h
    cases a with
    | own => cases h
    | circ d o =>
      change Out.sent d n = Out.sent c dst at h
      injection h with h1 h2
      subst h1 h2
      exact ⟨rfl, n, o, hi.entry n d o (get_mem hg), Or.inl rfl⟩
  | none =>
    rw [hg] at h
    simp only at h
    cases hf : List.find? (fun x : Nat × Adj => x.2.offers) (run self ops).adjs with
    | none => rw [hf] at h; cases h
    | some x =>
      rw [hf] at h
      obtain ⟨m, a⟩ := x
      have ho := List.find?_some hf
      have hm := List.mem_of_find?_eq_some hf
      cases a with
      | own => cases ho
      | circ d o =>
        change o = true at ho
        change Out.sent d n = Out.sent c dst at h
        injection h with h1 h2
        subst h1 h2
        exact ⟨rfl, m, o, hi.entry m d o hm, Or.inr ho⟩

/-- While no node is reached by two circuits, every neighbour is sent to on its own circuit.  Not without that condition:
`second_circuit_lost`. -/
theorem neighbour_partial (self : Nat) (ops : List Op) (hs : Single self ops) (c n : Nat) (o rqr : Bool)
    (h : Link ops c = some (n, o)) : (run self ops).send (.node n) rqr = .sent c n := by
  unfold S.send
  simp only [((found self ops hs).2 c n o h).2]
  rfl

/-- Under the same condition, a node that is no neighbour, nor this node, is sent to if some neighbour offers to pass
packets on, and dropped if none does. -/
theorem distant_partial (self : Nat) (ops : List Op) (hs : Single self ops) (n : Nat) (rqr : Bool) (h0 : n ≠ self)
    (hn : ∀ c o, Link ops c ≠ some (n, o)) :
    ((∃ c m, Link ops c = some (m, true)) →
      ∃ c m, Link ops c = some (m, true) ∧ (run self ops).send (.node n) rqr = .sent c n) ∧
    ((∀ c m, Link ops c ≠ some (m, true)) → (run self ops).send (.node n) rqr = .dropped) := by
  have hi := inv self ops
  have hf := found self ops hs
  have hg : (run self ops).adjs.get n = none := by
    cases hg : (run self ops).adjs.get n with
    | none => rfl
    | some a =>
      cases a with
      | own => exact absurd (hi.own n (get_mem hg)) h0
      | circ c o => exact absurd (hi.entry n c o (get_mem hg)) (hn c o)
  unfold S.send
  simp only [hg]
  constructor
  · rintro ⟨c, m, h⟩
    cases hx : List.find? (fun x : Nat × Adj => x.2.offers) (run self ops).adjs with
    | none =>
      rw [List.find?_eq_none] at hx
      exact absurd rfl (hx _ (get_mem (hf.2 c m true h).2))
    | some x =>
      obtain ⟨k, a⟩ := x
      have ho := List.find?_some hx
      have hm := List.mem_of_find?_eq_some hx
      cases a with
      | own => cases ho
      | circ d o =>
        change o = true at ho
        subst ho
        exact ⟨d, k, hi.entry k d true hm, rfl⟩
  · intro h
    cases hx : List.find? (fun x : Nat × Adj => x.2.offers) (run self ops).adjs with
    | none => rfl
    | some x =>
      obtain ⟨k, a⟩ := x
      have ho := List.find?_some hx
      have hm := List.mem_of_find?_eq_some hx
      cases a with
      | own => cases ho
      | circ d o =>
        change o = true at ho
        subst ho
        exact absurd (hi.entry k d true hm) (h d k)

/-- A loop node: the packet goes to its circuit, addressed to this node, exactly if the circuit is up and leads back to
this node; otherwise it is returned exactly if that was asked for. -/
theorem loop_node (self : Nat) (ops : List Op) (c : Nat) (rqr : Bool) :
    ((∃ o, Link ops c = some (self, o)) → (run self ops).send (.loop c) rqr = .sent c self) ∧
    ((∀ o, Link ops c ≠ some (self, o)) →
      (run self ops).send (.loop c) rqr = if rqr = true then .returned else .dropped) := by
  have hi := inv self ops
  unfold S.send S.loops
  simp only [hi.up, hi.me]
  constructor
  · rintro ⟨o, h⟩
    simp [h]
  · intro h
    cases hl : Link ops c with
    | none => simp
    | some x =>
      obtain ⟨m, o⟩ := x
      have hm : m ≠ self := by rintro rfl; exact h o hl
      simp [hm]

/-- A packet for a node number is never returned to its sender, whatever was asked for. -/
theorem never_returned (self : Nat) (ops : List Op) (n : Nat) (rqr : Bool) :
    (run self ops).send (.node n) rqr ≠ .returned := by
  unfold S.send
  simp only
  have key : ∀ a : Adj, a.out n ≠ .returned := by rintro (_ | _) h <;> cases h
  split
  · exact key _
  · split
    · exact key _
    · simp

/-- A packet for this node itself ends with an exception, unless a circuit has led back to it. -/
theorem own_raises (self : Nat) (ops : List Op) (hs : Single self ops) (rqr : Bool) :
    (run self ops).send (.node self) rqr = .raises := by
  unfold S.send
  simp only [(found self ops hs).1]
  rfl

/-- Two circuits to one neighbour: when one goes down, the neighbour is given up although the other is up; even a
connect request gets no answer. -/
theorem second_circuit_lost : ∃ ops c o, Link ops c = some (2, o) ∧ (run 1 ops).send (.node 2) true = .dropped :=
  ⟨[.up 0 2 false, .up 1 2 false, .down 1], 0, false, by decide, by decide⟩

/-- A circuit that led back to this node: once it is down, packets for this node itself are dropped. -/
theorem own_lost : ∃ ops, (∀ c, Link ops c = none) ∧ (run 1 ops).adjs = [] ∧
    (run 1 ops).send (.node 1) true = .dropped := by
  refine ⟨[.up 0 1 false, .down 0], fun c => ?_, by decide, by decide⟩
  by_cases h : c = 0
  · subst h; decide
  · show (if 0 = c then none else if 0 = c ∧ none = none then some (1, false) else none) = none
    rw [if_neg (fun e => h e.symm), if_neg (fun e => h e.1.symm)]

/-! ## Cases -/

/-- Two neighbours, the second of which offers to pass packets on; the first comes back on another circuit. -/
def exOps : List Op := [.up 0 2 false, .up 1 3 true, .down 0, .up 2 2 false]

example : (run 1 exOps).send (.node 2) true = .sent 2 2 ∧ (run 1 exOps).send (.node 3) false = .sent 1 3 ∧
    (run 1 exOps).send (.node 7) false = .sent 1 7 ∧ (run 1 exOps).send (.node 1) false = .raises ∧
    (run 1 exOps).send (.loop 2) true = .returned ∧ (run 1 (exOps ++ [.down 1])).send (.node 7) true = .dropped := by
  decide

theorem exOps_single : Single 1 exOps := by
  intro pre c n o post h
  unfold exOps at h
  match pre, h with
  | [], h =>
    simp only [List.nil_append, List.cons.injEq, Op.up.injEq] at h
    obtain ⟨⟨rfl, rfl, rfl⟩, -⟩ := h
    exact ⟨by decide, fun d o' h => by cases h⟩
  | [a], h =>
    simp only [List.cons_append, List.nil_append, List.cons.injEq, Op.up.injEq] at h
    obtain ⟨rfl, ⟨rfl, rfl, rfl⟩, -⟩ := h
    refine ⟨by decide, fun d o' h => ?_⟩
    simp only [Link, List.foldl] at h
    split at h <;> simp at h
  | [a, b], h =>
    simp only [List.cons_append, List.nil_append, List.cons.injEq] at h
    exact absurd h.2.2.1 (by simp)
  | [a, b, x], h =>
    simp only [List.cons_append, List.nil_append, List.cons.injEq, Op.up.injEq] at h
    obtain ⟨rfl, rfl, rfl, ⟨rfl, rfl, rfl⟩, -⟩ := h
    refine ⟨by decide, fun d o' h => ?_⟩
    simp only [Link, List.foldl] at h
    by_cases h0 : 0 = d
    · subst h0; simp at h
    · by_cases h1 : 1 = d
      · subst h1; simp at h
      · simp [h0, h1] at h
  | a :: b :: x :: y :: r, h =>
    simp only [List.cons_append, List.cons.injEq] at h
    have := h.2.2.2.2
    simp at this

example : (run 1 exOps).send (.node 2) true = .sent 2 2 := neighbour_partial 1 exOps exOps_single 2 2 false true (by decide)

end Verif.P2Send
