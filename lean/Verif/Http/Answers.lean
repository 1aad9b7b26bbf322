import Verif.Http.Props

/-!
# C123: pages, errors, and error pages
-/

namespace Verif.Http

/-! ## Which system -/

/-- The systems can be told apart by their names, as far as case goes. -/
def Distinct {β : Type} (s : Srv β) : Prop :=
  (∀ n ∈ s.nodes, n.name ≠ []) ∧ (s.nodes.map fun n => s.up n.name).Nodup

theorem lookup_at {β : Type} (s : Srv β) (l : List (Node β)) (k : Nat) (hne : ∀ n ∈ l, n.name ≠ [])
    (hd : (l.map fun n => s.up n.name).Nodup) (i : Nat) (n : Node β) (hi : l[i]? = some n) :
    s.lookup (s.up n.name) l k = some (k + i, n) := by
  induction l generalizing k i with
  | nil => simp at hi
  | cons a r ih =>
    simp only [List.map_cons, List.nodup_cons] at hd
    cases i with
    | zero =>
      simp only [List.getElem?_cons_zero, Option.some.injEq] at hi
      subst hi
      simp [Srv.lookup, hne a (by simp)]
    | succ i =>
      rw [List.getElem?_cons_succ] at hi
      have hmem : n ∈ r := List.mem_of_getElem? hi
      have hdiff : ¬ (a.name ≠ [] ∧ s.up a.name = s.up n.name) := fun h =>
        hd.1 (h.2 ▸ List.mem_map_of_mem (f := fun n => s.up n.name) hmem)
      rw [Srv.lookup, if_neg hdiff, ih (k + 1) (fun n hn => hne n (by simp [hn])) hd.2 i hi]
      congr 2
      omega

theorem lookup_none {β : Type} (s : Srv β) (w : List Char) (l : List (Node β)) (k : Nat)
    (h : ∀ n ∈ l, s.up n.name ≠ w) : s.lookup w l k = none := by
  induction l generalizing k with
  | nil => rfl
  | cons a r ih =>
    rw [Srv.lookup, if_neg (fun hh => h a (by simp) hh.2), ih (k + 1) (fun n hn => h n (by simp [hn]))]

theorem splitOn_none (sep : Char) (v : List Char) (h : sep ∉ v) : splitOn sep v = [v] := by
  induction v with
  | nil => rfl
  | cons a r ih =>
    simp only [List.mem_cons, not_or] at h
    simp only [splitOn, if_neg (Ne.symm h.1), ih h.2]

/-- The query `system=v` asks for `v`. -/
theorem wanted_system (unq : List Char → List Char) (hu : unq system = system) (v : List Char)
    (hv : v ≠ []) (ha : '&' ∉ v) : wanted unq (system ++ '=' :: v) = some (unq v) := by
  have h1 : splitOn '&' (system ++ '=' :: v) = [system ++ '=' :: v] := by
    refine splitOn_none _ _ ?_
    simp only [List.mem_append, List.mem_cons, not_or]
    exact ⟨by decide, by decide, ha⟩
  have h2 : field (system ++ '=' :: v) = some (system, v) := by
    cases v with
    | nil => exact absurd rfl hv
    | cons a r => rfl
  unfold wanted
  rw [h1]
  simp only [List.filterMap_cons, h2, List.filterMap_nil, List.find?_cons, hu, decide_true, Option.map_some]

/-- What a path stands for that is no file and no map. -/
def Shown {β : Type} (s : Srv β) (cs : List Comp) : Prop :=
  cs.head? ≠ some cResources ∧ cs.head? ≠ some cRobots ∧ cs.head? ≠ some cM ∧
  (s.map = true → cs.head? ≠ some cMap)

/-- What the answer is to be, given what the node makes of the request. -/
def reply {β : Type} (i : Nat) (mobile : Bool) : Page β → Ans β
  | .missing => .error 404
  | .raise => .error 500
  | .page p => .page i mobile p

theorem html_node {β : Type} (s : Srv β) (i : Nat) (n : Node β) (mobile : Bool) (ps : List Comp)
    (h : s.map = true → ps.head? ≠ some cMap) :
    s.html i (some n) mobile ps = reply i mobile (n.get mobile ps) := by
  unfold Srv.html
  rw [if_neg (fun hh => h hh.1 hh.2)]
  simp only
  cases n.get mobile ps <;> rfl

/-- C123.  With several systems: the page that is asked for is that of the
system named in the query, in upper or lower case, and of no other. -/
theorem system_page {β : Type} (s : Srv β) (hd : Distinct s) (hlen : 1 < s.nodes.length) (i : Nat)
    (n : Node β) (hi : s.nodes[i]? = some n) (u : Url) (hu : u.Simple) (w : List Char)
    (hq : wanted s.unq u.query = some w) (hw : s.up w = s.up n.name) (cs : List Comp)
    (hne : cs ≠ []) (hc : ∀ c ∈ cs, Clean c) (hn : NoNul cs) (hl : Plain s.fs cs) (hsh : Shown s cs)
    (hp : u.path = render cs) :
    s.get u = reply i false (n.get false cs) := by
  obtain ⟨u1, u2, u3, u4⟩ := hu
  have hqne : u.query ≠ [] := by
    intro h
    rw [h] at hq
    exact absurd hq (by simp [wanted, splitOn, field])
  have hlk : s.lookup (s.up w) s.nodes 0 = some (i, n) := by
    rw [hw]
    have := lookup_at s s.nodes 0 hd.1 hd.2 i n hi
    simpa using this
  have hfile : fileOf cs = none := by
    unfold fileOf
    rw [if_neg hsh.2.1, if_neg hsh.1]
  have hpage : pageOf cs = (false, cs) := by
    unfold pageOf
    simp [hsh.2.2.1, hne]
  unfold Srv.get Srv.findnode
  rw [if_neg (by simp [u1, u2, u3, u4]), hp, realpath_plain s.fs cs hne hc hn hl]
  simp only [gt_iff_lt, hlen, if_true, if_neg hqne, hq, hlk, hfile, hpage]
  exact html_node s i n false cs hsh.2.2.2

/-- The same under `/m`, for telephones. -/
theorem system_page_mobile {β : Type} (s : Srv β) (hd : Distinct s) (hlen : 1 < s.nodes.length) (i : Nat)
    (n : Node β) (hi : s.nodes[i]? = some n) (u : Url) (hu : u.Simple) (w : List Char)
    (hq : wanted s.unq u.query = some w) (hw : s.up w = s.up n.name) (cs : List Comp)
    (hc : ∀ c ∈ cs, Clean c) (hn : NoNul cs) (hl : Plain s.fs (cM :: cs))
    (hmap : s.map = true → cs.head? ≠ some cMap) (hp : u.path = render (cM :: cs)) :
    s.get u = reply i true (n.get true (if cs = [] then [[]] else cs)) := by
  obtain ⟨u1, u2, u3, u4⟩ := hu
  have hqne : u.query ≠ [] := by
    intro h
    rw [h] at hq
    exact absurd hq (by simp [wanted, splitOn, field])
  have hlk : s.lookup (s.up w) s.nodes 0 = some (i, n) := by
    rw [hw]
    have := lookup_at s s.nodes 0 hd.1 hd.2 i n hi
    simpa using this
  have hfile : fileOf (cM :: cs) = none := by
    have e1 : (cM :: cs).head? ≠ some cRobots := by rw [List.head?_cons]; decide
    have e2 : (cM :: cs).head? ≠ some cResources := by rw [List.head?_cons]; decide
    unfold fileOf
    rw [if_neg e1, if_neg e2]
  have hpage : pageOf (cM :: cs) = (true, if cs = [] then [[]] else cs) := by
    unfold pageOf
    simp
  have hcl : ∀ c ∈ cM :: cs, Clean c := by
    intro c h
    rcases List.mem_cons.1 h with rfl | h
    · exact ⟨by decide, by decide, by decide, by decide⟩
    · exact hc c h
  have hnn : NoNul (cM :: cs) := by
    intro c h
    rcases List.mem_cons.1 h with rfl | h
    · decide
    · exact hn c h
  unfold Srv.get Srv.findnode
  rw [if_neg (by simp [u1, u2, u3, u4]), hp, realpath_plain s.fs (cM :: cs) (by simp) hcl hnn hl]
  simp only [gt_iff_lt, hlen, if_true, if_neg hqne, hq, hlk, hfile, hpage]
  refine html_node s i n true _ ?_
  intro h
  split
  · simp only [List.head?_cons]; decide
  · exact hmap h

/-- A name that no system has is answered 404. -/
theorem system_unknown {β : Type} (s : Srv β) (hlen : 1 < s.nodes.length) (u : Url) (hu : u.Simple)
    (w : List Char) (hq : wanted s.unq u.query = some w) (hw : ∀ n ∈ s.nodes, s.up n.name ≠ s.up w)
    (hp : s.fs.realpath u.path ≠ none) : s.get u = .error 404 := by
  obtain ⟨u1, u2, u3, u4⟩ := hu
  have hqne : u.query ≠ [] := by
    intro h
    rw [h] at hq
    exact absurd hq (by simp [wanted, splitOn, field])
  unfold Srv.get Srv.findnode
  rw [if_neg (by simp [u1, u2, u3, u4])]
  cases hr : s.fs.realpath u.path with
  | none => exact absurd hr hp
  | some r =>
    simp only [Fs.parts, hr, Option.map_some, gt_iff_lt, hlen, if_true, if_neg hqne, hq,
      lookup_none s (s.up w) s.nodes 0 hw]

/-! ## Errors -/

/-- C123.  Every error that is sent is 400, 404 or 500. -/
theorem error_codes {β : Type} (s : Srv β) (u : Url) (c : Nat) (h : s.get u = .error c) :
    c = 400 ∨ c = 404 ∨ c = 500 := by
  unfold Srv.get at h
  cases hf : s.findnode u with
  | sent d =>
    rw [hf] at h
    cases h
    unfold Srv.findnode at hf
    split at hf
    · cases hf; exact Or.inl rfl
    · split at hf
      · cases hf
      · split at hf
        · split at hf
          · cases hf
          · split at hf
            · cases hf
            · split at hf <;> cases hf; exact Or.inr (Or.inl rfl)
        · split at hf <;> cases hf
  | raise => rw [hf] at h; cases h; exact Or.inr (Or.inr rfl)
  | ok i n ps =>
    rw [hf] at h
    simp only at h
    split at h
    · split at h <;> cases h; exact Or.inr (Or.inl rfl)
    · unfold Srv.html at h
      split at h
      · split at h
        · cases h
        · split at h <;> cases h; exact Or.inr (Or.inl rfl)
      · split at h
        · split at h <;> cases h; exact Or.inl rfl
        · split at h <;> cases h
          · exact Or.inr (Or.inl rfl)
          · exact Or.inr (Or.inr rfl)

/-- C123, what is not so: that the request for a system is answered 400 if it
is not named.  With several systems, a query without `system` raises, whatever
is asked for, the files of the resources included. -/
theorem query_without_system {β : Type} (s : Srv β) (hlen : 1 < s.nodes.length) (u : Url) (hu : u.Simple)
    (hq : u.query ≠ []) (hw : wanted s.unq u.query = none) : s.get u = .error 500 := by
  obtain ⟨u1, u2, u3, u4⟩ := hu
  unfold Srv.get Srv.findnode
  rw [if_neg (by simp [u1, u2, u3, u4])]
  cases s.fs.parts u.path with
  | none => rfl
  | some ps => simp only [gt_iff_lt, hlen, if_true, if_neg hq, hw]

/-- Two systems. -/
def exTwo : Srv Nat :=
  { exSrv (fun _ => none) [] with
    nodes := [{ name := ['A'], get := fun _ _ => .page 1 }, { name := ['B'], get := fun _ _ => .page 2 }] }

example : exTwo.get { path := "/nsp".toList, query := "system=B".toList } = .page 1 false 2 := by
  decide +kernel
example : exTwo.get { path := "/m".toList, query := "x=1&system=A".toList } = .page 0 true 1 := by
  decide +kernel
example : exTwo.get { path := "/".toList } = .nodeList false := by decide +kernel
example : exTwo.get { path := "/nsp".toList } = .error 400 := by decide +kernel
example : exTwo.get { path := "/resources/x".toList, query := "v=2".toList } = .error 500 := by
  decide +kernel
example : exTwo.get { path := "/resources/x".toList } = .file [1] := by decide +kernel

/-! ## Error pages -/

/-- C123.  The page of an error shows its own traceback, if no other request
fails between the two steps. -/
theorem own_traceback_partial {τ : Type} (x t : τ) (i : Nat) (as bs cs : List (Act τ))
    (h : ∀ a ∈ bs, ∃ j, a = .send j) :
    pages x (as ++ .set i t :: bs ++ .send i :: cs) =
      pages x as ++ pages t bs ++ (i, t) :: pages t cs := by
  have hb : ∀ (bs : List (Act τ)), (∀ a ∈ bs, ∃ j, a = .send j) → ∀ t : τ,
      pages t (bs ++ .send i :: cs) = pages t bs ++ (i, t) :: pages t cs := by
    intro bs
    induction bs with
    | nil => intro _ t; rfl
    | cons a r ih =>
      intro h t
      obtain ⟨j, rfl⟩ := h a (by simp)
      simp only [List.cons_append, pages, ih (fun a ha => h a (by simp [ha])) t]
  induction as generalizing x with
  | nil => simp only [List.nil_append, List.cons_append, pages, hb bs h t]
  | cons a r ih =>
    cases a with
    | set j t' => simpa only [List.cons_append, pages] using ih t'
    | send j => simp only [List.cons_append, pages, ih x]

/-- C123, what is not so: that an error page is about the request that it
answers.  Of two requests that fail at the same time the first can be sent the
traceback of the second. -/
theorem other_traceback {τ : Type} (x t1 t2 : τ) :
    pages x [.set 1 t1, .set 2 t2, .send 1, .send 2] = [(1, t2), (2, t2)] := rfl

example : pages "" [.set 1 "a", .send 1, .set 2 "b", .send 2] = [(1, "a"), (2, "b")] := by decide

end Verif.Http
