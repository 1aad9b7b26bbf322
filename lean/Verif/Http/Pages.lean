import Verif.Http.Answers

/-!
# C123: the first page, the map, fields of queries, addresses that are refused
-/

namespace Verif.Http

/-- An address with a protocol, a host, parameters or a fragment is refused. -/
theorem foreign_refused {β : Type} (s : Srv β) (u : Url)
    (h : u.scheme ≠ [] ∨ u.netloc ≠ [] ∨ u.params ≠ [] ∨ u.fragment ≠ []) : s.get u = .error 400 := by
  unfold Srv.get Srv.findnode
  rw [if_pos h]

/-- What a field of a query is: a name, an equals sign, and a value that is not empty. -/
theorem field_iff (s a b : List Char) : field s = some (a, b) ↔ s = a ++ '=' :: b ∧ '=' ∉ a ∧ b ≠ [] := by
  have hd : ∀ a b : List Char, '=' ∉ a → (a ++ '=' :: b).dropWhile (· ≠ '=') = '=' :: b ∧
      (a ++ '=' :: b).takeWhile (· ≠ '=') = a := by
    intro a b
    induction a with
    | nil => intro _; simp
    | cons c r ih =>
      intro h
      simp only [List.mem_cons, not_or] at h
      have hc : c ≠ '=' := fun e => h.1 e.symm
      have := ih h.2
      simp only [List.cons_append, List.dropWhile_cons, List.takeWhile_cons, hc, ne_eq, not_false_eq_true, decide_true, if_true]
      exact ⟨this.1, by rw [this.2]⟩
  have hex : ∀ s : List Char, '=' ∉ s ∨ ∃ a b, s = a ++ '=' :: b ∧ '=' ∉ a := by
    intro s
    induction s with
    | nil => exact Or.inl (by simp)
    | cons c r ih =>
      by_cases hc : c = '='
      · subst hc; exact Or.inr ⟨[], r, rfl, by simp⟩
      · rcases ih with h | ⟨a, b, h1, h2⟩
        · exact Or.inl (by simp only [List.mem_cons, not_or]; exact ⟨fun e => hc e.symm, h⟩)
        · exact Or.inr ⟨c :: a, b, by rw [h1]; rfl, by simp only [List.mem_cons, not_or]; exact ⟨fun e => hc e.symm, h2⟩⟩
  rcases hex s with h | ⟨x, y, rfl, hx⟩
  · have hn : s.dropWhile (· ≠ '=') = [] := by
      clear hd hex
      induction s with
      | nil => rfl
      | cons c r ih =>
        simp only [List.mem_cons, not_or] at h
        have hc : c ≠ '=' := fun e => h.1 e.symm
        simp only [List.dropWhile_cons, hc, ne_eq, not_false_eq_true, decide_true, if_true]
        exact ih h.2
    unfold field
    rw [hn]
    simp only [reduceCtorEq, false_iff, not_and]
    rintro rfl
    simp at h
  · unfold field
    rw [(hd x y hx).1, (hd x y hx).2]
    cases y with
    | nil =>
      simp only [reduceCtorEq, false_iff]
      rintro ⟨h1, h2, h3⟩
      have h4 := (hd a b h2).1
      rw [← h1, (hd x [] hx).1] at h4
      injection h4 with _ h4
      exact h3 h4.symm
    | cons c r =>
      simp only [Option.some.injEq, Prod.mk.injEq]
      constructor
      · rintro ⟨rfl, rfl⟩; exact ⟨rfl, hx, by simp⟩
      · rintro ⟨h1, h2, _⟩
        have h4 := hd a b h2
        rw [← h1, (hd x _ hx).1, (hd x _ hx).2] at h4
        injection h4.1 with _ h5
        exact ⟨h4.2, h5⟩

/-- A system without name is no system. -/
theorem blank_name (unq : List Char → List Char) : wanted unq (system ++ ['=']) = none := by
  unfold wanted
  have h1 : splitOn '&' (system ++ ['=']) = [system ++ ['=']] := splitOn_none _ _ (by decide)
  rw [h1]
  rfl

theorem root_parts (fs : Fs) : fs.parts ['/'] = some [[]] := by
  unfold Fs.parts Fs.realpath
  have hs : split ['/'] = [[], []] := rfl
  have hh : (['/'] : List Char).head? = some '/' := rfl
  rw [if_pos hh, hs]
  cases fs.fuel <;> simp [walk, walkRest]

/-- The first page: of several systems their list; of one, its own. -/
theorem root_page {β : Type} (s : Srv β) (u : Url) (hu : u.Simple) (hp : u.path = ['/']) :
    (1 < s.nodes.length → u.query = [] → s.get u = .nodeList false) ∧
    (∀ n, s.nodes = [n] → s.get u = reply 0 false (n.get false [[]])) := by
  obtain ⟨u1, u2, u3, u4⟩ := hu
  have hf : fileOf [[]] = none := by decide
  have hpg : pageOf [[]] = (false, [[]]) := by decide
  have hm : ([[]] : List Comp).head? ≠ some cMap := by decide
  constructor
  · intro hlen hq
    unfold Srv.get Srv.findnode
    rw [if_neg (by simp [u1, u2, u3, u4]), hp, root_parts]
    simp only [gt_iff_lt, hlen, if_true, if_pos hq, hf, hpg]
    unfold Srv.html
    rw [if_neg (fun h => hm h.2)]
    simp
  · intro n hn
    unfold Srv.get Srv.findnode
    rw [if_neg (by simp [u1, u2, u3, u4]), hp, root_parts]
    simp only [hn, List.length_singleton, gt_iff_lt, Nat.lt_irrefl, if_false, hf, hpg]
    exact html_node s 0 n false [[]] (fun _ => hm)

/-- The pages of the map: itself, its data, nothing else. -/
theorem map_page {β : Type} (s : Srv β) (hmap : s.map = true) (u : Url) (hu : u.Simple) (cs : List Comp)
    (hc : ∀ c ∈ cs, Clean c) (hn : NoNul cs) (hl : Plain s.fs (cMap :: cs)) (hp : u.path = render (cMap :: cs))
    (hs : s.nodes.length = 1 ∨ 1 < s.nodes.length ∧ u.query = []) :
    s.get u = if cs = [] then .map false false else if cs = [cData] then .map false true else .error 404 := by
  obtain ⟨u1, u2, u3, u4⟩ := hu
  have hcl : ∀ c ∈ cMap :: cs, Clean c := by
    intro c h
    rcases List.mem_cons.1 h with rfl | h
    · exact ⟨by decide, by decide, by decide, by decide⟩
    · exact hc c h
  have hnn : NoNul (cMap :: cs) := by
    intro c h
    rcases List.mem_cons.1 h with rfl | h
    · decide
    · exact hn c h
  have hparts : s.fs.parts u.path = some (cMap :: cs) := by
    rw [hp]; exact realpath_plain s.fs _ (by simp) hcl hnn hl
  have h1 : cMap ≠ cRobots := by decide
  have h2 : cMap ≠ cResources := by decide
  have h3 : cMap ≠ cM := by decide
  have hf : fileOf (cMap :: cs) = none := by simp [fileOf, h1, h2]
  have hpg : pageOf (cMap :: cs) = (false, cMap :: cs) := by simp [pageOf, h3]
  have hh : ∀ i n, s.html i n false (cMap :: cs) =
      if cs = [] then .map false false else if cs = [cData] then .map false true else .error 404 := by
    intro i n
    unfold Srv.html
    rw [if_pos ⟨hmap, rfl⟩]
    rfl
  unfold Srv.get Srv.findnode
  rw [if_neg (by simp [u1, u2, u3, u4]), hparts]
  rcases hs with hs | ⟨hs, hq⟩
  · match hN : s.nodes, hs with
    | [n], _ =>
      simp only [List.length_singleton, gt_iff_lt, Nat.lt_irrefl, if_false, hf, hpg]
      exact hh _ _
  · simp only [gt_iff_lt, hs, if_true, if_pos hq, hf, hpg]
    exact hh _ _

example : exTwo.get { path := "/".toList, fragment := "x".toList } = .error 400 := by decide +kernel
example : field "a=b=c".toList = some ("a".toList, "b=c".toList) := by decide
example : field "a=".toList = none := by decide
example : exTwo.get { path := "/".toList, query := "system=".toList } =
    exTwo.get { path := "/".toList, query := "x=1".toList } := by decide +kernel
example : ({ exTwo with map := true } : Srv Nat).get { path := "/map/data".toList } = .map false true := by
  decide +kernel
example : ({ exTwo with map := true } : Srv Nat).get { path := "/map".toList } = .map false false := by
  decide +kernel

end Verif.Http
