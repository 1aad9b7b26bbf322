import Verif.Http.Model

/-!
# C122, C123: what the monitor answers
-/

namespace Verif.Http

/-! ## Specification -/

/-- A component that names something in a directory. -/
def Clean (c : Comp) : Prop := c ≠ [] ∧ c ≠ ['.'] ∧ c ≠ ['.', '.'] ∧ '/' ∉ c

/-- How a list of components is written. -/
def render (cs : List Comp) : List Char := cs.flatMap fun c => '/' :: c

/-- No symbolic link on the way, by the server's own file system. -/
def Plain (fs : Fs) (cs : List Comp) : Prop := ∀ p, p <+: cs → fs.link p = none

/-- Can be written in a request that raises nothing. -/
def NoNul (cs : List Comp) : Prop := ∀ c ∈ cs, Char.ofNat 0 ∉ c

/-- An address with nothing but path and query. -/
def Url.Simple (u : Url) : Prop := u.scheme = [] ∧ u.netloc = [] ∧ u.params = [] ∧ u.fragment = []

/-! ## Lemmas -/

theorem split_slashless (l : List Char) : ∀ c ∈ split l, '/' ∉ c := by
  induction l with
  | nil => simp [split]
  | cons a r ih =>
    intro c hc
    simp only [split] at hc
    split at hc
    · rcases List.mem_cons.1 hc with rfl | hc
      · simp
      · exact ih c hc
    · rename_i ha
      split at hc
      · simp only [List.mem_singleton] at hc
        subst hc
        simpa using Ne.symm ha
      · rename_i b q hb
        rw [hb] at ih
        rcases List.mem_cons.1 hc with rfl | hc
        · have := ih b (by simp)
          simp only [List.mem_cons, not_or]
          exact ⟨Ne.symm ha, this⟩
        · exact ih c (by simp [hc])

theorem push_clean {path : List Comp} {c : Comp} (hp : ∀ x ∈ path, Clean x) (hc : '/' ∉ c) :
    ∀ x ∈ push path c, Clean x := by
  intro x hx
  simp only [push] at hx
  split at hx
  · exact hp x hx
  · rename_i h1
    split at hx
    · exact hp x (List.dropLast_subset _ hx)
    · rename_i h2
      rcases List.mem_append.1 hx with hx | hx
      · exact hp x hx
      · simp only [List.mem_singleton] at hx
        subst hx
        exact ⟨fun h => h1 (Or.inl h), fun h => h1 (Or.inr h), h2, hc⟩

theorem foldl_push_clean (l : List Comp) : ∀ path : List Comp, (∀ x ∈ path, Clean x) → (∀ c ∈ l, '/' ∉ c) →
    ∀ x ∈ l.foldl push path, Clean x := by
  induction l with
  | nil => intro path hp _; exact hp
  | cons a r ih =>
    intro path hp hl
    exact ih _ (push_clean hp (hl a (by simp))) (fun c hc => hl c (by simp [hc]))

theorem walkRest_clean (link : List Comp → Option (List Char))
    (k : List Comp → Comp → List Char → List Comp → Option (List Comp))
    (hk : ∀ path c t rest x, (∀ x ∈ path, Clean x) → '/' ∉ c → (∀ c ∈ rest, '/' ∉ c) →
      k path c t rest = some x → ∀ y ∈ x, Clean y) (rest : List Comp) :
    ∀ path : List Comp, (∀ x ∈ path, Clean x) → (∀ c ∈ rest, '/' ∉ c) → ∀ r : List Comp,
      walkRest link k path rest = some r → ∀ x ∈ r, Clean x := by
  induction rest with
  | nil => intro path hp _ r h; exact Option.some.inj h ▸ hp
  | cons c q ih =>
    intro path hp hl r h
    have hq : ∀ c ∈ q, '/' ∉ c := fun c hc => hl c (by simp [hc])
    simp only [walkRest] at h
    split at h
    · exact ih path hp hq r h
    · rename_i h1
      split at h
      · exact ih _ (fun x hx => hp x (List.dropLast_subset _ hx)) hq r h
      · rename_i h2
        split at h
        · cases h
        · split at h
          · refine ih _ ?_ hq r h
            have := push_clean hp (hl c (by simp))
            simpa only [push, if_neg h1, if_neg h2] using this
          · exact hk _ _ _ _ _ hp (hl c (by simp)) hq h

theorem walk_clean (link : List Comp → Option (List Char)) (fuel : Nat) : ∀ (path rest : List Comp),
    (∀ x ∈ path, Clean x) → (∀ c ∈ rest, '/' ∉ c) → ∀ r : List Comp,
    walk link fuel path rest = some r → ∀ x ∈ r, Clean x := by
  induction fuel with
  | zero =>
    intro path rest hp hl r h
    refine walkRest_clean link _ ?_ rest path hp hl r h
    intro path c t rest x hp hc hr hx
    rw [← Option.some.inj hx]
    exact foldl_push_clean (c :: rest) path hp (by
      intro d hd
      rcases List.mem_cons.1 hd with rfl | hd
      · exact hc
      · exact hr d hd)
  | succ f ih =>
    intro path rest hp hl r h
    refine walkRest_clean link _ ?_ rest path hp hl r h
    intro path c t rest x hp hc hr hx
    refine ih _ _ ?_ ?_ _ hx
    · split
      · simp
      · exact hp
    · intro c hc
      rcases List.mem_append.1 hc with hc | hc
      · exact split_slashless t c hc
      · exact hr c hc

theorem walkRest_plain (fs : Fs) (k : List Comp → Comp → List Char → List Comp → Option (List Comp))
    (rest : List Comp) : ∀ path : List Comp, (∀ c ∈ rest, Clean c) → NoNul rest →
    Plain fs (path ++ rest) → walkRest fs.link k path rest = some (path ++ rest) := by
  induction rest with
  | nil => intro path _ _ _; simp [walkRest]
  | cons c r ih =>
    intro path hc hn hl
    obtain ⟨h1, h2, h3, _⟩ := hc c (by simp)
    have hlink : fs.link (path ++ [c]) = none := hl _ ⟨r, by simp⟩
    rw [walkRest, if_neg (by simp [h1, h2]), if_neg h3, if_neg (hn c (by simp))]
    simp only [hlink]
    rw [ih (path ++ [c]) (fun x hx => hc x (by simp [hx])) (fun x hx => hn x (by simp [hx]))
      (by simpa using hl)]
    simp

theorem walk_plain (fs : Fs) (rest : List Comp) (path : List Comp) (hc : ∀ c ∈ rest, Clean c)
    (hn : NoNul rest) (hl : Plain fs (path ++ rest)) :
    walk fs.link fs.fuel path ([] :: rest) = some (path ++ rest) := by
  cases fs.fuel <;>
  · simp only [walk, walkRest, true_or, if_true]
    exact walkRest_plain fs _ rest path hc hn hl

theorem split_slashless_id (c : List Char) (h : '/' ∉ c) : split c = [c] := by
  induction c with
  | nil => rfl
  | cons a r ih =>
    simp only [List.mem_cons, not_or] at h
    simp only [split, if_neg (Ne.symm h.1), ih h.2]

theorem split_slash (a b : List Char) (h : '/' ∉ a) : split (a ++ '/' :: b) = a :: split b := by
  induction a with
  | nil => simp [split]
  | cons x r ih =>
    simp only [List.mem_cons, not_or] at h
    simp only [List.cons_append, split, if_neg (Ne.symm h.1), ih h.2]

theorem split_render (cs : List Comp) : ∀ c : Comp, '/' ∉ c → (∀ x ∈ cs, '/' ∉ x) →
    split (c ++ render cs) = c :: cs := by
  induction cs with
  | nil => intro c h _; simpa [render] using split_slashless_id c h
  | cons a r ih =>
    intro c h hc
    have : c ++ render (a :: r) = c ++ '/' :: (a ++ render r) := by simp [render]
    rw [this, split_slash _ _ h, ih a (hc a (by simp)) (fun x hx => hc x (by simp [hx]))]

theorem realpath_plain (fs : Fs) (cs : List Comp) (hne : cs ≠ []) (hc : ∀ c ∈ cs, Clean c)
    (hn : NoNul cs) (hl : Plain fs cs) : fs.parts (render cs) = some cs := by
  have hs : split (render cs) = [] :: cs := by
    have := split_render cs [] (by simp) (fun x hx => (hc x hx).2.2.2)
    simpa using this
  have hh : (render cs).head? = some '/' := by
    cases cs with
    | nil => exact absurd rfl hne
    | cons a r => simp [render]
  unfold Fs.parts Fs.realpath
  rw [hh, if_pos rfl, hs, walk_plain fs cs [] hc hn (by simpa using hl)]
  simp [hne]

theorem parts_clean (fs : Fs) (hcwd : ∀ c ∈ fs.cwd, Clean c) (p : List Char) (cs : List Comp)
    (h : fs.parts p = some cs) : cs = [[]] ∨ ∀ c ∈ cs, Clean c := by
  unfold Fs.parts at h
  cases hr : fs.realpath p with
  | none => rw [hr] at h; cases h
  | some r =>
    rw [hr] at h
    simp only [Option.map_some, Option.some.injEq] at h
    subst h
    split
    · exact Or.inl rfl
    · right
      refine walk_clean _ _ _ _ ?_ (split_slashless p) _ hr
      split
      · simp
      · exact hcwd

theorem findnode_parts {β : Type} {s : Srv β} {u : Url} {i : Nat} {n : Option (Node β)} {ps : List Comp}
    (h : s.findnode u = .ok i n ps) : s.fs.parts u.path = some ps := by
  unfold Srv.findnode at h
  split at h
  · cases h
  · cases hp : s.fs.parts u.path with
    | none => rw [hp] at h; cases h
    | some q =>
      rw [hp] at h
      simp only at h
      split at h
      · split at h
        · cases h; rfl
        · split at h
          · cases h
          · split at h <;> cases h; rfl
      · split at h <;> cases h; rfl

/-! ## C122: files -/

theorem html_not_file {β : Type} (s : Srv β) (i : Nat) (n : Option (Node β)) (m : Bool) (ps : List Comp)
    (b : Bytes) : s.html i n m ps ≠ .file b := by
  unfold Srv.html
  intro h
  split at h
  · split at h
    · cases h
    · split at h <;> cases h
  · split at h
    · split at h <;> cases h
    · split at h <;> cases h

/-- C122.  Whatever the request and whatever symbolic links the server has: a
file that is sent lies under the directory of resources, and no component of
its name leads back up. -/
theorem file_inside {β : Type} (s : Srv β) (hcwd : ∀ c ∈ s.fs.cwd, Clean c) (u : Url) (b : Bytes)
    (h : s.get u = .file b) :
    ∃ f : List Comp, (∀ c ∈ f, Clean c) ∧ s.fs.read (s.resources ++ f) = some b := by
  unfold Srv.get at h
  cases hf : s.findnode u with
  | sent c => rw [hf] at h; cases h
  | raise => rw [hf] at h; cases h
  | ok i n ps =>
    rw [hf] at h
    simp only at h
    cases hfo : fileOf ps with
    | none =>
      rw [hfo] at h
      exact absurd h (html_not_file _ _ _ _ _ _)
    | some f =>
      rw [hfo] at h
      simp only at h
      cases hr : s.fs.read (s.resources ++ f) with
      | none => rw [hr] at h; cases h
      | some b' =>
        rw [hr] at h
        cases h
        refine ⟨f, ?_, hr⟩
        have hrob : ∀ c ∈ [cRobots], Clean c := by
          intro c hc
          simp only [List.mem_singleton] at hc
          subst hc
          exact ⟨by decide, by decide, by decide, by decide⟩
        have hpub : ∀ c ∈ [cPublic, cIndex], Clean c := by
          intro c hc
          simp only [List.mem_cons, List.not_mem_nil, or_false] at hc
          rcases hc with rfl | rfl <;> exact ⟨by decide, by decide, by decide, by decide⟩
        unfold fileOf at hfo
        simp only at hfo
        by_cases h1 : ps.head? = some cRobots
        · rw [if_pos h1] at hfo
          rw [if_pos (by decide), if_neg (by decide)] at hfo
          cases hfo
          exact hrob
        · rw [if_neg h1] at hfo
          by_cases h2 : ps.head? = some cResources
          · rw [if_pos h2] at hfo
            rcases parts_clean s.fs hcwd _ _ (findnode_parts hf) with h3 | h3
            · rw [h3] at h2; exact absurd h2 (by decide)
            · by_cases h4 : ps = [cResources, cPublic]
              · rw [if_pos h4] at hfo
                cases hfo
                exact hpub
              · rw [if_neg h4] at hfo
                cases hfo
                exact fun c hc => h3 c (List.mem_of_mem_tail hc)
          · rw [if_neg h2] at hfo; cases hfo

/-- C122.  A file of the resources is sent under its own name, if nothing in
the server's file system is a link that happens to have the name of the
request. -/
theorem file_served_partial {β : Type} (s : Srv β) (cs : List Comp) (hc : ∀ c ∈ cs, Clean c)
    (hn : NoNul cs) (hl : Plain s.fs (cResources :: cs)) (hne : cs ≠ [cPublic]) (u : Url)
    (hu : u.Simple) (hp : u.path = render (cResources :: cs))
    (hs : s.nodes.length = 1 ∨ 1 < s.nodes.length ∧ u.query = []) :
    s.get u = match s.fs.read (s.resources ++ cs) with
      | some b => .file b
      | none => .error 404 := by
  have hcl : ∀ c ∈ cResources :: cs, Clean c := by
    intro c h
    rcases List.mem_cons.1 h with rfl | h
    · exact ⟨by decide, by decide, by decide, by decide⟩
    · exact hc c h
  have hnn : NoNul (cResources :: cs) := by
    intro c h
    rcases List.mem_cons.1 h with rfl | h
    · decide
    · exact hn c h
  have hparts := realpath_plain s.fs (cResources :: cs) (by simp) hcl hnn hl
  have hfile : fileOf (cResources :: cs) = some cs := by
    have e : (cResources :: cs).head? ≠ some cRobots := by
      rw [List.head?_cons]; decide
    have e2 : (cResources :: cs).head? = some cResources := rfl
    have e3 : cResources :: cs ≠ [cResources, cPublic] := by
      intro h; exact hne (List.cons.inj h).2
    unfold fileOf
    rw [if_neg e, if_pos e2, if_neg e3]
    rfl
  obtain ⟨u1, u2, u3, u4⟩ := hu
  unfold Srv.get Srv.findnode
  rw [if_neg (by simp [u1, u2, u3, u4]), hp, hparts]
  simp only
  rcases hs with h | ⟨h, hq⟩
  · match hnodes : s.nodes, h with
    | [n], _ =>
      simp only [List.length_singleton, gt_iff_lt, Nat.lt_irrefl, if_false, hfile]
      cases s.fs.read (s.resources ++ cs) <;> rfl
  · simp only [gt_iff_lt, h, if_true, hq, hfile]
    cases s.fs.read (s.resources ++ cs) <;> rfl

/-- The directory `public` stands for its index. -/
theorem public_index {β : Type} (s : Srv β) (hl : Plain s.fs [cResources, cPublic]) (u : Url)
    (hu : u.Simple) (hp : u.path = render [cResources, cPublic]) (h : s.nodes.length = 1) :
    s.get u = match s.fs.read (s.resources ++ [cPublic, cIndex]) with
      | some b => .file b
      | none => .error 404 := by
  have hcl : ∀ c ∈ [cResources, cPublic], Clean c := by
    intro c h
    simp only [List.mem_cons, List.not_mem_nil, or_false] at h
    rcases h with rfl | rfl <;> exact ⟨by decide, by decide, by decide, by decide⟩
  have hnn : NoNul [cResources, cPublic] := by
    intro c h
    simp only [List.mem_cons, List.not_mem_nil, or_false] at h
    rcases h with rfl | rfl <;> decide
  have hparts := realpath_plain s.fs _ (by simp) hcl hnn hl
  obtain ⟨u1, u2, u3, u4⟩ := hu
  have hfile : fileOf [cResources, cPublic] = some [cPublic, cIndex] := by decide
  unfold Srv.get Srv.findnode
  rw [if_neg (by simp [u1, u2, u3, u4]), hp, hparts]
  simp only
  match hnodes : s.nodes, h with
  | [n], _ =>
    simp only [List.length_singleton, gt_iff_lt, Nat.lt_irrefl, if_false, hfile]
    cases s.fs.read (s.resources ++ [cPublic, cIndex]) <;> rfl

/-! ### What is not so -/

/-- A server with one node, one file and a link. -/
def exSrv (link : List Comp → Option (List Char)) (cwd : List Comp) : Srv Nat where
  nodes := [{ name := ['A'], get := fun _ _ => .missing }]
  map := false
  resources := [['s', 'r', 'v']]
  fs := { link := link, read := fun p => if p = [['s', 'r', 'v'], ['x']] then some [1] else none,
          cwd := cwd, fuel := 10 }
  unq := id
  up := id

example : (exSrv (fun _ => none) []).get { path := "/resources/x".toList } = .file [1] := by
  decide +kernel

/-- C122, what is not so: that what is sent depends on the resources and the
request alone.  The name of the request is looked up in the server's file
system from its root: with a link `/resources` no resource can be had. -/
theorem link_hides :
    (exSrv (fun p => if p = [cResources] then some "/usr/share/r".toList else none) []).get
      { path := "/resources/x".toList } = .error 404 ∧
    (exSrv (fun _ => none) []).get { path := "/resources/x".toList } = .file [1] := by
  decide +kernel

/-- Likewise a link elsewhere gives other names to the resources. -/
theorem link_renames :
    (exSrv (fun p => if p = [['t']] then some "/resources".toList else none) []).get
      { path := "/t/x".toList } = .file [1] := by
  decide +kernel

/-- A request that does not begin with a slash is not refused (the check for
it never fails): it is taken from the server's current directory. -/
theorem relative_taken :
    (exSrv (fun _ => none) [cResources]).get { path := "x".toList } = .file [1] := by
  decide +kernel

/-- Dots are removed before anything else. -/
example : (exSrv (fun _ => none) []).get { path := "/../resources/../resources/./x".toList } = .file [1] := by
  decide +kernel

end Verif.Http
