import Verif.Pmr.Lemmas

/-!
# Routes through several nodes (C97)
-/

namespace Verif.Pmr

theorem number_value (u : Uni) (s : Str) (h : Digits s) : number u s = valueOf s := by
  unfold number valueOf
  have : ∀ a : Nat, ∀ s : Str, (∀ c ∈ s, 48 ≤ c ∧ c ≤ 57) →
      s.foldl (fun a c => 10 * a + u.value c) a = s.foldl (fun a c => 10 * a + (c - 48)) a := by
    intro a s
    induction s generalizing a with
    | nil => intro _; rfl
    | cons c s ih =>
      intro hs
      have hc := hs c (by simp)
      simp only [List.foldl_cons]
      rw [u.ascii_value c hc.1 hc.2]
      exact ih _ fun d hd => hs d (by simp [hd])
  exact this 0 s h.2

theorem dec_digits (n : Nat) : Digits (dec n) ∧ valueOf (dec n) = n := by
  induction n using Nat.strongRecOn with
  | _ n ih =>
    unfold dec
    split
    · rename_i h
      refine ⟨⟨by simp, ?_⟩, ?_⟩
      · intro c hc; simp at hc; omega
      · simp [valueOf]
    · rename_i h
      obtain ⟨h1, h2⟩ := ih (n / 10) (by omega)
      refine ⟨⟨by simp, ?_⟩, ?_⟩
      · intro c hc
        rcases List.mem_append.mp hc with hc | hc
        · exact h1.2 c hc
        · simp at hc; omega
      · unfold valueOf at h2 ⊢
        rw [List.foldl_append, h2]
        simp only [List.foldl_cons, List.foldl_nil]
        omega

/-- Users that can be written in a route. -/
def Usable (u : Uni) : User → Prop
  | .num n => 0 ≤ n
  | .name s => TaskName u s

/-- How a user is written: a number and an equal sign, `TASK=` and a name; quotes may be around a number
and before a task. -/
inductive Written (u : Uni) : User → Str → Prop
  | num {q ds q' : Str} : (∀ c ∈ q, isQuote c = true) → q.length ≤ 1 → (∀ c ∈ q', isQuote c = true) →
      q'.length ≤ 1 → Digits ds → Written u (.num (valueOf ds)) (q ++ (ds ++ 61 :: q'))
  | task {q w t : Str} : (∀ c ∈ q, isQuote c = true) → q.length ≤ 1 → TaskWord w → TaskName u t →
      Written u (.name t) (q ++ (w ++ t))

theorem written_tail {u : Uni} {x : User} {s : Str} (h : Written u x s) : ∃ g, TailIs u (58 :: 58 :: s) g ∧
    ∀ cs rem, (∀ p ∈ cs, p.1 = 1 ∨ p.1 = 2) → given u (g ++ cs) rem = some x := by
  have hnone : ∀ (cs : Caps) n, (∀ p ∈ cs, p.1 = 1 ∨ p.1 = 2) → n = 3 ∨ n = 4 → Caps.get cs n = none := by
    intro cs n hcs hn
    unfold Caps.get
    rw [Option.map_eq_none_iff, List.find?_eq_none]
    intro p hp
    have := hcs p hp
    simp; omega
  cases h with
  | @num q ds q' h1 h2 h3 h4 h5 =>
    refine ⟨_, tail_num u q ds q' h1 h2 h3 h4 h5, ?_⟩
    intro cs rem hcs
    have e4 : Caps.get ([(3, ds)] ++ cs) 4 = none := by
      have := hnone cs 4 hcs (by omega)
      unfold Caps.get at this ⊢
      simpa using this
    have e3 : Caps.get ([(3, ds)] ++ cs) 3 = some ds := by simp [Caps.get]
    unfold given
    rw [e4, e3]
    simp [number_value u ds h5]
  | @task q w t h1 h2 h3 h4 =>
    refine ⟨_, tail_task u q w t h1 h2 h3 h4, ?_⟩
    intro cs rem hcs
    have e4 : Caps.get ([(4, t)] ++ cs) 4 = some t := by simp [Caps.get]
    unfold given
    rw [e4]

/-- The rest of a route as it is sent on: names with two colons between them. -/
def joined : List Str → Str
  | [] => []
  | n :: ns => n ++ segs ns

/-- What `checkpmr` makes of a route, whatever its tail. -/
theorem plan_route (u : Uni) (n : Str) (ns : List Str) (t : Str) (g : Caps) (hn : NodeName n)
    (hns : ∀ m ∈ ns, NodeName m) (ht : TailIs u t g) (hg : ∀ p ∈ g, p.1 = 3 ∨ p.1 = 4) (rem : Option User) (hop : Nat) :
    checkpmr u (n ++ (segs ns ++ t)) rem hop =
      if ns = [] then ⟨n, given u (g ++ [(2, segs ns), (1, n)]) rem, none⟩
      else ⟨n, some (.num 123), some (hop :: joined ns ++ [58, 58] ++
        userPart (given u (g ++ [(2, segs ns), (1, n)]) rem))⟩ := by
  have hget : ∀ i v cs, (∀ p ∈ g, p.1 = 3 ∨ p.1 = 4) → i ≠ 3 → i ≠ 4 → Caps.get cs i = some v →
      Caps.get (g ++ cs) i = some v := by
    intro i v cs hg h3 h4 hc
    unfold Caps.get at hc ⊢
    rw [List.find?_append]
    have : List.find? (fun x => decide (x.1 = i)) g = none := by
      rw [List.find?_eq_none]
      intro p hp
      have := hg p hp
      simp; omega
    rw [this]; simpa using hc
  unfold checkpmr
  rw [match_route u n ns t g hn hns ht]
  have e2 : Caps.get (g ++ [(2, segs ns), (1, n)]) 2 = some (segs ns) :=
    hget 2 _ _ hg (by omega) (by omega) (by simp [Caps.get])
  have e1 : Caps.get (g ++ [(2, segs ns), (1, n)]) 1 = some n :=
    hget 1 _ _ hg (by omega) (by omega) (by simp [Caps.get])
  simp only [e1, e2, Option.getD_some]
  cases ns with
  | nil => simp [segs]
  | cons m ns => simp [segs, joined]

theorem written_caps {u : Uni} {x : User} {s : Str} (h : Written u x s) : ∃ g, TailIs u (58 :: 58 :: s) g ∧
    (∀ p ∈ g, p.1 = 3 ∨ p.1 = 4) ∧
    ∀ n ns rem, given u (g ++ [(2, segs ns), (1, n)]) rem = some x := by
  have h' := h
  cases h with
  | @num q ds q' h1 h2 h3 h4 h5 =>
    refine ⟨_, tail_num u q ds q' h1 h2 h3 h4 h5, by simp, ?_⟩
    intro n ns rem
    simp [given, Caps.get, number_value u ds h5]
  | @task q w t h1 h2 h3 h4 =>
    refine ⟨_, tail_task u q w t h1 h2 h3 h4, by simp, ?_⟩
    intro n ns rem
    simp [given, Caps.get]

/-- A connect to one node, the user written after it. -/
theorem one_node (u : Uni) (n s : Str) (x : User) (hn : NodeName n) (hx : Written u x s) (rem : Option User) (hop : Nat) :
    checkpmr u (n ++ (58 :: 58 :: s)) rem hop = ⟨n, some x, none⟩ := by
  obtain ⟨g, h1, h2, h3⟩ := written_caps hx
  have := plan_route u n [] _ g hn (by simp) h1 h2 rem hop
  rw [if_pos rfl, h3 n [] rem] at this
  simpa [segs] using this

/-- A user as `checkpmr` writes it. -/
theorem userPart_written (u : Uni) (x : User) (h : Usable u x) : Written u x (userPart (some x)) := by
  cases x with
  | num n =>
    obtain ⟨m, rfl⟩ := Int.eq_ofNat_of_zero_le h
    have hd := dec_digits m
    have := Written.num (u := u) (q := []) (q' := []) (by simp) (by simp) (by simp) (by simp) hd.1
    rw [hd.2] at this
    have e : userPart (some (.num (m : Int))) = dec m ++ [61] := by simp [userPart, decInt]
    rw [e]
    simpa using this
  | name s =>
    have := Written.task (u := u) (q := []) (w := [84, 65, 83, 75, 61]) (by simp) (by simp)
      ⟨84, 65, 83, 75, rfl, by simp, by simp, by simp, by simp⟩ h
    simpa [userPart] using this

theorem written_usable {u : Uni} {x : User} {s : Str} (h : Written u x s) : Usable u x := by
  cases h with
  | num => exact Int.natCast_nonneg _
  | task _ _ _ h => exact h

/-- A connect over several nodes: to the first, object 123, with a request that has the other nodes and the
user. -/
theorem several_nodes (u : Uni) (n m : Str) (ns : List Str) (s : Str) (x : User) (hn : NodeName n) (hm : NodeName m)
    (hns : ∀ k ∈ ns, NodeName k) (hx : Written u x s) (rem : Option User) (hop : Nat) :
    checkpmr u (n ++ (segs (m :: ns) ++ (58 :: 58 :: s))) rem hop =
      ⟨n, some (.num 123), some (hop :: (m ++ (segs ns ++ (58 :: 58 :: userPart (some x)))))⟩ := by
  obtain ⟨g, h1, h2, h3⟩ := written_caps hx
  have hall : ∀ k ∈ m :: ns, NodeName k := by
    intro k hk
    rcases List.mem_cons.mp hk with rfl | hk
    · exact hm
    · exact hns k hk
  have := plan_route u n (m :: ns) _ g hn hall h1 h2 rem hop
  rw [this, if_neg (by simp), h3]
  simp [joined]

/-- Where a request of a relay leads: over the nodes in it, to the user at the last. -/
theorem relay_route (u : Uni) (x : User) (hu : Usable u x) : ∀ (ns : List Str) (m : Str) (hop k : Nat), NodeName m →
    (∀ n ∈ ns, NodeName n) → ns.length ≤ k →
    travel u k (relay u (hop :: (m ++ (segs ns ++ (58 :: 58 :: userPart (some x))))))
      = ((m :: ns).dropLast.map fun n => (n, some (.num 123))) ++ [((m :: ns).getLast (by simp), some x)] := by
  intro ns
  induction ns with
  | nil =>
    intro m hop k hm _ _
    have h := one_node u m _ x hm (userPart_written u x hu) none (hop + 1)
    simp only [relay, segs, List.nil_append]
    rw [h]
    cases k <;> simp [travel]
  | cons n ns ih =>
    intro m hop k hm hns hk
    have hn := hns n (by simp)
    have hns' : ∀ k ∈ ns, NodeName k := fun k hk => hns k (by simp [hk])
    have h := several_nodes u m n ns _ x hm hn hns' (userPart_written u x hu) none (hop + 1)
    cases k with
    | zero => simp at hk
    | succ k =>
      simp only [relay]
      rw [h]
      simp only [travel]
      rw [ih n (hop + 1) k hn hns' (by simpa using hk)]
      simp

/-- A route is followed: the connects made for it go to its nodes in order, to the relay (object 123) at
all but the last and to the user at the last, nowhere else.  What is missing from the property: a quote
after a task (`quote_kept`), a route without a user (`no_user`), and that a relay never accepts
(`never_accepts`). -/
theorem route_followed_partial (u : Uni) (n : Str) (ns : List Str) (s : Str) (x : User) (hn : NodeName n)
    (hns : ∀ m ∈ ns, NodeName m) (hx : Written u x s) (rem : Option User) (hop k : Nat) (hk : ns.length ≤ k) :
    travel u k (checkpmr u (n ++ (segs ns ++ (58 :: 58 :: s))) rem hop)
      = ((n :: ns).dropLast.map fun n => (n, some (.num 123))) ++ [((n :: ns).getLast (by simp), some x)] := by
  cases ns with
  | nil =>
    have h := one_node u n s x hn hx rem hop
    simp only [segs, List.nil_append]
    rw [h]
    cases k <;> simp [travel]
  | cons m ns =>
    have hm := hns m (by simp)
    have hns' : ∀ k ∈ ns, NodeName k := fun k hk => hns k (by simp [hk])
    rw [several_nodes u n m ns s x hn hm hns' hx rem hop]
    cases k with
    | zero => simp at hk
    | succ k =>
      simp only [travel]
      rw [relay_route u x (written_usable hx) ns m hop k hm hns' (by simpa using hk)]
      simp

/-- The user may be given apart from the route. -/
theorem route_with_user (u : Uni) (n m : Str) (ns : List Str) (x : User) (hn : NodeName n) (hm : NodeName m)
    (hns : ∀ k ∈ ns, NodeName k) (t : Str) (ht : t = [] ∨ t = [58, 58]) (hop : Nat) :
    checkpmr u (n ++ (segs (m :: ns) ++ t)) (some x) hop =
      ⟨n, some (.num 123), some (hop :: (m ++ (segs ns ++ (58 :: 58 :: userPart (some x)))))⟩ ∧
    checkpmr u (n ++ t) (some x) hop = ⟨n, some x, none⟩ := by
  have hall : ∀ k ∈ m :: ns, NodeName k := by
    intro k hk
    rcases List.mem_cons.mp hk with rfl | hk
    · exact hm
    · exact hns k hk
  have htl : TailIs u t [] := by
    rcases ht with rfl | rfl
    · exact tail_nil u
    · exact tail_bare u
  have h1 := plan_route u n (m :: ns) t [] hn hall htl (by simp) (some x) hop
  have h2 := plan_route u n [] t [] hn (by simp) htl (by simp) (some x) hop
  rw [h1, if_neg (by simp)]
  constructor
  · simp [joined, given, Caps.get]
  · simpa [segs, given, Caps.get] using h2

/-! ## The answers -/

theorem hop1_name (n r : Str) (hn : NodeName n) (hr : Ends r) : hop1 (n ++ r) = n := by
  have : ∀ c ∈ n, c ≠ 58 := by intro c hc; have := hn.2 c hc; omega
  clear hn
  induction n with
  | nil =>
    rcases hr with rfl | ⟨s, rfl⟩ <;> simp [hop1]
  | cons c n ih =>
    simp only [List.cons_append, hop1]
    rw [if_neg (this c (by simp)), ih fun d hd => this d (by simp [hd])]

/-- The answers of the relays along a route, from the last back to the first. -/
def answers : List Str → Str → Option Str
  | [], _ => none
  | n :: ns, t => some (relayAnswer (n ++ (segs ns ++ t)) (answers ns t))

/-- The names with two colons after each. -/
def trail : List Str → Str
  | [] => []
  | n :: ns => n ++ 58 :: 58 :: trail ns

/-- The answer that comes back over a route that was connected all the way: code 1 and the nodes
behind the first relay, in order. -/
theorem answer_lists_route (n : Str) (ns : List Str) (t : Str) (hns : ∀ m ∈ n :: ns, NodeName m) (ht : Ends t) :
    answers (n :: ns) t = some (1 :: trail (n :: ns)) := by
  induction ns generalizing n with
  | nil =>
    simp only [answers, relayAnswer, trail]
    rw [hop1_name n _ (hns n (by simp)) (ends_segs ht)]
    simp
  | cons m ns ih =>
    have h := ih m (fun k hk => hns k (List.mem_cons_of_mem _ hk))
    unfold answers
    rw [h]
    simp only [relayAnswer]
    rw [hop1_name n _ (hns n (by simp)) (ends_segs ht)]
    simp [trail]

theorem afterLast_append (a b : Str) (h : ∃ r, afterLast b = some r) : afterLast (a ++ b) = afterLast b := by
  obtain ⟨r, hr⟩ := h
  induction a with
  | nil => rfl
  | cons c a ih => simp only [List.cons_append, afterLast, ih, hr]

/-- It is an accept without data. -/
theorem answer_accepts (n : Str) (ns : List Str) : parseResponse (1 :: trail (n :: ns)) = .accepted [] := by
  have : ∀ n : Str, ∀ ns, afterLast (trail (n :: ns)) = some [] := by
    intro n ns
    induction ns generalizing n with
    | nil => simp only [trail]; rw [afterLast_append _ _ ⟨[], by decide⟩]; decide
    | cons m ns ih =>
      have h : afterLast (58 :: 58 :: trail (m :: ns)) = some [] := by simp [afterLast, ih m]
      rw [trail, afterLast_append _ _ ⟨[], h⟩, h]
  simp [parseResponse, afterLast, this]

/-- Code 2 is a reject with the text of the relay. -/
theorem reject_text (s : Str) : parseResponse (2 :: s) = .rejected s := by simp [parseResponse]

/-! ## What goes wrong -/

/-- A success without a colon raises an exception. -/
theorem short_success_raises : parseResponse [1] = .raises := by decide

/-- A quote after a task is taken as part of its name. -/
theorem quote_kept (u : Uni) (n t : Str) (hn : NodeName n) (ht : TaskName u t) (hop : Nat) :
    checkpmr u (n ++ (58 :: 58 :: 34 :: ([84, 65, 83, 75, 61] ++ (t ++ [34])))) none hop
      = ⟨n, some (.name (t ++ [34])), none⟩ := by
  have hs : u.space 34 = false := by
    cases h : u.space 34
    · rfl
    · have := (u.ascii_space 34 (by omega)).mp h; omega
  have hq : TaskName u (t ++ [34]) := by
    refine ⟨by simp, ?_⟩
    intro c hc
    rcases List.mem_append.mp hc with hc | hc
    · exact ht.2 c hc
    · simp at hc; rw [hc]; exact hs
  have := one_node u n ([34] ++ ([84, 65, 83, 75, 61] ++ (t ++ [34]))) (.name (t ++ [34])) hn
    (.task (by simp [isQuote]) (by simp) ⟨84, 65, 83, 75, rfl, by simp, by simp, by simp, by simp⟩ hq) none hop
  simpa using this

/-- A route without a user is completed with the task `None`. -/
theorem no_user (u : Uni) (n m : Str) (hn : NodeName n) (hm : NodeName m) (hop : Nat) :
    travel u 1 (checkpmr u (n ++ (58 :: 58 :: m)) none hop)
      = [(n, some (.num 123)), (m, some (.name [78, 111, 110, 101]))] := by
  have h := plan_route u n [m] [] [] hn (by simpa using hm) (tail_nil u) (by simp) none hop
  have e : n ++ (segs [m] ++ []) = n ++ (58 :: 58 :: m) := by simp [segs]
  rw [e] at h
  rw [h, if_neg (by simp)]
  have hs : ∀ c, c = 78 ∨ c = 111 ∨ c = 110 ∨ c = 101 → u.space c = false := by
    intro c hc
    cases hh : u.space c
    · rfl
    · have := (u.ascii_space c (by omega)).mp hh; omega
  have hN : TaskName u [78, 111, 110, 101] := by
    refine ⟨by simp, ?_⟩
    intro c hc; simp at hc; exact hs c hc
  have h2 := one_node u m ([] ++ ([84, 65, 83, 75, 61] ++ [78, 111, 110, 101])) (.name [78, 111, 110, 101]) hm
    (.task (by simp) (by simp) ⟨84, 65, 83, 75, rfl, by simp, by simp, by simp, by simp⟩ hN) none (hop + 1)
  simp only [travel, joined, segs, given, Caps.get, userPart]
  simp only [relay]
  have e2 : checkpmr u (m ++ [58, 58, 84, 65, 83, 75, 61, 78, 111, 110, 101]) none (hop + 1)
      = ⟨m, some (.name [78, 111, 110, 101]), none⟩ := by simpa using h2
  simp [e2]

/-- A relay never accepts the connection made to it, whatever comes, so a route over it is never used: the
connection stays as it is until the other end gives up. -/
theorem never_accepts (u : Uni) (msgs : List In) : .accept ∉ route u msgs ∧
    (msgs = [] → route u msgs = []) := by
  unfold route
  split
  · simp
  · constructor
    · split <;> simp
    · simp
  · simp

/-! ## Examples -/

/-- Tables with ASCII only. -/
def asciiTables : Uni where
  digit c := 48 ≤ c && c ≤ 57
  value c := c - 48
  space c := c == 32 || (9 ≤ c && c ≤ 13) || (28 ≤ c && c ≤ 31)
  ascii_digit c _ := by simp
  ascii_value c _ _ := rfl
  ascii_space c _ := by simp [or_assoc]

/-- `A::B.1::25=`. -/
example : travel asciiTables 5 (checkpmr asciiTables [65, 58, 58, 66, 46, 49, 58, 58, 50, 53, 61] none 0)
    = [([65], some (.num 123)), ([66, 46, 49], some (.num 25))] := by decide +kernel

/-- Not a route: the connect is made as it stands. -/
example : checkpmr asciiTables [65, 95, 66] (some (.num 25)) 0 = ⟨[65, 95, 66], some (.num 25), none⟩ := by
  decide +kernel

example : NodeName [66, 46, 49] ∧ Digits [50, 53] ∧ TaskName asciiTables [70] := by
  refine ⟨⟨by simp, by simp⟩, ⟨by simp, by simp⟩, ⟨by simp, by decide⟩⟩

end Verif.Pmr
