import Verif.Mapper.Lemmas

/-!
# C115: the dialogue with one node
-/

namespace Verif.Mapper

/-! ## Specification -/

/-- Does this message complete the answer to the request? -/
def Completes (c : Dec) (p : Poller) (msg : List UInt8) : Bool :=
  if p.phase2 then
    match p.resp with
    | none => msg.head? == some 1 && c.count msg == some 0
    | some n => n == 1 && (c.reply p.req msg).isSome
  else match msg.head? with
    | none => false
    | some b => b == 128 || (decide (b ≤ 127) && b != 2 && (c.reply p.req msg).isSome && !p.mult)

/-- Reasons that do not come from the node: 39 is "destination unreachable", 38
"object failed" (session.py:47-48, mapper.py:862). -/
def NotReached (reason : Nat) : Prop := reason = 39 ∨ reason = 38

/-! ## Nothing is recorded of incomplete answers -/

theorem finished_m (e : Env) (w : W) : (w.finished e).m = w.m ∧ (w.finished e).out = w.out := ⟨rfl, rfl⟩

/-- C115.  Whatever a node sends, and however the connection ends, nothing is
recorded but by a message that completes the answer to a request. -/
theorem incomplete_nothing (c : Dec) (e : Env) (full : Bool) (own : Id) (w : W) (i : Itm)
    (hst : w.p.st = .polling)
    (hi : ∀ msg, i = .data msg → Completes c w.p msg = false) :
    (w.item c e full own i).m = w.m ∧ (w.item c e full own i).out = w.out := by
  unfold W.item
  split
  · exact ⟨rfl, rfl⟩
  · cases i with
    | accept d => simp only [hst, W.polling]; exact finished_m e w
    | reject r => simp only [W.polling]; split <;> simp_all [W.finished]
    | disconnect => simp only [W.polling]; split <;> simp_all [W.finished]
    | other => simp only [hst, W.polling]; exact finished_m e w
    | data msg =>
      have h := hi msg rfl
      unfold Completes at h
      simp only [hst, W.polling]
      split
      · next hp =>
        rw [if_pos hp] at h
        unfold W.data2
        simp only
        cases hr : w.p.resp with
        | none =>
          simp only [hr] at h
          cases msg with
          | nil => exact ⟨rfl, rfl⟩
          | cons b r =>
            simp only
            split
            · exact ⟨rfl, rfl⟩
            · next hb =>
              have hb : b = 1 := by simpa using hb
              cases hcnt : c.count (b :: r) with
              | none => exact ⟨rfl, rfl⟩
              | some n =>
                simp only
                have : (n : Int) ≠ 0 := by
                  intro hn
                  have hn : n = 0 := by omega
                  rw [hcnt, hn, hb] at h
                  simp at h
                rw [if_pos this]
                exact ⟨rfl, rfl⟩
        | some n =>
          simp only [hr] at h
          cases hre : c.reply w.p.req msg with
          | none => exact ⟨rfl, rfl⟩
          | some r =>
            simp only
            have : n - 1 ≠ 0 := by
              intro hn
              have hn : n = 1 := by omega
              rw [hn, hre] at h
              simp at h
            rw [if_pos this]
            exact ⟨rfl, rfl⟩
      · next hp =>
        rw [if_neg hp] at h
        unfold W.data4
        cases msg with
        | nil => exact ⟨rfl, rfl⟩
        | cons b r =>
          simp only [List.head?_cons, Bool.or_eq_false_iff, beq_eq_false_iff_ne] at h
          obtain ⟨h1, h2⟩ := h
          simp only
          rw [if_neg h1]
          split
          · exact ⟨rfl, rfl⟩
          · next hb =>
            split
            · split <;> exact ⟨rfl, rfl⟩
            · next hb2 =>
              cases hre : c.reply w.p.req (b :: r) with
              | none => exact ⟨rfl, rfl⟩
              | some x =>
                simp only
                have hle : b ≤ 127 := by
                  have : ¬ (127 : UInt8) < b := hb
                  exact UInt8.not_lt.1 this
                have hm : w.p.mult = true := by
                  rw [hre] at h2
                  simpa [hle, hb2] using h2
                rw [if_pos hm]
                exact ⟨rfl, rfl⟩

/-! ## Nodes that answer -/

/-- C115.  Of an attempt to connect it is recorded that the node was reached,
if it accepts or refuses for any reason of its own; else nothing. -/
theorem reached (c : Dec) (e : Env) (full : Bool) (own : Id) (w : W) (i : Itm)
    (hst : w.p.st = .connecting) (hl : w.p.live = true) :
    let w' := w.item c e full own i
    match i with
    | .accept _ =>
      (∀ r, w'.m.obj r = if r = w.p.cur then { w.m.obj r with it := ((w.m.obj r).it.update true w.p.ts).1 }
        else w.m.obj r) ∧ w'.out = w.out ++ [.saw w.p.cur]
    | .reject reason =>
      (¬ NotReached reason →
        (∀ r, w'.m.obj r = if r = w.p.cur then { w.m.obj r with it := ((w.m.obj r).it.update true w.p.ts).1 }
          else w.m.obj r) ∧ w'.out = w.out ++ [.saw w.p.cur]) ∧
      (NotReached reason → w'.m = w.m ∧ w'.out = w.out)
    | _ => w'.m = w.m ∧ w'.out = w.out := by
  have hl' : (!w.p.live) = false := by simp [hl]
  cases i with
  | accept d =>
    simp only [W.item, hl', hst, W.connecting, W.next]
    have hobj : ∀ r, w.seen.m.obj r = if r = w.p.cur then { w.m.obj r with it := ((w.m.obj r).it.update true w.p.ts).1 }
        else w.m.obj r := by
      intro r
      simp only [W.seen, Map.nodeUpdate, mod_obj]
      split
      · next h => rw [h]
      · rfl
    cases e.sendOk
    · exact ⟨hobj, rfl⟩
    · exact ⟨hobj, rfl⟩
  | reject reason =>
    simp only [W.item, hl', hst, W.connecting]
    refine ⟨fun h => ?_, fun h => ?_⟩
    · have h : ¬ (reason = 39 ∨ reason = 38) := h
      simp only [if_neg h]
      refine ⟨?_, rfl⟩
      intro r
      simp only [W.finished, W.seen, Map.nodeUpdate, Bool.false_eq_true, if_false]
      have : ∀ f : MNode → MNode, (w.m.mod w.p.cur f).obj r = if r = w.p.cur then f (w.m.obj r) else w.m.obj r := by
        intro f; rw [mod_obj]; split
        · next h => rw [h]
        · rfl
      exact this _
    · have h : reason = 39 ∨ reason = 38 := h
      simp only [if_pos h]
      exact ⟨rfl, rfl⟩
  | data d => simp only [W.item, hl', hst, W.connecting]; exact ⟨rfl, rfl⟩
  | disconnect => simp only [W.item, hl', hst, W.connecting]; exact ⟨rfl, rfl⟩
  | other => simp only [W.item, hl', hst, W.connecting]; exact ⟨rfl, rfl⟩

/-! ## Circuits -/

theorem neighbour_keys (full area : Bool) (circ : String) (j : Id) (w : W) :
    (w.neighbour full area circ j).p.cur = w.p.cur ∧
    ∀ k, k ∈ (((w.neighbour full area circ j).m.obj w.p.cur).adj.map Prod.fst) ↔
      k ∈ ((w.m.obj w.p.cur).adj.map Prod.fst) ∨ k = (circ, j) := by
  have hk : ∀ k, k ∈ (((w.m.adjUpdate w.p.cur circ j true w.p.ts).1.obj w.p.cur).adj.map Prod.fst) ↔
      k ∈ ((w.m.obj w.p.cur).adj.map Prod.fst) ∨ k = (circ, j) := by
    intro k
    simp only [Map.adjUpdate, mod_obj, if_true, put_keys]
    split
    · next h =>
      constructor
      · exact Or.inl
      · rintro (h1 | h1)
        · exact h1
        · rw [h1]; exact h
    · simp
  refine ⟨by simp only [W.neighbour]; split <;> rfl, ?_⟩
  intro k
  simp only [W.neighbour]
  split
  · simp only [mod_obj, if_true]; exact hk k
  · exact hk k

/-- C115.  When the answer about the circuits of a later node is complete, its
neighbours in the map are those that were reported, and those that were there
before on circuits that were reported (with this neighbour or another, or
none); entries of circuits that were not reported are removed. -/
theorem circuits_recorded (c : Dec) (e : Env) (full : Bool) (own : Id) (w : W) (x : List UInt8)
    (hst : w.p.st = .polling) (hl : w.p.live = true) (h2 : w.p.phase2 = false)
    (hreq : w.p.req = .knocirc) (k : String × Id) :
    k ∈ (((w.item c e full own (.data (128 :: x))).m.obj w.p.cur).adj.map Prod.fst) ↔
      (∃ r ∈ w.p.replies, r.circ = k.1 ∧ r.adjacent = some k.2) ∨
      (k ∈ ((w.m.obj w.p.cur).adj.map Prod.fst) ∧ ∃ r ∈ w.p.replies, r.circ = k.1) := by
  have hl' : (!w.p.live) = false := by simp [hl]
  have e1 : w.item c e full own (.data (128 :: x)) = w.procknocirc e full own w.p.replies := by
    simp [W.item, hl, hst, W.polling, h2, W.data4, W.handle, hreq]
  rw [e1]
  unfold W.procknocirc
  simp only
  generalize hrs : w.p.replies = rs
  have hfold : ∀ (rs : List Reply) (w : W),
      (rs.foldl (fun w r => match r.adjacent with
        | none => w
        | some j => w.neighbour full true r.circ j) w).p.cur = w.p.cur ∧
      ∀ k, k ∈ (((rs.foldl (fun w r => match r.adjacent with
        | none => w
        | some j => w.neighbour full true r.circ j) w).m.obj w.p.cur).adj.map Prod.fst) ↔
        k ∈ ((w.m.obj w.p.cur).adj.map Prod.fst) ∨ ∃ r ∈ rs, r.circ = k.1 ∧ r.adjacent = some k.2 := by
    intro rs
    induction rs with
    | nil => intro w; simp
    | cons r q ih =>
      intro w
      rw [List.foldl_cons]
      cases ha : r.adjacent with
      | none =>
        simp only
        refine ⟨(ih w).1, fun k => ?_⟩
        rw [(ih w).2 k]
        simp [ha]
      | some j =>
        simp only
        obtain ⟨n1, n2⟩ := neighbour_keys full true r.circ j w
        obtain ⟨i1, i2⟩ := ih (w.neighbour full true r.circ j)
        refine ⟨i1.trans n1, fun k => ?_⟩
        rw [n1] at i2
        rw [i2 k, n2 k]
        constructor
        · rintro ((h | h) | ⟨r', h3, h4⟩)
          · exact Or.inl h
          · exact Or.inr ⟨r, by simp, by rw [h], by rw [h]; exact ha⟩
          · exact Or.inr ⟨r', by simp [h3], h4⟩
        · rintro (h | ⟨r', h3, h4, h5⟩)
          · exact Or.inl (Or.inl h)
          · rcases List.mem_cons.1 h3 with h3 | h3
            · subst h3
              rw [ha] at h5
              refine Or.inl (Or.inr ?_)
              injection h5 with h5
              rw [h4, h5]
            · exact Or.inr ⟨r', h3, h4, h5⟩
  generalize hw1 : (rs.foldl (fun w r => match r.adjacent with
        | none => w
        | some j => w.neighbour full true r.circ j) w) = w1
  have hmain : k ∈ (((w1.m.mod w1.p.cur fun n =>
      { n with adj := n.adj.filter fun a => (rs.map Reply.circ).contains a.1.1 }).obj w.p.cur).adj.map Prod.fst) ↔
      (∃ r ∈ rs, r.circ = k.1 ∧ r.adjacent = some k.2) ∨
      (k ∈ ((w.m.obj w.p.cur).adj.map Prod.fst) ∧ ∃ r ∈ rs, r.circ = k.1) := by
    obtain ⟨f1, f2⟩ := hfold rs w
    rw [hw1] at f1 f2
    simp only [f1, mod_obj, if_true]
    have : ∀ d : List ((String × Id) × Item), (k ∈ (d.filter fun a => (rs.map Reply.circ).contains a.1.1).map Prod.fst ↔
        k ∈ d.map Prod.fst ∧ ∃ r ∈ rs, r.circ = k.1) := by
      intro d
      simp only [List.mem_map, List.mem_filter, List.contains_iff_mem]
      constructor
      · rintro ⟨a, ⟨h1, r, h3, h4⟩, rfl⟩
        exact ⟨⟨a, h1, rfl⟩, r, h3, h4⟩
      · rintro ⟨⟨a, h1, rfl⟩, r, h3, h4⟩
        exact ⟨a, ⟨h1, r, h3, h4⟩, rfl⟩
    rw [this, f2 k]
    constructor
    · rintro ⟨h1 | h1, h3⟩
      · exact Or.inr ⟨h1, h3⟩
      · exact Or.inl h1
    · rintro (⟨r, h1, h3, h4⟩ | ⟨h1, h3⟩)
      · exact ⟨Or.inr ⟨r, h1, h3, h4⟩, r, h1, h3⟩
      · exact ⟨Or.inl h1, h3⟩
  split
  · exact hmain
  · unfold W.next; split <;> exact hmain

/-! ## Messages that are not answered -/

/-- C115.  After an empty message, or a second header, the poller pays no
attention to anything more the node sends; when its timer expires it reports
what it has. -/
theorem hung (c : Dec) (e : Env) (full : Bool) (own : Id) (w : W) (msg : List UInt8)
    (hst : w.p.st = .polling) (ht : w.p.timer = true)
    (hm : (msg = [] ∧ (w.p.phase2 = true → w.p.resp = none)) ∨
      (w.p.phase2 = false ∧ msg.head? = some 2 ∧ w.p.replies ≠ []))
    (is : List (Env × Itm)) :
    let w' := w.item c e full own (.data msg)
    let w'' := is.foldl (fun w i => w.item c i.1 full own i.2) w'
    (w.p.live = true → w'' = { w with p := { w.p with live := false } }) ∧
    (w.p.live = true → (w''.timeout e).q = w.q ++ [(w.p.id, w.p.todo)] ∧ (w''.timeout e).m = w.m) := by
  have h1 : w.p.live = true → w.item c e full own (.data msg) = { w with p := { w.p with live := false } } := by
    intro hl
    rcases hm with ⟨hm, hr⟩ | ⟨h2, hh, hr⟩
    · subst hm
      cases hp : w.p.phase2 with
      | true => simp [W.item, hl, hst, W.polling, hp, W.data2, hr hp, W.raise]
      | false => simp [W.item, hl, hst, W.polling, hp, W.data4, W.raise]
    · cases msg with
      | nil => simp at hh
      | cons b r =>
        simp only [List.head?_cons, Option.some.injEq] at hh
        subst hh
        simp [W.item, hl, hst, W.polling, h2, W.data4, W.raise, hr]
  have h2 : ∀ (is : List (Env × Itm)) (w : W), w.p.live = false →
      is.foldl (fun w i => w.item c i.1 full own i.2) w = w := by
    intro is
    induction is with
    | nil => intro w _; rfl
    | cons i r ih =>
      intro w hl
      rw [List.foldl_cons]
      have : w.item c i.1 full own i.2 = w := by simp [W.item, hl]
      rw [this]; exact ih w hl
  intro w' w''
  have h3 : w.p.live = true → w'' = { w with p := { w.p with live := false } } := by
    intro hl
    show is.foldl _ w' = _
    have : w' = { w with p := { w.p with live := false } } := h1 hl
    rw [this]
    exact h2 is _ rfl
  refine ⟨h3, fun hl => ?_⟩
  rw [h3 hl]
  simp [W.timeout, ht, hst, W.finished]

/-- C115, what is not so: that a poller reports once.  An error reply, to which
the poller disconnects; the node has disconnected just before, so that the
call fails, and the disconnect arrives afterwards. -/
theorem two_reports :
    let w : W := { m := { obj := fun _ => { id := 0, name := "" }, next := 0, nodes := [], names := [] }
                   p := { ts := 1, cur := 0, id := 1026, st := .polling, conn := true, live := true, timer := true } }
    let c : Dec := { reply := fun _ _ => none, count := fun _ => none }
    ((w.item c { discOk := false } true 1025 (.data [255])).item c {} true 1025 .disconnect).q =
      [(1026, []), (1026, [])] := by
  decide

/-! ## Cases -/

/-- A poller of node 1.1, at its circuits. -/
def exPoll : W where
  m := { obj := fun _ => { id := 1025, name := "", adj := [(("A", 1026), {}), (("B", 1027), {}), (("C", 1028), {})] }
         next := 1, nodes := [(1025, 0)], names := [] }
  p := { ts := 9, cur := 0, id := 1025, st := .polling, conn := true, live := true, timer := true
         req := .knocirc, mult := true, replies := [{ circ := "A", adjacent := some 1030 }, { circ := "B" }] }

example : (((exPoll.item { reply := fun _ _ => none, count := fun _ => none } {} true 1025 (.data [128])).m.obj 0).adj.map
    Prod.fst) = [("A", 1026), ("B", 1027), ("A", 1030)] := by decide

example : Completes { reply := fun _ _ => none, count := fun _ => none } exPoll.p [128] = true ∧
    Completes { reply := fun _ _ => none, count := fun _ => none } exPoll.p [3] = false ∧
    Completes { reply := fun _ _ => some {}, count := fun _ => none } exPoll.p [1] = false ∧
    exPoll.p.st = .polling := by decide

example : exPoll.p.st = .polling ∧ exPoll.p.timer = true ∧ exPoll.p.phase2 = false ∧
    exPoll.p.replies ≠ [] := by decide

end Verif.Mapper
