import Verif.Mapper.Hist

/-!
# C112, C113: what a scan of the network does

Every history of the mapper, from any map, with whatever the nodes polled
answer and in whatever order.
-/

namespace Verif.Mapper

theorem si_init (C : Prop) (t : Nat) (own : Id) (m : Map) (h : m.Loaded t) :
    SI C t (S.init own m) where
  mi :=
    { refs := h.refs, nodup := h.nodup, names := h.names, keys := h.keys
      times := fun _ => h.times, adjs := fun _ => h.adjs
      stamp := fun _ => Nat.zero_le _
      pos := fun _ hf => by simp [S.init] at hf
      fresh := fun _ hf => by simp [S.init] at hf
      freshA := fun _ hf => by simp [S.init] at hf
      outs := fun r hr => by simp [S.init, since] at hr
      outsA := fun r c j hr => by simp [S.init, since] at hr }
  once := by simp [S.init, polledOf, since]
  idle := fun _ => ⟨rfl, rfl, rfl, rfl, fun p hp => by simp [S.init] at hp⟩
  busy := fun hh => by simp [S.init] at hh
  tmr := fun _ => rfl
  tmrd := fun hh => by simp [S.init] at hh

theorem si_run {C : Prop} (c : Dec) (es : List Ev) : ∀ (T : Nat) (s : S), SI C T s →
    OkAll c s es → (C → Clock T es) → ∃ T', SI C T' (s.run c es) := by
  induction es with
  | nil => intro T s h _ _; exact ⟨T, h⟩
  | cons e r ih =>
    intro T s h hok hc
    obtain ⟨h1, h2⟩ := hok
    have hc' := fun x => (clock_cons T e r).1 (hc x)
    exact ih (tick T e) _ (si_step h c e h1 (fun x => (hc' x).1)).1 h2 (fun x => (hc' x).2)

/-- The clock and the requirements up to some moment. -/
theorem okAll_append (c : Dec) (es : List Ev) (e : Ev) : ∀ s, OkAll c s (es ++ [e]) →
    OkAll c s es ∧ Ok (s.run c es) e := by
  induction es with
  | nil => intro s h; exact ⟨trivial, h.1⟩
  | cons a r ih =>
    intro s h
    obtain ⟨h1, h2⟩ := ih _ h.2
    exact ⟨⟨h.1, h1⟩, h2⟩

theorem si_last {C : Prop} (c : Dec) (es : List Ev) (e : Ev) : ∀ (T : Nat) (s : S), SI C T s →
    OkAll c s (es ++ [e]) → (C → Clock T (es ++ [e])) →
    Shows C (s.run c es) (s.run c (es ++ [e])) := by
  induction es with
  | nil =>
    intro T s h hok hc
    exact (si_step h c e hok.1 (fun x => ((clock_cons T e []).1 (hc x)).1)).2
  | cons a r ih =>
    intro T s h hok hc
    have hc' := fun x => (clock_cons T a (r ++ [e])).1 (hc x)
    exact ih (tick T a) _ (si_step h c a hok.1 (fun x => (hc' x).1)).1 hok.2 (fun x => (hc' x).2)

theorem run_own (c : Dec) (es : List Ev) : ∀ s : S, (s.run c es).own = s.own := by
  have hpop : ∀ l (s : S), (S.pop l s).own = s.own := by
    intro l
    induction l with
    | nil => intro s; rfl
    | cons n r ih =>
      intro s
      rw [S.pop]
      split
      · split
        · exact ih s
        · rw [ih]
      · rfl
  have hnext : ∀ pick (s : S), (s.nextnode pick).own = s.own := by
    intro pick s
    unfold S.nextnode
    simp only
    repeat' split
    all_goals simp only [S.finish, hpop]
  have hcheck : ∀ now iso pick (s : S), (s.check now iso pick).own = s.own := by
    intro now iso pick s
    unfold S.check
    repeat' split
    all_goals simp only [hnext]
  have hidle : ∀ now iso pick (s : S), (s.idle now iso pick).own = s.own := by
    intro now iso pick s
    unfold S.idle
    repeat' split
    all_goals simp only [hcheck]
  have hw : ∀ (s : S) k f, (s.withPoller k f).own = s.own := by
    intro s k f
    unfold S.withPoller
    split <;> rfl
  induction es with
  | nil => intro s; rfl
  | cons e r ih =>
    intro s
    show ((s.step c e).run c r).own = _
    rw [ih]
    cases e with
    | timeout now iso pick => simp only [S.step]; split <;> simp only [hidle]
    | deliver now iso pick =>
      simp only [S.step]
      split
      · rfl
      · unfold S.polldone; split <;> simp only [hnext, hidle]
    | start k => simp only [S.step, hw]
    | item k e i => simp only [S.step, hw]
    | ptimeout k e => simp only [S.step, hw]
    | circ a b c d e => simp only [S.step]; split <;> rfl
    | reach a b c => simp only [S.step]; repeat' split
                     all_goals rfl
    | record n => simp only [S.step]; split <;> rfl
    | dbEnd u => simp only [S.step]; split <;> rfl

/-! ## C112 -/

/-- C112.  At any moment of any history, no node has been polled twice in the
scan that is going on (or that was the latest). -/
theorem polled_once (c : Dec) (own : Id) (m : Map) (t : Nat) (hm : m.Loaded t) (es : List Ev)
    (hok : OkAll c (S.init own m) es) :
    (polledOf ((S.init own m).run c es).out).Nodup := by
  obtain ⟨T, h⟩ := si_run (C := False) c es t _ (si_init False t own m hm) hok (fun x => x.elim)
  exact h.once

/-- C112.  At most twenty polls are going on at a time. -/
theorem at_most_twenty (c : Dec) (own : Id) (m : Map) (t : Nat) (hm : m.Loaded t) (es : List Ev)
    (hok : OkAll c (S.init own m) es) :
    (((S.init own m).run c es).pollers.filter fun p => p.dones = 0).length ≤ 20 := by
  obtain ⟨T, h⟩ := si_run (C := False) c es t _ (si_init False t own m hm) hok (fun x => x.elim)
  generalize (S.init own m).run c es = s at h
  by_cases hst : s.st = .polling
  · obtain ⟨hmid, _⟩ := h.busy hst
    have h1 := hmid.acc.length_eq
    have h2 := hmid.len
    simp only [S.active, List.length_append, List.length_map] at h1
    omega
  · have := active_over (h.idle hst).2.2.2.2
    simp only [S.active, List.map_eq_nil_iff] at this
    rw [this]; simp

/-- C112.  When a full scan ends, the mapper's own node was polled in it, and
every node that was reported as a neighbour, and every node the map has: but
for empty entries made for neighbours that were reported earlier. -/
theorem scan_complete (c : Dec) (own : Id) (m : Map) (t : Nat) (hm : m.Loaded t) (es : List Ev)
    (e : Ev) (hok : OkAll c (S.init own m) (es ++ [e]))
    (hend : EndsFull ((S.init own m).run c es) ((S.init own m).run c (es ++ [e]))) :
    let s := (S.init own m).run c (es ++ [e])
    own ∈ polledOf s.out ∧
    (∀ r circ j, Out.sawAdj r circ j ∈ since s.out → j ∈ polledOf s.out) ∧
    (∀ i r, (i, r) ∈ s.m.nodes → i ∈ polledOf s.out ∨ s.m.obj r = { id := i, name := "" }) := by
  obtain ⟨l, hl, hf⟩ := si_last (C := False) c es e t _ (si_init False t own m hm) hok (fun x => x.elim)
  obtain ⟨l', hl'⟩ := hend
  rw [hl', List.append_assoc] at hl
  have := List.append_cancel_left hl
  have hfe := hf (by rw [← this]; simp)
  refine ⟨?_, hfe.saws, hfe.nodes⟩
  have h1 := hfe.own
  rw [run_own] at h1
  exact h1

/-- C112.  The mapper does not get stuck: while it scans, a report is on its
way, or some poller has not reported and waits for its turn, for the outcome
of its attempt to connect, or for its timer, which runs; else its own timer
runs, or the thread of the update. -/
theorem never_stuck (c : Dec) (own : Id) (m : Map) (t : Nat) (hm : m.Loaded t) (es : List Ev)
    (hok : OkAll c (S.init own m) es) :
    let s := (S.init own m).run c es
    (s.st = .polling → s.queue ≠ [] ∨ ∃ p ∈ s.pollers, p.dones = 0 ∧
      (p.st = .s0 ∨ (p.st = .connecting ∧ p.live = true ∧ p.conn = true) ∨
       (p.st = .polling ∧ p.timer = true))) ∧
    (s.st = .s0 → s.timer = true) ∧ (s.st = .dbupdating → s.thread = true ∨ s.timer = true) := by
  obtain ⟨T, h⟩ := si_run (C := False) c es t _ (si_init False t own m hm) hok (fun x => x.elim)
  generalize (S.init own m).run c es = s at h
  refine ⟨?_, h.tmr, h.tmrd⟩
  intro hst
  obtain ⟨hmid, hne⟩ := h.busy hst
  by_cases hq : s.queue = []
  · right
    have hacc := hmid.acc
    rw [hq] at hacc
    simp only [List.map_nil, List.append_nil] at hacc
    have : s.active ≠ [] := fun hh => by rw [hh] at hacc; exact hne (hacc.symm.eq_nil)
    obtain ⟨i, hi⟩ := List.exists_mem_of_ne_nil _ this
    obtain ⟨p, hp, _⟩ := List.mem_map.1 hi
    obtain ⟨h1, h2⟩ := List.mem_filter.1 hp
    have h3 : p.dones = 0 := by simpa using h2
    rcases hmid.pol p h1 with hpp | hpp
    · exact ⟨p, h1, h3, hpp.waits⟩
    · have := hpp.1; omega
  · exact Or.inl hq

/-! ## C113 -/

/-- C113.  When a full scan ends, the map shows as up exactly those nodes that
answered or were reported reachable in this scan, and of each node exactly
those circuits that were reported up in this scan. -/
theorem scan_result (c : Dec) (own : Id) (m : Map) (t : Nat) (hm : m.Loaded t) (es : List Ev)
    (e : Ev) (hok : OkAll c (S.init own m) (es ++ [e])) (hc : Clock t (es ++ [e]))
    (hend : EndsFull ((S.init own m).run c es) ((S.init own m).run c (es ++ [e]))) :
    let s := (S.init own m).run c (es ++ [e])
    ∀ i r, (i, r) ∈ s.m.nodes →
      ((s.m.obj r).it.up > (s.m.obj r).it.down ↔ Out.saw r ∈ since s.out) ∧
      ∀ a ∈ (s.m.obj r).adj, (a.2.up > a.2.down ↔ Out.sawAdj r a.1.1 a.1.2 ∈ since s.out) := by
  obtain ⟨l, hl, hf⟩ := si_last (C := True) c es e t _ (si_init True t own m hm) hok (fun _ => hc)
  obtain ⟨l', hl'⟩ := hend
  rw [hl', List.append_assoc] at hl
  have := List.append_cancel_left hl
  have hfe := hf (by rw [← this]; simp)
  exact hfe.up trivial

/-! ## A history -/

/-- A map with nothing in it. -/
def noMap : Map := { obj := fun _ => { id := 0, name := "" }, next := 0, nodes := [], names := [] }

theorem noMap_loaded : noMap.Loaded 0 where
  refs := by intro i r h; simp [noMap] at h
  nodup := by simp [noMap]
  names := by intro n r h; simp [noMap] at h
  times := fun _ => ⟨Nat.le_refl _, Nat.le_refl _, Nat.le_refl _⟩
  adjs := by intro r e h; simp [noMap] at h
  keys := by intro r; simp [noMap]

/-- The executor's only circuit leads to node 1.2. -/
def exDec : Dec where
  reply := fun q _ => match q with
    | .knocirc => some { circ := "A", adjacent := some 1026 }
    | _ => some {}
  count := fun _ => none

/-- The mapper (node 1.1) scans its own node and then 1.2, which refuses the
connection. -/
def exScan : List Ev :=
  [.timeout 1 false id, .dbEnd none, .timeout 2 false id,
   .start 0, .item 0 {} (.accept [1]), .item 0 {} (.data [1]), .item 0 {} (.data [1]),
   .deliver 3 false id, .start 1, .item 1 {} (.reject 1)]

/-- The last step. -/
def exEnd : Ev := .deliver 4 false id

theorem picks_id : Picks id := fun _ _ => Iff.rfl

theorem exScan_ok : OkAll exDec (S.init 1025 noMap) (exScan ++ [exEnd]) := by
  refine ⟨picks_id, trivial, picks_id, trivial, ?_, ?_, ?_, picks_id, trivial, ?_, picks_id, trivial⟩
  all_goals
    intro p hp
    rw [← Option.some_inj.1 hp]
    exact ⟨by decide +kernel, by decide +kernel⟩

example : Clock 0 (exScan ++ [exEnd]) := by
  simp [exScan, exEnd, Clock]

/-- The hypotheses of `scan_complete` and `scan_result` hold, and both nodes
and the circuit are shown as up. -/
example : EndsFull ((S.init 1025 noMap).run exDec exScan)
      ((S.init 1025 noMap).run exDec (exScan ++ [exEnd])) ∧
    polledOf ((S.init 1025 noMap).run exDec (exScan ++ [exEnd])).out = [1025, 1026] ∧
    (((S.init 1025 noMap).run exDec (exScan ++ [exEnd])).m.nodes = [(1025, 0), (1026, 1)]) ∧
    (((S.init 1025 noMap).run exDec (exScan ++ [exEnd])).m.obj 1).it = { seen := 2, up := 2 } ∧
    (((S.init 1025 noMap).run exDec (exScan ++ [exEnd])).m.obj 0).adj =
      [(("A", 1026), { seen := 2, up := 2 })] := by
  refine ⟨⟨[], ?_⟩, ?_, ?_, ?_, ?_⟩ <;> decide +kernel

/-! ## What scans miss -/

/-- Events that arrive during a full scan have no effect whatever. -/
theorem full_scan_deaf (c : Dec) (s : S) (h : s.full = true) (up : Bool) (src : Id)
    (circ : String) (adj : Id) (now : Nat) (n : Id) (ok : Bool) :
    s.step c (.circ up src circ adj now) = s ∧ s.step c (.reach n ok now) = s := by
  simp [S.step, h]

/-- C113, what is not so: that the map agrees with the latest report on a node.
Node 1.2 is reported unreachable after it has been polled and before the scan
ends; afterwards it is shown as up. -/
theorem event_lost :
    let es := exScan ++ [.reach 1026 false 3]
    OkAll exDec (S.init 1025 noMap) (es ++ [exEnd]) ∧ Clock 0 (es ++ [exEnd]) ∧
    EndsFull ((S.init 1025 noMap).run exDec es) ((S.init 1025 noMap).run exDec (es ++ [exEnd])) ∧
    (((S.init 1025 noMap).run exDec (es ++ [exEnd])).m.obj 1).it.health 2 = .up ∧
    ((S.init 1025 noMap).run exDec (es ++ [exEnd])).inc = false ∧
    ((S.init 1025 noMap).run exDec (es ++ [exEnd])).todo = [] := by
  refine ⟨?_, by simp [exScan, exEnd, Clock], ⟨[], ?_⟩, ?_, ?_, ?_⟩
  · refine ⟨picks_id, trivial, picks_id, trivial, ?_, ?_, ?_, picks_id, trivial, ?_, trivial, picks_id, trivial⟩
    all_goals
      intro p hp
      rw [← Option.some_inj.1 hp]
      exact ⟨by decide +kernel, by decide +kernel⟩
  all_goals decide +kernel

/-- After the scan: a circuit event, and the incremental scan it causes. -/
def exInc : List Ev :=
  exScan ++ [exEnd, .circ false 1025 "A" 1026 10, .timeout 20 false id,
    .start 2, .item 2 {} (.reject 38), .deliver 21 false id]

/-- C113, what is not so: that an event on a node leads to a poll of that node
after the event.  Node 1.1 has been polled in the incremental scan; then comes
another event; the scan ends, with no further one to come. -/
theorem event_not_polled :
    let es := exInc ++ [.circ true 1025 "A" 1026 22, .start 3, .item 3 {} (.reject 38), .deliver 23 false id]
    let s := (S.init 1025 noMap).run exDec es
    s.st = .s0 ∧ s.todo = [] ∧ s.inc = false ∧
    polledOf s.out = [1025, 1026] ∧
    polledOf ((S.init 1025 noMap).run exDec exInc).out = [1025, 1026] := by
  refine ⟨?_, ?_, ?_, ?_, ?_⟩ <;> decide +kernel

/-- With the clock standing still, the map is wrong after a scan (the second
part of `Clock` is needed): a node that is not seen in the scan is shown as up,
since its latest report has the time stamp of the scan. -/
theorem same_second_scan :
    let es := [.timeout 1 false id, .dbEnd none, .reach 1026 true 1, .timeout 2 false id] ++
      ([.start 0, .item 0 {} (.reject 38), .start 1, .item 1 {} (.reject 39)] : List Ev)
    let m : Map := { noMap with
      obj := fun _ => { id := 1026, name := "", it := { seen := 2, up := 2 } }, next := 1, nodes := [(1026, 0)] }
    let s := (S.init 1025 m).run exDec (es ++ [.deliver 3 false id, .deliver 3 false id])
    s.st = .s0 ∧ (s.m.obj 0).it.health 2 = .up ∧ Out.saw 0 ∉ since s.out := by
  refine ⟨?_, ?_, ?_⟩ <;> decide +kernel

end Verif.Mapper
