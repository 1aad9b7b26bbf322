import Verif.Bridge.Lemmas
/-!
# The bridge: forwarding (C43), learning and ageing (C44)

`T` is the ageing time in clock ticks (60 s, `AddrEnt.Timeout`), any positive number below the size
of the timer wheel.
-/
namespace Verif.Bridge

/-- One more action keeps the invariant. -/
theorem inv_step {T : Nat} {s s1 : State} {log : List Act} {x : Act} (h : Inv T s log) (i : In)
    (hs : step T s i = some (s1, x)) : Inv T s1 (log ++ [x]) ∧ s1.circuits = s.circuits := by
  cases i with
  | frame c pdu =>
    simp only [step, dispatch] at hs
    by_cases hl : pdu.length < 12
    · simp [hl] at hs
    · rw [if_neg hl] at hs
      by_cases hd : dest pdu = source pdu
      · rw [if_pos hd] at hs
        simp at hs
        obtain ⟨rfl, rfl⟩ := hs
        exact ⟨inv_log h (fun a => lastHeard_self a log hd), rfl⟩
      · rw [if_neg hd] at hs
        obtain ⟨s2, g1, g2, g3, g4⟩ := inv_learn h c pdu hd
        rw [g1] at hs
        simp only at hs
        have key : ∃ out, s1 = s2 ∧ x = .frame c pdu out := by
          cases ht : s2.table (dest pdu) with
          | none => simp [ht] at hs; exact ⟨_, hs.1.symm, hs.2.symm⟩
          | some e =>
            by_cases hc : e.circ = c
            · simp [ht, hc] at hs; exact ⟨_, hs.1.symm, hs.2.symm⟩
            · simp [ht, hc] at hs; exact ⟨_, hs.1.symm, hs.2.symm⟩
        obtain ⟨out, rfl, rfl⟩ := key
        exact ⟨g4 out, g2⟩
  | tick =>
    simp only [step, Option.some.injEq, Prod.mk.injEq] at hs
    obtain ⟨rfl, rfl⟩ := hs
    exact ⟨inv_tick h, rfl⟩
  | drain =>
    simp only [step, Option.some.injEq, Prod.mk.injEq] at hs
    obtain ⟨rfl, rfl⟩ := hs
    exact ⟨inv_drain h, rfl⟩
  | post =>
    simp only [step, Option.some.injEq, Prod.mk.injEq] at hs
    obtain ⟨rfl, rfl⟩ := hs
    exact ⟨inv_post h, rfl⟩
  | timeout =>
    obtain ⟨s2, g1, g2, g3⟩ := inv_timeout h
    rw [g1] at hs
    simp at hs
    obtain ⟨rfl, rfl⟩ := hs
    exact ⟨g3, g2⟩

theorem run_snoc (ticks : Int) (s : State) (is : List In) (i : In) :
    run ticks s (is ++ [i]) = (run ticks s is).bind (fun r =>
      (step ticks r.1 i).map (fun q => (q.1, r.2 ++ [q.2]))) := by
  rw [run_append]
  congr 1
  funext r
  simp only [run]
  cases step ticks r.1 i <;> simp

theorem inv_run {T size : Nat} {cs : List Circ} (h0 : 0 < T) (h1 : T < size) :
    ∀ (is : List In) {s : State} {log : List Act},
      run T (init size cs) is = some (s, log) → Inv T s log ∧ s.circuits = cs := by
  intro is
  induction is using Timers.snoc_induction with
  | h0 =>
    intro s log hr
    simp [run] at hr
    obtain ⟨rfl, rfl⟩ := hr
    exact ⟨inv_init T size cs h0 h1, rfl⟩
  | h1 is i ih =>
    intro s log hr
    rw [run_snoc] at hr
    simp only [Option.bind_eq_some_iff, Option.map_eq_some_iff] at hr
    obtain ⟨⟨s1, l1⟩, r1, ⟨s2, x⟩, r2, r3⟩ := hr
    obtain ⟨i1, i2⟩ := ih r1
    obtain ⟨j1, j2⟩ := inv_step i1 i r2
    simp at r3
    obtain ⟨rfl, rfl⟩ := r3
    exact ⟨j1, j2.trans i2⟩

/-! ### C44: learning and ageing -/

/-- The bridge never fails: no schedule of frames of at least twelve bytes and timer activity
raises an exception. In particular a timeout always finds its entry. -/
theorem no_exception {T size : Nat} (cs : List Circ) (h0 : 0 < T) (h1 : T < size) (is : List In)
    (hl : ∀ c pdu, In.frame c pdu ∈ is → 12 ≤ pdu.length) :
    (run T (init size cs) is).isSome := by
  induction is using Timers.snoc_induction with
  | h0 => rfl
  | h1 is i ih =>
    have ih := ih (fun c pdu hm => hl c pdu (by simp [hm]))
    obtain ⟨⟨s, log⟩, hr⟩ := Option.isSome_iff_exists.1 ih
    have hinv := (inv_run h0 h1 is hr).1
    rw [run_snoc, hr]
    simp only [Option.bind_some, Option.isSome_map]
    cases i with
    | frame c pdu =>
      have hlen := hl c pdu (by simp)
      simp only [step, dispatch]
      rw [if_neg (by omega)]
      by_cases hd : dest pdu = source pdu
      · simp [hd]
      · rw [if_neg hd]
        obtain ⟨s2, g1, _⟩ := inv_learn hinv c pdu hd
        rw [g1]
        simp only
        cases ht : s2.table (dest pdu) with
        | none => simp
        | some e => by_cases hc : e.circ = c <;> simp [hc]
    | tick => simp [step]
    | drain => simp [step]
    | post => simp [step]
    | timeout => obtain ⟨s2, g1, _⟩ := inv_timeout hinv; simp [g1]

/-- An entry in the table names the circuit of the latest frame from that station. -/
theorem entry_is_latest {T size : Nat} {cs : List Circ} (h0 : 0 < T) (h1 : T < size)
    {is : List In} {s : State} {log : List Act} (hr : run T (init size cs) is = some (s, log))
    {a : Mac} {e : Ent} (he : s.table a = some e) :
    ∃ n, lastHeard a log = some (e.circ, n) := by
  obtain ⟨_, _, n, h, _⟩ := (inv_run h0 h1 is hr).1.known a e he
  exact ⟨n, h⟩

/-- A station heard less than the ageing time ago is in the table, on the circuit where it was
last heard. -/
theorem present_while_heard {T size : Nat} {cs : List Circ} (h0 : 0 < T) (h1 : T < size)
    {is : List In} {s : State} {log : List Act} (hr : run T (init size cs) is = some (s, log))
    {a : Mac} {c : Circ} {n : Nat} (hh : lastHeard a log = some (c, n)) (hn : n < T) :
    ∃ e, s.table a = some e ∧ e.circ = c := by
  have hi := (inv_run h0 h1 is hr).1
  cases he : s.table a with
  | none => have := hi.absent a he c n hh; omega
  | some e =>
    obtain ⟨_, _, m, h, _⟩ := hi.known a e he
    rw [hh] at h
    simp at h
    exact ⟨e, rfl, h.1.symm⟩

/-- A station silent for longer than the ageing time is not in the table once the node has taken
the timeouts off its work queue; nor is one silent for exactly the ageing time once the timer
thread is done with that tick. -/
theorem gone_when_silent {T size : Nat} {cs : List Circ} (h0 : 0 < T) (h1 : T < size)
    {is : List In} {s : State} {log : List Act} (hr : run T (init size cs) is = some (s, log))
    {a : Mac} {c : Circ} {n : Nat} (hh : lastHeard a log = some (c, n))
    (hq : s.tm.queue = []) (hn : T < n ∨ T = n ∧ s.tm.pc = .idle) :
    s.table a = none := by
  have hi := (inv_run h0 h1 is hr).1
  cases he : s.table a with
  | none => rfl
  | some e =>
    exfalso
    obtain ⟨_, _, m, h, hp⟩ := hi.known a e he
    rw [hh] at h
    simp at h
    obtain ⟨_, rfl⟩ := h
    rcases hp with ⟨p1, p2⟩ | ⟨p1, p2, p3, p4⟩
    · rcases hn with hn | ⟨hn, hpc⟩
      · omega
      · exact p2.busy (by omega) hpc
    · rcases hn with hn | ⟨hn, hpc⟩
      · have := p4 hn; rw [hq] at this; simp at this
      · simp [Timers.pending, hpc, hq] at p3

/-- A station never heard is not in the table. -/
theorem never_heard {T size : Nat} {cs : List Circ} (h0 : 0 < T) (h1 : T < size)
    {is : List In} {s : State} {log : List Act} (hr : run T (init size cs) is = some (s, log))
    {a : Mac} (hh : lastHeard a log = none) : s.table a = none := by
  cases he : s.table a with
  | none => rfl
  | some e =>
    obtain ⟨n, h⟩ := entry_is_latest h0 h1 hr he
    rw [hh] at h; cases h

/-! ### C43: forwarding -/

/-- Sent to the one circuit `c'`, unless that is where the frame came from. -/
def Directed (c c' : Circ) (pdu : Bytes) (out : List (Circ × Bytes)) : Prop :=
  (c' = c ∧ out = []) ∨ (c' ≠ c ∧ out = [(c', pdu)])

/-- Sent exactly once, unchanged, to each circuit other than the one it came from. -/
def Flooded (cs : List Circ) (c : Circ) (pdu : Bytes) (out : List (Circ × Bytes)) : Prop :=
  ∀ x f, out.count (x, f) = if x ∈ cs ∧ x ≠ c ∧ f = pdu then 1 else 0

theorem flood_count (cs : List Circ) (hnd : cs.Nodup) (c : Circ) (pdu : Bytes) :
    Flooded cs c pdu ((cs.filter (· ≠ c)).map (fun x => (x, pdu))) := by
  intro x f
  have hnd2 : ((cs.filter (· ≠ c)).map (fun x => (x, pdu))).Nodup := by
    have h1 : (cs.filter (· ≠ c)).Nodup := List.Pairwise.filter _ hnd
    refine List.Pairwise.map _ ?_ h1
    intro a b hab h
    simp only [Prod.mk.injEq] at h
    exact hab h.1
  rw [List.Nodup.count hnd2]
  congr 1
  simp only [List.mem_map, List.mem_filter, decide_eq_true_eq, Prod.mk.injEq, eq_iff_iff]
  constructor
  · rintro ⟨y, ⟨q1, q2⟩, rfl, rfl⟩; exact ⟨q1, q2, rfl⟩
  · rintro ⟨q1, q2, rfl⟩; exact ⟨x, ⟨q1, q2⟩, rfl, rfl⟩

/-- What happens to a frame, whatever happened before. Nothing goes back where it came from and
nothing is altered. A frame to its own sender is dropped. A frame to a station heard within the
ageing time goes to exactly the circuit where that station was last heard. A frame to a station
never heard, or silent for longer than the ageing time with no timeout waiting, goes once to every
other circuit. In the remaining moment, while a timeout is on its way, it is one or the other. -/
theorem forwarding {T size : Nat} {cs : List Circ} (h0 : 0 < T) (h1 : T < size) (hnd : cs.Nodup)
    {is : List In} {s : State} {log : List Act} (hr : run T (init size cs) is = some (s, log))
    (c : Circ) (pdu : Bytes) (hl : 12 ≤ pdu.length) :
    ∃ s1 out, step T s (.frame c pdu) = some (s1, .frame c pdu out) ∧
      (∀ x f, (x, f) ∈ out → x ≠ c ∧ f = pdu) ∧
      (dest pdu = source pdu → out = []) ∧
      (dest pdu ≠ source pdu →
        (∀ c' n, lastHeard (dest pdu) log = some (c', n) → n < T → Directed c c' pdu out) ∧
        (lastHeard (dest pdu) log = none → Flooded cs c pdu out) ∧
        (∀ c' n, lastHeard (dest pdu) log = some (c', n) → T < n → s.tm.queue = [] →
          Flooded cs c pdu out) ∧
        (∀ c' n, lastHeard (dest pdu) log = some (c', n) →
          Directed c c' pdu out ∨ Flooded cs c pdu out)) := by
  obtain ⟨hi, hcs⟩ := inv_run h0 h1 is hr
  by_cases hd : dest pdu = source pdu
  · refine ⟨s, [], ?_, by simp, fun _ => rfl, fun h => absurd hd h⟩
    simp only [step, dispatch]
    rw [if_neg (by omega), if_pos hd]
  · obtain ⟨s2, g1, g2, g3, _⟩ := inv_learn hi c pdu hd
    have ht := g3 (dest pdu) hd
    have hst : step T s (.frame c pdu) = (match s2.table (dest pdu) with
        | some e => if e.circ = c then some (s2, .frame c pdu [])
                    else some (s2, .frame c pdu [(e.circ, pdu)])
        | none => some (s2, .frame c pdu ((s2.circuits.filter (· ≠ c)).map (fun x => (x, pdu))))) := by
      simp only [step, dispatch]
      rw [if_neg (by omega), if_neg hd, g1]
      simp only
      cases s2.table (dest pdu) with
      | none => rfl
      | some e => by_cases hc : e.circ = c <;> simp [hc]
    rw [hst, ht]
    cases he : s.table (dest pdu) with
    | none =>
      have hfl : Flooded cs c pdu ((s2.circuits.filter (· ≠ c)).map (fun x => (x, pdu))) := by
        rw [g2, hcs]; exact flood_count cs hnd c pdu
      refine ⟨s2, _, rfl, ?_, fun h => absurd h hd, fun _ => ⟨?_, fun _ => hfl, fun _ _ _ _ _ => hfl,
        fun _ _ _ => Or.inr hfl⟩⟩
      · intro x f hm
        simp only [List.mem_map, List.mem_filter, decide_eq_true_eq, Prod.mk.injEq] at hm
        obtain ⟨y, ⟨_, q⟩, rfl, rfl⟩ := hm
        exact ⟨q, rfl⟩
      · intro c' n hh hn
        obtain ⟨e, q, _⟩ := present_while_heard h0 h1 hr hh hn
        rw [he] at q; cases q
    | some e =>
      obtain ⟨m, hm⟩ := entry_is_latest h0 h1 hr he
      have hdir : ∃ out, (if e.circ = c then some (s2, Act.frame c pdu [])
            else some (s2, Act.frame c pdu [(e.circ, pdu)])) = some (s2, Act.frame c pdu out) ∧
          Directed c e.circ pdu out := by
        by_cases hc : e.circ = c
        · exact ⟨[], by simp [hc], Or.inl ⟨hc, rfl⟩⟩
        · exact ⟨[(e.circ, pdu)], by simp [hc], Or.inr ⟨hc, rfl⟩⟩
      obtain ⟨out, o1, o2⟩ := hdir
      refine ⟨s2, out, o1, ?_, fun h => absurd h hd, fun _ => ⟨?_, ?_, ?_, ?_⟩⟩
      · intro x f hx
        rcases o2 with ⟨_, rfl⟩ | ⟨hc, rfl⟩
        · simp at hx
        · simp at hx; obtain ⟨rfl, rfl⟩ := hx; exact ⟨hc, rfl⟩
      · intro c' n hh _
        rw [hm] at hh; simp at hh
        rw [← hh.1]; exact o2
      · intro hh; rw [hm] at hh; cases hh
      · intro c' n hh hn hq
        have := gone_when_silent h0 h1 hr hh hq (Or.inl hn)
        rw [he] at this; cases this
      · intro c' n hh
        rw [hm] at hh; simp at hh
        rw [← hh.1]; exact Or.inl o2

/-- The two addresses meant above are the first and the second six bytes of the frame. -/
theorem addresses (d s body : Bytes) (hd : d.length = 6) (hs : s.length = 6) :
    dest (d ++ s ++ body) = d ∧ source (d ++ s ++ body) = s := by
  unfold dest source
  rw [List.append_assoc]
  constructor
  · rw [List.take_append_of_le_length (by omega), List.take_of_length_le (by omega)]
  · rw [List.drop_append_of_le_length (by omega), List.drop_of_length_le (by omega), List.nil_append,
      List.take_append_of_le_length (by omega), List.take_of_length_le (by omega)]

/-! ### The hypotheses can be met -/

/-- Frame to `d` from `s` with a body. -/
def exFrame (d s : UInt8) : Bytes := [d, d, d, d, d, d, s, s, s, s, s, s, 0x60, 0x03, 1, 2]

/-- Station 1 on circuit 7 is learned, station 2 on circuit 8 answers it. -/
example : (run 3 (init 5 [7, 8, 9])
    [.frame 7 (exFrame 2 1), .tick, .drain, .frame 8 (exFrame 1 2), .frame 9 (exFrame 1 3)]).map
      (·.2) =
    some [.frame 7 (exFrame 2 1) [(8, exFrame 2 1), (9, exFrame 2 1)], .ticked, .quiet,
      .frame 8 (exFrame 1 2) [(7, exFrame 1 2)], .frame 9 (exFrame 1 3) [(7, exFrame 1 3)]] := by
  decide

/-- It moves to circuit 9, then ages out and is flooded to again. -/
example : (run 3 (init 5 [7, 8, 9])
    ([.frame 7 (exFrame 2 1), .frame 9 (exFrame 2 1), .frame 7 (exFrame 1 3), .tick, .drain,
      .tick, .drain, .tick, .drain, .post, .drain, .timeout, .post, .drain, .timeout,
      .frame 8 (exFrame 1 2)])).map (fun r => (r.2.filter (fun a => a ≠ .quiet ∧ a ≠ .ticked))) =
    some [.frame 7 (exFrame 2 1) [(8, exFrame 2 1), (9, exFrame 2 1)],
      .frame 9 (exFrame 2 1) [(7, exFrame 2 1), (8, exFrame 2 1)],
      .frame 7 (exFrame 1 3) [(9, exFrame 1 3)],
      .frame 8 (exFrame 1 2) [(7, exFrame 1 2), (9, exFrame 1 2)]] := by
  decide +kernel

end Verif.Bridge
