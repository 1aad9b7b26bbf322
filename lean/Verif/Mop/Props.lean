import Verif.Mop.Loop
import Verif.Mop.Quiet

/-!
# Properties of the Maintenance Operation Protocol
-/

namespace Verif.Mop

open Verif.Fields (le fromLe)

/-! ## C68: loop packets -/

/-- A loop request built for given assistants is forwarded from one to the next in the given order,
and the last of them gets a loop reply with the number and the data of the request; on a short
packet the data is followed by the filling of the frame. -/
theorem loop_route (first : Bytes) (dests : List Bytes) (rnum : Nat) (payload : Bytes)
    (hd : ∀ d ∈ dests, d.length = 6 ∧ isMulti d = false) (hr : rnum < 65536)
    (hl : 8 * dests.length + 6 + payload.length ≤ 1500) :
    Path first (loopMsg dests rnum payload) (first :: dests)
      (.reply rnum (payload ++ List.replicate (40 - 8 * dests.length - payload.length) 0x42)) := by
  have hlen : (loopMsg dests rnum payload).length = 8 * dests.length + 6 + payload.length := by
    unfold loopMsg
    rw [List.length_append, le2_length, body_length _ _ _ (fun d h => (hd d h).1)]
    omega
  refine path_body rnum payload _ hr dests hd first _ [] 0 rfl ?_ ?_
  · unfold onWire
    rw [hlen, show 46 - (8 * dests.length + 6 + payload.length) =
      40 - 8 * dests.length - payload.length by omega]
    simp [loopMsg]
  · rw [onWire_length, hlen]; omega

example : Path [2, 0, 0, 0, 0, 1] (loopMsg [[2, 0, 0, 0, 0, 9], [4, 0, 0, 0, 0, 5]] 77 [10, 11])
    [[2, 0, 0, 0, 0, 1], [2, 0, 0, 0, 0, 9], [4, 0, 0, 0, 0, 5]]
    (.reply 77 ([10, 11] ++ List.replicate 22 0x42)) :=
  loop_route _ _ 77 _ (by decide) (by omega) (by decide)

/-- A forwarded packet goes to the individual address named in it and differs from the received one
only in the skip count, which grows by 8; there is room for that. -/
theorem loop_forward (b d p : Bytes) (h : loopDispatch b = .forward d p) :
    d.length = 6 ∧ isMulti d = false ∧ p.length = b.length ∧ b.length ≤ 1500 ∧
      p.drop 2 = b.drop 2 ∧ fromLe (p.take 2) = fromLe (b.take 2) + 8 ∧
      d = (b.drop (fromLe (b.take 2) + 4)).take 6 ∧
      fromLe ((b.drop (fromLe (b.take 2) + 2)).take 2) = 2 := by
  obtain ⟨g1, g2, g3, g4⟩ := forward_grows h
  obtain ⟨skip, rest, rfl, h1, h2, rfl, h4, h5, h6, h7, h8, h9, h10⟩ := (forward_iff b d p).mp h
  rw [List.drop_drop, Nat.add_assoc] at h6
  refine ⟨?_, h7, g1, h9, g2, g3, h6, h5⟩
  rw [h6, List.length_take, List.length_drop]
  omega

example : loopDispatch (onWire (loopMsg [[2, 0, 0, 0, 0, 9]] 77 [10])) =
    .forward [2, 0, 0, 0, 0, 9] (le 2 8 ++ (onWire (loopMsg [[2, 0, 0, 0, 0, 9]] 77 [10])).drop 2) := by
  decide

/-- Whatever packet is sent to a station, it is forwarded a definite, finite number of times: at
most one station for every 8 bytes of it. -/
theorem loop_ends (first b : Bytes) :
    ∃ l o, Path first b l o ∧ 8 * (l.length - 1) ≤ max b.length 46 ∧
      ∀ l' o', Path first b l' o' → l' = l ∧ o' = o := by
  obtain ⟨l, o, h⟩ := path_exists first b
  refine ⟨l, o, h, ?_, fun l' o' h' => path_unique h' h⟩
  obtain ⟨p1, p2⟩ := path_bound h
  rw [onWire_length] at p2
  by_cases h2 : 2 ≤ l.length
  · have := p2 h2; omega
  · omega

/-! ## C69: arbitrary loop packets -/

/-- The packets on which the loop handler raises an exception: those too short for the message they
announce, and requests to forward of more than 1500 bytes. -/
theorem loop_raise_iff (b : Bytes) :
    loopDispatch b = .raise ↔ b.length < 2 ∨ (fromLe (b.take 2) % 2 = 0 ∧ fromLe (b.take 2) + 4 ≤ b.length ∧
      ((fromLe ((b.drop (fromLe (b.take 2) + 2)).take 2) = 2 ∧
          (b.length < fromLe (b.take 2) + 10 ∨
            (isMulti ((b.drop (fromLe (b.take 2) + 4)).take 6) = false ∧ 1500 < b.length))) ∨
        (fromLe ((b.drop (fromLe (b.take 2) + 2)).take 2) = 1 ∧ b.length < fromLe (b.take 2) + 6))) := by
  unfold loopDispatch
  by_cases h0 : b.length < 2
  · rw [if_pos h0]; simp [h0]
  rw [if_neg h0]
  simp only [List.drop_drop, List.length_drop, Nat.add_assoc]
  generalize hs : fromLe (b.take 2) = skip
  by_cases h1 : skip % 2 = 1 ∨ skip + 4 > b.length
  · rw [if_pos h1]
    constructor
    · intro h; cases h
    · rintro (h | ⟨h, h', _⟩) <;> omega
  rw [if_neg h1]
  by_cases h2 : fromLe ((b.drop (skip + 2)).take 2) = 2
  · rw [if_pos h2]
    by_cases h3 : b.length - (skip + 2) < 8
    · rw [if_pos h3]
      refine ⟨fun _ => Or.inr ⟨by omega, by omega, Or.inl ⟨h2, Or.inl (by omega)⟩⟩, fun _ => rfl⟩
    rw [if_neg h3]
    by_cases h4 : isMulti ((b.drop (skip + (2 + 2))).take 6) = true
    · rw [if_pos h4]
      constructor
      · intro h; cases h
      · rintro (h | ⟨_, _, ⟨_, h | ⟨h, _⟩⟩ | ⟨h, _⟩⟩)
        · omega
        · omega
        · rw [h4] at h; cases h
        · omega
    rw [if_neg h4]
    by_cases h5 : skip + 8 ≥ 65536 ∨ b.length > 1500
    · rw [if_pos h5]
      refine ⟨fun _ => Or.inr ⟨by omega, by omega, Or.inl ⟨h2, Or.inr ⟨?_, by omega⟩⟩⟩, fun _ => rfl⟩
      simpa using h4
    rw [if_neg h5]
    constructor
    · intro h; cases h
    · rintro (h | ⟨_, _, ⟨_, h | ⟨h, _⟩⟩ | ⟨h, _⟩⟩) <;> omega
  rw [if_neg h2]
  by_cases h3 : fromLe ((b.drop (skip + 2)).take 2) = 1
  · rw [if_pos h3]
    by_cases h4 : b.length - (skip + 2) < 4
    · rw [if_pos h4]
      refine ⟨fun _ => Or.inr ⟨by omega, by omega, Or.inr ⟨h3, by omega⟩⟩, fun _ => rfl⟩
    rw [if_neg h4]
    constructor
    · intro h; cases h
    · rintro (h | ⟨_, _, ⟨h, _⟩ | ⟨_, h⟩⟩)
      · omega
      · exact absurd h h2
      · omega
  rw [if_neg h3]
  constructor
  · intro h; cases h
  · rintro (h | ⟨_, _, ⟨h, _⟩ | ⟨h, _⟩⟩)
    · omega
    · exact absurd h h2
    · exact absurd h h3

/-- What is missing for C69: packets that end inside the message at their skip count.  Every packet
of at most 1500 bytes whose message at the skip count is not cut short is handled without an
exception.  -/
theorem loop_no_error_partial (b : Bytes) (h2 : 2 ≤ b.length) (hl : b.length ≤ 1500)
    (hc : fromLe (b.take 2) + 10 ≤ b.length ∨
      (fromLe ((b.drop (fromLe (b.take 2) + 2)).take 2) ≠ 2 ∧ fromLe (b.take 2) + 6 ≤ b.length)) :
    loopDispatch b ≠ .raise := by
  intro h
  rw [loop_raise_iff] at h
  rcases h with h | ⟨_, _, ⟨h, h' | ⟨_, h'⟩⟩ | ⟨_, h'⟩⟩
  · omega
  · rcases hc with hc | ⟨hc, _⟩
    · omega
    · exact hc h
  · omega
  · omega

example : ∃ b : Bytes, 2 ≤ b.length ∧ b.length ≤ 1500 ∧ fromLe (b.take 2) + 10 ≤ b.length :=
  ⟨onWire (loopMsg [] 1 []), by decide⟩

/-- Finding: a frame of the minimum length from any station stops the node: its skip count of 42
leaves room for a function code only, and that asks to forward. -/
theorem loop_stops_node : ∃ b : Bytes, b.length = 46 ∧ onWire b = b ∧ loopDispatch b = .raise :=
  ⟨le 2 42 ++ List.replicate 42 0 ++ le 2 2, by decide, by decide, by decide⟩

/-! ## C70: receipt numbers -/

/-- Receipt numbers are between 1 and 65535 and 65535 consecutive ones are different. -/
theorem receipts (r : Nat) (h1 : 1 ≤ r) (h2 : r ≤ 65535) (n : Nat) :
    1 ≤ (next (genAfter r n)).1 ∧ (next (genAfter r n)).1 ≤ 65535 ∧
      ∀ m, n < m → m < n + 65535 → (next (genAfter r m)).1 ≠ (next (genAfter r n)).1 := by
  simp only [next, genAfter_eq h1 h2]
  refine ⟨by omega, by omega, ?_⟩
  intro m hm hm'
  omega

example : (next (genAfter 65534 0)).1 = 65534 ∧ (next (genAfter 65534 1)).1 = 65535 ∧
    (next (genAfter 65534 2)).1 = 1 := by decide

/-- A number is never used again while it is in use, in histories of up to 32767 events. -/
theorem no_reuse (gen : Nat) (h1 : 1 ≤ gen) (h2 : gen ≤ 65535) (es : List Ev)
    (hl : es.length ≤ 32767) : NoReuse (run (init gen) es).2 :=
  noReuse_short h1 h2 es (by omega)

/-- A loop reply that answers no unanswered request has no effect. -/
theorem unexpected_reply (gen : Nat) (h1 : 1 ≤ gen) (h2 : gen ≤ 65535) (es : List Ev)
    (hn : NoReuse (run (init gen) es).2) (r t : Nat)
    (hu : ∀ id, (view id (run (init gen) es).2).out ≠ some r) :
    step (run (init gen) es).1 (.reply r t) = ((run (init gen) es).1, []) := by
  have h := inv_run h1 h2 es hn
  unfold step
  dsimp only
  by_cases hr : r = 0
  · rw [if_pos hr]
  rw [if_neg hr]
  cases hq : (run (init gen) es).1.reqs r with
  | none => rfl
  | some id =>
    exfalso
    obtain ⟨c, hc, hcr⟩ := h.req r id hq
    have hp := h.phase id
    rw [hc] at hp
    have hu := hu id
    generalize hv : view id (run (init gen) es).2 = v at hp hu
    cases hp with
    | active _ _ _ _ _ _ _ ho hr' =>
      rw [hr'] at hcr; injection hcr with e; subst e; exact hu ho
    | waiting _ _ _ _ _ _ _ _ hr' => rw [hr'] at hcr; cases hcr
    | over _ _ hr' => rw [hr'] at hcr; cases hcr
    | gone _ _ hr' => rw [hr'] at hcr; cases hcr

/-- A reply to an unanswered request is counted for the test that sent it, once, and for no other. -/
theorem reply_delivered (gen : Nat) (h1 : 1 ≤ gen) (h2 : gen ≤ 65535) (es : List Ev) (r t : Nat)
    (hn : NoReuse (run (init gen) (es ++ [.reply r t])).2) (id : Nat)
    (ho : (view id (run (init gen) es).2).out = some r) :
    (∀ i, i ≠ id → (view i (run (init gen) (es ++ [.reply r t])).2).res = (view i (run (init gen) es).2).res) ∧
      (view id (run (init gen) (es ++ [.reply r t])).2).res = (view id (run (init gen) es).2).res ++ [some t] ∧
      ∃ c, (run (init gen) (es ++ [.reply r t])).1.conns id = some c ∧
        c.delays = (view id (run (init gen) es).2).res ++ [some t] := by
  have hn' := hn
  rw [run_append] at hn'
  have h := inv_run h1 h2 es hn'.prefix
  have hA := inv_run h1 h2 (es ++ [.reply r t]) hn
  have e : ∀ i, (view i (run (init gen) (es ++ [.reply r t])).2).res =
      ((view i (run (init gen) es).2).input i (.reply r t)).res := by
    intro i
    rw [run_append, view_append]
    exact (outputs_keep i _ _).2.2.2
  have hid : (view id (run (init gen) (es ++ [.reply r t])).2).res =
      (view id (run (init gen) es).2).res ++ [some t] := by
    rw [e]; simp [View.input, ho]
  refine ⟨?_, hid, ?_⟩
  · intro i hi
    rw [e]
    have hne : (view i (run (init gen) es).2).out ≠ some r := by
      intro ho'
      have a := (h.phase i).out_reqs ho'
      have b := (h.phase id).out_reqs ho
      rw [a] at b
      injection b with b
      exact hi b
    simp [View.input, hne]
  · -- the number of outcomes the program has
    have hreq := (h.phase id).out_reqs ho
    obtain ⟨c, hc, hcr⟩ := h.req r id hreq
    have hpos := h.pos r id hreq
    have hd : c.delays = (view id (run (init gen) es).2).res := by
      have hp := h.phase id
      rw [hc] at hp
      generalize hv : view id (run (init gen) es).2 = v at hp ho
      cases hp with
      | active _ _ _ _ _ hd => exact hd
      | waiting _ _ _ _ _ _ _ ho' => rw [ho] at ho'; cases ho'
      | over _ ho' => rw [ho] at ho'; cases ho'
      | gone _ ho' => rw [ho] at ho'; cases ho'
    rw [run_append]
    simp only [step, if_neg hpos, hreq, hc]
    have hcan : ∀ s, (cancel s id c).2.delays = c.delays := by
      intro s; unfold cancel; rw [hcr]
    unfold connReply
    simp only
    split
    · exact ⟨_, by simp only [setConn]; exact if_pos trivial, by simp only [hcan, hd]⟩
    split
    · exact ⟨_, by simp only [setConn]; exact if_pos trivial, by simp only [hcan, hd]⟩
    · exact ⟨_, by simp only [sendReq, setConn]; exact if_pos trivial, by simp only [hcan, hd]⟩

example : (view 1 (run (init 1) [.start 1 2 true false 5]).2).out = some 2 := by decide

example : NoReuse (run (init 1) [.start 1 2 true false 5, .reply 2 30]).2 :=
  no_reuse 1 (by omega) (by omega) _ (by decide)

/-- Finding: a request made without a receipt number never gets as far as being sent: the counters
request of the API always fails, with a valid timeout by an exception. -/
theorem counters_never_work (timeout : Int) :
    counterRequest timeout = if timeout < 1 then .badTimeout else .exception := by
  unfold counterRequest requestNumber; rfl

/-- Finding: neither does the request that starts a console connection; the first call for an address
fails by an exception, every later one is told that the console is in use. -/
theorem console_never_connects (dests : List Bytes) (dest : Bytes) :
    (consoleConnect dests dest).2 = (if dest ∈ dests then .busy else .exception) ∧
      dest ∈ (consoleConnect dests dest).1 := by
  unfold consoleConnect requestNumber
  by_cases h : dest ∈ dests
  · rw [if_pos h, if_pos h]; exact ⟨rfl, h⟩
  · rw [if_neg h, if_neg h]; exact ⟨rfl, by simp⟩

/-! ## C71: the loop test -/

/-- What the client of a loop test is told, and when: at most one answer; the list of all outcomes,
one for every packet, in order; for a network management request, that all were answered, or, at the
first one not answered, how many were not looped.  No more requests are sent than asked for. -/
theorem loop_test (gen : Nat) (h1 : 1 ≤ gen) (h2 : gen ≤ 65535) (es : List Ev)
    (hn : NoReuse (run (init gen) es).2) (id : Nat) :
    let v := view id (run (init gen) es).2
    v.final.length ≤ 1 ∧ v.sends ≤ v.packets ∧ v.res.length ≤ v.packets ∧
    (∀ o ∈ v.final,
      (v.nml = false ∧ o = .result id v.res ∧ v.res.length = v.packets) ∨
      (v.nml = true ∧ o = .looped id ∧ v.res.length = v.packets ∧ none ∉ v.res) ∨
      (v.nml = true ∧ ∃ l, v.res = l ++ [none] ∧ none ∉ l ∧ o = .failed id (v.packets - l.length))) ∧
    (v.started = true → (v.res.length = v.packets ∨ (v.nml = true ∧ none ∈ v.res)) → v.final ≠ []) := by
  intro v
  have h := (inv_run h1 h2 es hn).phase id
  have hpk : v.started = true → v.packets ≠ 0 := started_packets id _
  change Phase _ id _ v at h
  generalize (run (init gen) es).1.conns id = oc at h
  clear_value v
  cases h with
  | idle =>
    refine ⟨by simp, by simp, by simp, (by intro o ho; cases ho), (by intro hs; cases hs)⟩
  | active hs hp hn hc hf hd hl ho hr hq ht hw hg hx hgo hfi ha =>
    refine ⟨by simp [hfi], by omega, by omega, (by rw [hfi]; intro o ho; cases ho), ?_⟩
    rintro _ (h | ⟨h, h'⟩)
    · omega
    · exact absurd h' (ha h)
  | waiting hs hp hn hc hnf hd hl ho hr ht hw hg hne hx hgo hfi =>
    refine ⟨by simp [hfi], by omega, by omega, (by rw [hfi]; intro o ho; cases ho), ?_⟩
    rintro _ (h | ⟨h, h'⟩)
    · omega
    · rw [← hn, hnf] at h; cases h
  | over hs ho hr ht hg hne hx hgo hfi hcase =>
    have hle : v.res.length ≤ v.packets := by
      rcases hcase with ⟨_, _, h⟩ | ⟨_, _, h, _⟩ | ⟨_, l, h, _, h', _⟩
      · omega
      · omega
      · rw [h, List.length_append]; simp; omega
    refine ⟨by simp [hfi], by omega, hle, ?_, by simp [hfi]⟩
    intro o' ho'
    rw [hfi, List.mem_singleton] at ho'
    subst ho'
    rcases hcase with h | h | ⟨a, l, b, c, _, d⟩
    · exact Or.inl h
    · exact Or.inr (Or.inl h)
    · exact Or.inr (Or.inr ⟨a, l, b, c, d⟩)
  | gone hs ho hr ht hg hne hx hgo hfi =>
    have := hpk hs
    refine ⟨by simp [hfi], by omega, by simp [hne], (by rw [hfi]; intro o ho; cases ho), ?_⟩
    rintro _ (h | ⟨_, h⟩)
    · rw [hne] at h; simp at h; omega
    · rw [hne] at h; cases h

example : (view 1 (run (init 1) [.start 1 2 false false 5, .reply 2 30, .timeout 1, .timeout 1]).2).final =
    [.result 1 [some 30, none]] := by decide

example : (view 1 (run (init 1) [.start 1 3 false true 5, .reply 2 30, .timeout 1]).2).final =
    [.failed 1 2] := by decide

/-- A loop test whose client does not leave before the first outcome ends: as long as it has not
answered, a timer is running, and a bounded number of timeouts leads to the answer. -/
theorem loop_test_ends (gen : Nat) (h1 : 1 ≤ gen) (h2 : gen ≤ 65535) (es : List Ev) (id n : Nat)
    (hn : NoReuse (run (init gen) (es ++ List.replicate n (.timeout id))).2)
    (hs : (view id (run (init gen) es).2).started = true)
    (hg : (view id (run (init gen) es).2).gone = false)
    (hp : 2 * (view id (run (init gen) es).2).packets ≤ n) :
    (view id (run (init gen) (es ++ List.replicate n (.timeout id))).2).final ≠ [] := by
  obtain ⟨a1, a2, a3⟩ := timeouts_progress h1 h2 es id n hn hs hg
  rcases a3 with a3 | a3
  · exact a3
  have hn0 : NoReuse (run (init gen) es).2 := by
    clear a1 a2 a3 hp
    induction n with
    | zero => rw [List.replicate_zero, List.append_nil] at hn; exact hn
    | succ n ih =>
      rw [List.replicate_succ', ← List.append_assoc, run_append] at hn
      exact ih hn.prefix
  have b := (inv_run h1 h2 es hn0).phase id
  have c := (inv_run h1 h2 _ hn).phase id
  -- the bound at the beginning
  have hb : togo (view id (run (init gen) es).2) ≤ 2 * (view id (run (init gen) es).2).packets ∨
      (view id (run (init gen) es).2).final ≠ [] := by
    generalize view id (run (init gen) es).2 = v at b hs hg
    generalize (run (init gen) es).1.conns id = oc at b
    cases b with
    | idle => cases hs
    | active _ _ _ _ _ _ hl ho => left; unfold togo; rw [ho]; simp
    | waiting _ _ _ _ _ _ hl ho _ _ _ _ hne =>
      left; unfold togo; rw [ho]
      have : v.res.length ≠ 0 := fun h => hne (List.length_eq_zero_iff.mp h)
      simp; omega
    | over _ _ _ _ _ _ _ _ hfi => right; simp [hfi]
    | gone _ _ _ _ _ _ _ hgo => rw [hg] at hgo; cases hgo
  generalize hv : view id (run (init gen) (es ++ List.replicate n (.timeout id))).2 = v at c a1 a2 a3 ⊢
  generalize (run (init gen) (es ++ List.replicate n (.timeout id))).1.conns id = oc at c
  rcases hb with hb | hb
  · cases c with
    | idle => cases a1
    | active _ _ _ _ _ _ hl ho => unfold togo at a3 hb; omega
    | waiting _ _ _ _ _ _ hl ho => unfold togo at a3 hb; omega
    | over _ _ _ _ _ _ _ _ hfi => simp [hfi]
    | gone _ _ _ _ _ _ _ hgo => rw [a2] at hgo; cases hgo
  · -- it was over already
    rw [← hv]
    clear hv a1 a2 a3 c hs hg hp b hn0 hn
    induction n with
    | zero => rw [List.replicate_zero, List.append_nil]; exact hb
    | succ n ih =>
      rw [List.replicate_succ', ← List.append_assoc, run_append, view_append]
      refine outputs_final ?_
      have : ((view id (run (init gen) (es ++ List.replicate n (.timeout id))).2).input id
          (.timeout id)).final = (view id (run (init gen) (es ++ List.replicate n (.timeout id))).2).final := by
        simp only [View.input]; split <;> rfl
      rw [this]; exact ih

example : (view 1 (run (init 1) ([.start 1 2 false false 5, .reply 2 30] ++
    List.replicate 4 (.timeout 1))).2).final = [.result 1 [some 30, none]] := by decide

/-- A client that leaves before the first outcome is sent no answer, and no more requests are made
for it. -/
theorem client_left (gen : Nat) (h1 : 1 ≤ gen) (h2 : gen ≤ 65535) (es : List Ev)
    (hn : NoReuse (run (init gen) es).2) (id : Nat)
    (hg : (view id (run (init gen) es).2).gone = true) :
    (view id (run (init gen) es).2).final = [] ∧ (view id (run (init gen) es).2).sends = 1 := by
  have b := (inv_run h1 h2 es hn).phase id
  generalize view id (run (init gen) es).2 = v at b hg
  generalize (run (init gen) es).1.conns id = oc at b
  cases b with
  | idle => cases hg
  | active _ _ _ _ _ _ _ _ _ _ _ _ _ _ hgo => rw [hg] at hgo; cases hgo
  | waiting _ _ _ _ _ _ _ _ _ _ _ _ _ _ hgo => rw [hg] at hgo; cases hgo
  | over _ _ _ _ _ _ _ hgo => rw [hg] at hgo; cases hgo
  | gone _ _ _ _ _ _ hx _ hfi => exact ⟨hfi, hx⟩

example : (view 1 (run (init 1) [.start 1 3 true false 5, .endApi 5, .timeout 1, .reply 2 9]).2).gone = true := by
  decide

/-- Finding: a client that leaves after the first outcome does not stop its test: requests go on
being sent, and the answer is sent to a client that is not there. -/
theorem client_left_late : ∃ es, (view 1 (run (init 1) (es ++ [.endApi 5])).2).final = [] ∧
    (view 1 (run (init 1) (es ++ [.endApi 5])).2).sends = 2 ∧
    (view 1 (run (init 1) (es ++ [.endApi 5] ++ [.timeout 1, .timeout 1])).2).sends = 3 ∧
    (view 1 (run (init 1) (es ++ [.endApi 5] ++ [.timeout 1, .timeout 1])).2).final =
      [.result 1 [none, none, none]] :=
  ⟨[.start 1 3 true false 5, .timeout 1], by decide, by decide, by decide, by decide⟩

/-! ## C72: the console server -/

/-- Who holds the console, and whether the reservation timer runs, told from the events alone. -/
def holds (ver : Option Bytes) (h : Option (Bytes × Bool)) : CEv → Option (Bytes × Bool)
  | .request src v fork => match h with
    | some x => some x
    | none => if ver = some v then some (src, fork) else none
  | .command src _ _ _ _ => match h with
    | some (x, t) => if src = x then some (x, true) else some (x, t)
    | none => none
  | .release src => match h with
    | some (x, t) => if src = x then none else some (x, t)
    | none => none
  | .timeout => match h with
    | some (x, false) => some (x, false)
    | _ => none
  | .askId _ => h

theorem command_remote (s : Server) (q : Bool) (p : Bytes) (a : Option Nat) (r : Option Bytes) :
    (command s q p a r).1.remote = s.remote ∧ (command s q p a r).1.timer = true := by
  unfold command
  split
  · split <;> exact ⟨rfl, rfl⟩
  · split <;> exact ⟨rfl, rfl⟩

/-- The console is reserved by the first station to give the configured password while it is free,
by no one without a configured password, and stays reserved for that station until it releases it or
its timer runs out; requests and other packets of other stations do not matter. -/
theorem console_holder (ver : Option Bytes) (es : List CEv) :
    (crun ver none es).1.map (fun s => (s.remote, s.timer)) = es.foldl (holds ver) none := by
  suffices H : ∀ (sv : Option Server) h, sv.map (fun s => (s.remote, s.timer)) = h →
      (crun ver sv es).1.map (fun s => (s.remote, s.timer)) = es.foldl (holds ver) h from H none none rfl
  induction es with
  | nil => intro sv h e; exact e
  | cons e es ih =>
    intro sv h hh
    rw [List.foldl_cons]
    simp only [crun]
    apply ih
    subst hh
    cases e with
    | request src v fork =>
      cases sv with
      | some s => rfl
      | none => simp only [cstep, holds, Option.map_none]; split <;> rfl
    | command src q p a r =>
      cases sv with
      | none => rfl
      | some s =>
        simp only [cstep, holds, Option.map_some]
        by_cases hs : src = s.remote
        · rw [if_neg (by simpa using hs), if_pos hs]
          have := command_remote s q p a r
          simp only [Option.map_some, this.1, this.2]
        · rw [if_pos hs, if_neg hs]; rfl
    | release src =>
      cases sv with
      | none => rfl
      | some s =>
        simp only [cstep, holds, Option.map_some]
        by_cases hs : src = s.remote
        · rw [if_neg (by simpa using hs), if_pos hs]; rfl
        · rw [if_pos hs, if_neg hs]; rfl
    | askId src => rfl
    | timeout =>
      cases sv with
      | none => rfl
      | some s =>
        simp only [cstep, holds, Option.map_some]
        cases ht : s.timer with
        | true => simp
        | false => simp [ht]

example : (crun (some [1, 2]) none [.request [7] [1] true, .request [8] [1, 2] true,
    .request [9] [1, 2] true, .release [9]]).1.map (·.remote) = some [8] := by decide

/-- Everything typed, taken from the terminal or answered is caused by a command of the station that
holds the console, and the answer goes to it. -/
theorem console_exclusive (ver : Option Bytes) (sv : Option Server) (e : CEv) (o : COut)
    (ho : o ∈ (cstep ver sv e).2) :
    (∃ src, e = .askId src ∧ o = .sysid src ver.isSome (if ver.isSome then sv.map (·.remote) else none)) ∨
      ∃ s q p a r, sv = some s ∧ e = .command s.remote q p a r ∧
        (o = .raise ∨ (∃ b, o = .typed b) ∨ (∃ b, o = .taken b) ∨ ∃ q b, o = .response s.remote q b) := by
  cases e with
  | request src v fork =>
    exfalso
    revert ho
    cases sv with
    | some s => simp [cstep]
    | none => simp only [cstep]; split <;> simp
  | release src =>
    exfalso
    revert ho
    cases sv with
    | none => simp [cstep]
    | some s => simp only [cstep]; split <;> simp
  | timeout =>
    exfalso
    revert ho
    cases sv with
    | none => simp [cstep]
    | some s => simp only [cstep]; split <;> simp
  | askId src =>
    left
    simp only [cstep, List.mem_singleton] at ho
    exact ⟨src, rfl, ho⟩
  | command src q p a r =>
    right
    cases sv with
    | none => simp [cstep] at ho
    | some s =>
      simp only [cstep] at ho
      by_cases hs : src = s.remote
      · rw [if_neg (by simpa using hs)] at ho
        subst hs
        refine ⟨s, q, p, a, r, rfl, rfl, ?_⟩
        revert ho
        unfold command
        split
        · split
          · intro ho
            simp only [List.mem_singleton] at ho
            exact Or.inr (Or.inr (Or.inr ⟨_, _, ho⟩))
          · intro ho; cases ho
        · split
          · intro ho
            simp only [List.mem_singleton] at ho
            exact Or.inl ho
          · intro ho
            simp only [List.mem_cons, List.not_mem_nil, or_false] at ho
            rcases ho with ho | ho | ho
            · exact Or.inr (Or.inl ⟨_, ho⟩)
            · exact Or.inr (Or.inr (Or.inl ⟨_, ho⟩))
            · exact Or.inr (Or.inr (Or.inr ⟨_, _, ho⟩))
      · rw [if_pos hs] at ho; cases ho

/-- A command repeated, with whatever packets of other stations in between, is answered by the same
response as before; nothing is typed or taken from the terminal again. -/
theorem console_repeat (ver : Option Bytes) (s : Server) (q : Bool) (p p' : Bytes) (a a' : Option Nat)
    (r r' : Option Bytes) (es : List CEv)
    (ho : s.out ≠ none) (hr : q = s.seq → s.resp.isSome = true)
    (hes : ∀ e ∈ es, (∃ src v f, e = .request src v f) ∨ (∃ src, e = .askId src) ∨
      (∃ src q p a r, e = .command src q p a r ∧ src ≠ s.remote) ∨ ∃ src, e = .release src ∧ src ≠ s.remote) :
    ∃ q' b, responses (cstep ver (some s) (.command s.remote q p a r)).2 = [(q', b)] ∧
      (cstep ver (crun ver (cstep ver (some s) (.command s.remote q p a r)).1 es).1
        (.command s.remote q p' a' r')).2 = [.response s.remote q' b] := by
  have hkeep : ∀ (x : Server), x.remote = s.remote → (crun ver (some x) es).1 = some x := by
    intro x hx
    induction es with
    | nil => rfl
    | cons e es ih =>
      have he : (cstep ver (some x) e).1 = some x := by
        rcases hes e (by simp) with ⟨src, v, f, rfl⟩ | ⟨src, rfl⟩ | ⟨src, q, p, a, r, rfl, h⟩ | ⟨src, rfl, h⟩
        · rfl
        · rfl
        · simp only [cstep]; rw [if_pos (by rw [hx]; exact h)]
        · simp only [cstep]; rw [if_pos (by rw [hx]; exact h)]
      simp only [crun, he]
      exact ih (fun e he => hes e (by simp [he]))
  have hc : (cstep ver (some s) (.command s.remote q p a r)) =
      (some (command s q p a r).1, (command s q p a r).2) := by
    simp only [cstep]; rw [if_neg (by simp)]
  have hrem := (command_remote s q p a r).1
  rw [hc, hkeep _ hrem]
  have hc2 : (cstep ver (some (command s q p a r).1) (.command s.remote q p' a' r')).2 =
      (command (command s q p a r).1 q p' a' r').2 := by
    simp only [cstep]; rw [if_neg (by simp [hrem])]
  rw [hc2]
  by_cases hq : q = s.seq
  · obtain ⟨x, hx⟩ := Option.isSome_iff_exists.mp (hr hq)
    have e : command s q p a r = ({ s with timer := true }, [.response s.remote x.1 x.2]) := by
      unfold command; rw [if_pos hq, hx]
    rw [e]
    refine ⟨x.1, x.2, rfl, ?_⟩
    unfold command
    simp only [hx]
    rw [if_pos hq]
  · cases hso : s.out with
    | none => exact absurd hso ho
    | some o =>
      have e : command s q p a r = ({ s with timer := true, inp := (ptyWrite (s.inp ++ p) a).2, seq := !s.seq, out := some [], resp := some (!s.seq, o ++ ptyRead o.length r) },
          [.typed (ptyWrite (s.inp ++ p) a).1, .taken (ptyRead o.length r),
            .response s.remote (!s.seq) (o ++ ptyRead o.length r)]) := by
        unfold command; rw [if_neg hq, hso]
      rw [e]
      refine ⟨!s.seq, o ++ ptyRead o.length r, rfl, ?_⟩
      have hq' : q = !s.seq := by
        revert hq
        cases q <;> cases s.seq <;> simp
      unfold command
      simp only
      rw [if_pos hq']

example : ∃ s : Server, s.out ≠ none ∧ (true = s.seq → s.resp.isSome = true) ∧
    (command s true [65] (some 1) (some [66, 67])).2 =
      [.typed [65], .taken [66, 67], .response [8] true [66, 67]] :=
  ⟨newServer [8] true, by decide, by decide, by decide⟩

/-- C72: no response carries more than a message holds. -/
theorem response_bounded (s : Server) (q : Bool) (p : Bytes) (a : Option Nat) (r : Option Bytes)
    (ho : ∀ o, s.out = some o → o.length ≤ MSGSIZE) (hr : ∀ x, s.resp = some x → x.2.length ≤ MSGSIZE) :
    (∀ st q' b, COut.response st q' b ∈ (command s q p a r).2 → b.length ≤ MSGSIZE) ∧
    (∀ o, (command s q p a r).1.out = some o → o.length ≤ MSGSIZE) ∧
    (∀ x, (command s q p a r).1.resp = some x → x.2.length ≤ MSGSIZE) := by
  unfold command
  split
  · split
    · rename_i q1 p1 hresp
      refine ⟨fun st q' b hb => ?_, ho, fun x hx => hr x hx⟩
      simp only [List.mem_singleton, COut.response.injEq] at hb
      rw [hb.2.2]
      exact hr _ hresp
    · exact ⟨by simp, ho, fun x hx => hr x hx⟩
  · split
    · exact ⟨by simp, ho, fun x hx => hr x hx⟩
    · rename_i o hout
      have hlen : (o ++ ptyRead o.length r).length ≤ MSGSIZE := by
        have := ho o hout
        rw [List.length_append]
        unfold ptyRead
        split
        · split
          · rw [List.length_take]; omega
          · simpa using this
        · simpa using this
      refine ⟨fun st q' b hb => ?_, ?_, ?_⟩
      · simp only [List.mem_cons, reduceCtorEq, false_or, List.not_mem_nil, or_false,
          COut.response.injEq] at hb
        rw [hb.2.2]; exact hlen
      · intro o' h'
        simp only [Option.some.injEq] at h'
        subst h'
        simp
      · intro x hx
        simp only [Option.some.injEq] at hx
        subst hx
        exact hlen

/-- Finding: if the terminal cannot be opened the console stays reserved, without a timer: no
timeout and no request of whatever station frees it. -/
theorem failed_start_blocks (ver v : Bytes) (src : Bytes) (hv : ver = v) (es : List CEv)
    (hes : ∀ e ∈ es, (∃ s w f, e = .request s w f) ∨ e = .timeout ∨ (∃ s, e = .askId s) ∨
      (∃ s q p a r, e = .command s q p a r ∧ s ≠ src) ∨ ∃ s, e = .release s ∧ s ≠ src) :
    (crun (some ver) none (.request src v false :: es)).1 = some (newServer src false) := by
  have h0 : (cstep (some ver) none (.request src v false)).1 = some (newServer src false) := by
    simp [cstep, hv]
  simp only [crun, h0]
  induction es with
  | nil => rfl
  | cons e es ih =>
    have he : (cstep (some ver) (some (newServer src false)) e).1 = some (newServer src false) := by
      rcases hes e (by simp) with ⟨s, w, f, rfl⟩ | rfl | ⟨s, rfl⟩ | ⟨s, q, p, a, r, rfl, h⟩ | ⟨s, rfl, h⟩
      · rfl
      · rfl
      · rfl
      · simp only [cstep]; rw [if_pos (by exact h)]
      · simp only [cstep]; rw [if_pos (by exact h)]
    simp only [crun, he]
    exact ih (fun e he => hes e (by simp [he]))

/-- Finding: the first command sent then stops the node. -/
theorem failed_start_stops (ver src p : Bytes) (a : Option Nat) (r : Option Bytes) :
    (crun (some ver) none [.request src ver false, .command src true p a r]).2 = [[], [.raise]] := by
  simp [crun, cstep, newServer, command]

/-! ## C73: a console session -/

/-- What the user typed reaches the terminal exactly once and in order, whatever is lost and repeated
on the way: what reached it is a beginning of what was typed. -/
theorem typed_in_order (src : Bytes) (n : Nat) (es : List SEv) :
    (srun (newSession src n) es).typed <+: (srun (newSession src n) es).posted := by
  obtain ⟨P, k, ci, ri, h⟩ := sinv_run src n es
  generalize srun (newSession src n) es = x at h ⊢
  rw [h.posted]
  refine ⟨x.server.inp ++ ((P.drop x.taken.length).flatten ++ x.client.pend), ?_⟩
  rw [← List.append_assoc, h.typed, ← List.append_assoc, ← List.flatten_append, List.take_append_drop]

/-- When the client has nothing to send and no command unanswered, everything typed was received,
and what the terminal did not accept yet is the rest. -/
theorem typed_all (src : Bytes) (n : Nat) (es : List SEv)
    (hp : (srun (newSession src n) es).client.pend = [])
    (hm : (srun (newSession src n) es).client.msg = none) :
    (srun (newSession src n) es).typed ++ (srun (newSession src n) es).server.inp =
      (srun (newSession src n) es).posted := by
  obtain ⟨P, k, ci, ri, h⟩ := sinv_run src n es
  generalize srun (newSession src n) es = x at h hp hm ⊢
  rw [h.posted, hp, List.append_nil, h.typed]
  rcases h.msg with ⟨_, _, h3⟩ | ⟨h3, _⟩
  · rw [h3, List.take_length]
  · rw [h3] at hm; cases hm

/-- What the user is shown is what was taken from the terminal, in order with nothing left out, but
parts of it may be shown several times; when no command is unanswered everything was shown. -/
theorem shown_in_order (src : Bytes) (n : Nat) (es : List SEv) :
    ∃ k, k ≤ (srun (newSession src n) es).taken.length ∧
      (srun (newSession src n) es).taken.length ≤ k + 1 ∧
      ((srun (newSession src n) es).client.msg = none → k = (srun (newSession src n) es).taken.length) ∧
      Stutter ((srun (newSession src n) es).taken.take k) (srun (newSession src n) es).client.shown := by
  obtain ⟨P, k, ci, ri, h⟩ := sinv_run src n es
  generalize srun (newSession src n) es = x at h ⊢
  have hl := h.lag
  refine ⟨k, ?_, ?_, ?_, h.shown⟩
  · rcases h.msg with ⟨_, h2, h3⟩ | ⟨_, h2⟩ <;> omega
  · rcases h.msg with ⟨_, h2, h3⟩ | ⟨_, h2⟩ <;> omega
  · intro hm
    rcases h.msg with ⟨_, h2, h3⟩ | ⟨h3, _⟩
    · omega
    · rw [h3] at hm; cases hm

/-- If no message is repeated, by the network or after a timeout, every part is shown once. -/
theorem shown_once_partial (src : Bytes) (n : Nat) (es : List SEv) (he : ∀ e ∈ es, Undisturbed e) :
    ∃ k, k ≤ (srun (newSession src n) es).taken.length ∧
      (srun (newSession src n) es).taken.length ≤ k + 1 ∧
      (srun (newSession src n) es).client.shown =
        ((srun (newSession src n) es).taken.take k).filter (fun b => decide (b ≠ [])) := by
  obtain ⟨k, h⟩ := q_run src n es he
  exact ⟨k, (way_le h.way).1, (way_le h.way).2, h.shown⟩

/-- Finding: a response that arrives twice is shown twice, since a client without an unanswered
command takes any response with its sequence number. -/
theorem shown_twice : ∃ es, (srun (newSession [8] 512) es).taken = [[65]] ∧
    (srun (newSession [8] 512) es).client.shown = [[65], [65]] :=
  ⟨[.cmdArrives 0 (some [65]), .respRepeated, .respArrives, .respArrives], by decide⟩

/-- Finding: so is one whose command was repeated after a timeout, without any fault of the network
but a delay. -/
theorem shown_twice_slow : ∃ es, (∀ e ∈ es, e ≠ .respRepeated ∧ e ≠ .cmdRepeated ∧ e ≠ .cmdLost ∧ e ≠ .respLost) ∧
    (srun (newSession [8] 512) es).taken = [[65]] ∧
    (srun (newSession [8] 512) es).client.shown = [[65], [65]] :=
  ⟨[.clientTimeout, .cmdArrives 0 (some [65]), .cmdArrives 0 (some [66]), .respArrives, .respArrives],
    by decide⟩

example : (srun (newSession [8] 2) [.post [1, 2, 3], .cmdLost, .clientTimeout, .cmdRepeated,
    .cmdArrives 5 none, .cmdArrives 5 none, .respArrives, .respArrives, .cmdArrives 1 (some [9]),
    .respArrives]).typed = [1] := by decide

end Verif.Mop
