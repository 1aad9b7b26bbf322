import Verif.Mop.Spec
import Verif.Mop.Loop

/-!
# Invariant of the loop client
-/

namespace Verif.Mop

/-- How a connection object, its view and the table of requests hang together. -/
inductive Phase (reqs : Nat → Option Nat) (id : Nat) : Option Conn → View → Prop
  | idle : Phase reqs id none {}
  | active {c : Conn} {v : View} {r : Nat} (hs : v.started = true) (hp : c.packets = v.packets)
      (hn : c.nml = v.nml) (hc : c.client = v.client) (hf : c.nml = true → c.fast = true)
      (hd : c.delays = v.res) (hl : v.res.length < v.packets) (ho : v.out = some r)
      (hr : c.rnum = some r) (hq : reqs r = some id) (ht : c.timer = true) (hw : c.waiting = false)
      (hg : c.registered = true ↔ v.res = []) (hx : v.sends = v.res.length + 1)
      (hgo : v.gone = false) (hfi : v.final = []) (ha : v.nml = true → none ∉ v.res) :
      Phase reqs id (some c) v
  | waiting {c : Conn} {v : View} (hs : v.started = true) (hp : c.packets = v.packets)
      (hn : c.nml = v.nml) (hc : c.client = v.client) (hnf : c.nml = false)
      (hd : c.delays = v.res) (hl : v.res.length < v.packets) (ho : v.out = none)
      (hr : c.rnum = none) (ht : c.timer = true) (hw : c.waiting = true)
      (hg : c.registered = false) (hne : v.res ≠ []) (hx : v.sends = v.res.length)
      (hgo : v.gone = false) (hfi : v.final = []) : Phase reqs id (some c) v
  | over {c : Conn} {v : View} {o : Out} (hs : v.started = true) (ho : v.out = none)
      (hr : c.rnum = none) (ht : c.timer = false) (hg : c.registered = false) (hne : v.res ≠ [])
      (hx : v.sends = v.res.length) (hgo : v.gone = false) (hfi : v.final = [o])
      (hcase : (v.nml = false ∧ o = .result id v.res ∧ v.res.length = v.packets) ∨
        (v.nml = true ∧ o = .looped id ∧ v.res.length = v.packets ∧ none ∉ v.res) ∨
        (v.nml = true ∧ ∃ l, v.res = l ++ [none] ∧ none ∉ l ∧ l.length < v.packets ∧
          o = .failed id (v.packets - l.length))) : Phase reqs id (some c) v
  | gone {c : Conn} {v : View} (hs : v.started = true) (ho : v.out = none) (hr : c.rnum = none)
      (ht : c.timer = false) (hg : c.registered = false) (hne : v.res = []) (hx : v.sends = 1)
      (hgo : v.gone = true) (hfi : v.final = []) : Phase reqs id (some c) v

structure Inv (s : State) (vs : Nat → View) : Prop where
  gen1 : 1 ≤ s.gen
  gen2 : s.gen ≤ 65535
  req : ∀ r id, s.reqs r = some id → ∃ c, s.conns id = some c ∧ c.rnum = some r
  pos : ∀ r id, s.reqs r = some id → r ≠ 0
  ids : ∀ id, (s.conns id).isSome = true ↔ id ∈ s.ids
  phase : ∀ id, Phase s.reqs id (s.conns id) (vs id)

theorem Phase.frame {reqs reqs' : Nat → Option Nat} {id : Nat} {oc : Option Conn} {v : View}
    (h : Phase reqs id oc v) (hq : ∀ r, v.out = some r → reqs r = some id → reqs' r = some id) :
    Phase reqs' id oc v := by
  cases h with
  | idle => exact .idle
  | active hs hp hn hc hf hd hl ho hr hq' ht hw hg hx hgo hfi ha =>
    exact .active hs hp hn hc hf hd hl ho hr (hq _ ho hq') ht hw hg hx hgo hfi ha
  | waiting hs hp hn hc hnf hd hl ho hr ht hw hg hne hx hgo hfi =>
    exact .waiting hs hp hn hc hnf hd hl ho hr ht hw hg hne hx hgo hfi
  | over hs ho hr ht hg hne hx hgo hfi hcase => exact .over hs ho hr ht hg hne hx hgo hfi hcase
  | gone hs ho hr ht hg hne hx hgo hfi => exact .gone hs ho hr ht hg hne hx hgo hfi

theorem Phase.out_reqs {reqs : Nat → Option Nat} {id : Nat} {oc : Option Conn} {v : View} {r : Nat}
    (h : Phase reqs id oc v) (ho : v.out = some r) : reqs r = some id := by
  cases h with
  | idle => simp at ho
  | active _ _ _ _ _ _ _ ho' _ hq =>
    rw [ho] at ho'; injection ho' with e; subst e; exact hq
  | waiting _ _ _ _ _ _ _ ho' => rw [ho] at ho'; cases ho'
  | over _ ho' => rw [ho] at ho'; cases ho'
  | gone _ ho' => rw [ho] at ho'; cases ho'

/-- Outputs of other tests are not seen. -/
theorem output_other {id i : Nat} (h : i ≠ id) (v : View) :
    (∀ r, v.output id (.sent i r) = v) ∧ (∀ ds, v.output id (.result i ds) = v) ∧
      (∀ n, v.output id (.failed i n) = v) ∧ v.output id (.looped i) = v := by
  simp [View.output, h]

/-- The owner of an output. -/
def Out.owner : Out → Nat
  | .sent i _ => i
  | .result i _ => i
  | .failed i _ => i
  | .looped i => i

theorem outputs_other {id : Nat} {outs : List Out} (h : ∀ o ∈ outs, o.owner ≠ id) (v : View) :
    outs.foldl (View.output id) v = v := by
  induction outs generalizing v with
  | nil => rfl
  | cons o os ih =>
    rw [List.foldl_cons]
    have : v.output id o = v := by
      have := h o (by simp)
      cases o <;> simp_all [Out.owner, View.output]
    rw [this]
    exact ih (fun o ho => h o (by simp [ho])) v

/-- `sendReq` keeps the invariant of everything, if its receipt number is not in use; the sender was
in a state where it waits for nothing. -/
theorem inv_sendReq {s : State} {vs : Nat → View} {id : Nat} {c : Conn}
    (g1 : 1 ≤ s.gen) (g2 : s.gen ≤ 65535)
    (req : ∀ r i, i ≠ id → s.reqs r = some i → ∃ c, s.conns i = some c ∧ c.rnum = some r)
    (noreq : ∀ r, s.reqs r ≠ some id)
    (pos : ∀ r i, s.reqs r = some i → r ≠ 0)
    (ids : ∀ i, i ≠ id → ((s.conns i).isSome = true ↔ i ∈ s.ids)) (idin : id ∈ s.ids)
    (phase : ∀ i, i ≠ id → Phase s.reqs i (s.conns i) (vs i))
    (fresh : ∀ i, i ≠ id → (vs i).out ≠ some s.gen)
    (hs : (vs id).started = true) (hp : c.packets = (vs id).packets)
    (hn : c.nml = (vs id).nml) (hc : c.client = (vs id).client) (hf : c.nml = true → c.fast = true)
    (hd : c.delays = (vs id).res) (hl : (vs id).res.length < (vs id).packets)
    (hg : c.registered = true ↔ (vs id).res = []) (hx : (vs id).sends = (vs id).res.length)
    (hgo : (vs id).gone = false) (hfi : (vs id).final = [])
    (ha : (vs id).nml = true → none ∉ (vs id).res) :
    Inv (sendReq s id c).1 (fun i => (sendReq s id c).2.foldl (View.output i) (vs i)) := by
  have hgen : ∀ i, i ≠ id → s.reqs s.gen = some i → (vs i).out = some s.gen := by
    intro i hi hq
    obtain ⟨c', e1, e2⟩ := req _ _ hi hq
    have := phase i hi
    rw [e1] at this
    cases this with
    | active _ _ _ _ _ _ _ ho hr => rw [hr] at e2; rw [ho]; exact e2
    | waiting _ _ _ _ _ _ _ _ hr => rw [hr] at e2; cases e2
    | over _ _ hr => rw [hr] at e2; cases e2
    | gone _ _ hr => rw [hr] at e2; cases e2
  unfold sendReq setConn
  simp only [List.foldl_cons, List.foldl_nil]
  refine ⟨?_, ?_, ?_, ?_, ?_, ?_⟩
  · simp only [next]; split <;> omega
  · simp only [next]; split <;> omega
  · intro r i h
    simp only at h ⊢
    by_cases hr : r = s.gen
    · rw [if_pos hr] at h
      injection h with e
      rw [if_pos e.symm]
      exact ⟨_, rfl, by rw [hr]⟩
    · rw [if_neg hr] at h
      have hi : i ≠ id := by intro e; subst e; exact noreq _ h
      rw [if_neg hi]
      exact req _ _ hi h
  · intro r i h
    simp only at h
    by_cases hr : r = s.gen
    · omega
    · rw [if_neg hr] at h; exact pos _ _ h
  · intro i
    simp only
    by_cases hi : i = id
    · rw [if_pos hi, hi]; simp [idin]
    · rw [if_neg hi]; exact ids i hi
  · intro i
    simp only
    by_cases hi : i = id
    · subst hi
      rw [if_pos rfl]
      have hv : (vs i).output i (.sent i s.gen) =
          { vs i with out := some s.gen, sends := (vs i).sends + 1 } := by simp [View.output]
      rw [hv]
      refine .active (r := s.gen) hs hp hn hc hf hd hl rfl rfl (by simp) rfl rfl hg ?_ hgo hfi ha
      simp only; omega
    · rw [if_neg hi]
      rw [(output_other (fun e => hi e.symm) (vs i)).1]
      refine (phase i hi).frame ?_
      intro r ho hq
      rw [if_neg]
      · exact hq
      · intro e; subst e; exact fresh i hi ho

/-- `cancel` of a connection that waits for an answer. -/
theorem cancel_some {s : State} {id : Nat} {c : Conn} {r : Nat} (h : c.rnum = some r) :
    cancel s id c = (setConn (popReq s r) id { c with registered := false, timer := false, rnum := none },
      { c with registered := false, timer := false, rnum := none }) := by
  unfold cancel; rw [h]

theorem cancel_none {s : State} {id : Nat} {c : Conn} (h : c.rnum = none) :
    cancel s id c = (setConn s id { c with registered := false }, { c with registered := false }) := by
  unfold cancel; rw [h]

theorem setConn_setConn (s : State) (id : Nat) (c c' : Conn) :
    setConn (setConn s id c) id c' = setConn s id c' := by
  unfold setConn
  simp only [State.mk.injEq, true_and, and_true]
  funext i
  by_cases h : i = id <;> simp [h]

theorem sendReq_setConn (s : State) (id : Nat) (c c' : Conn) :
    sendReq (setConn s id c) id c' = sendReq s id c' := by
  unfold sendReq
  simp only [Prod.mk.injEq, List.cons.injEq, and_true]
  refine ⟨?_, rfl⟩
  unfold setConn
  simp only [State.mk.injEq, true_and, and_true]
  funext i
  by_cases h : i = id <;> simp [h]

theorem popReq_popReq (s : State) (r : Nat) : popReq (popReq s r) r = popReq s r := by
  unfold popReq
  simp only [State.mk.injEq, true_and, and_true]
  funext k
  by_cases h : k = r <;> simp [h]

/-- Only the owner of the table entry has that number unanswered. -/
theorem Inv.out_unique {s : State} {vs : Nat → View} (h : Inv s vs) {i j r : Nat}
    (hi : (vs i).out = some r) (hj : (vs j).out = some r) : i = j := by
  have h1 := (h.phase i).out_reqs hi
  have h2 := (h.phase j).out_reqs hj
  rw [h1] at h2
  injection h2

theorem Inv.active_of_out {s : State} {vs : Nat → View} (h : Inv s vs) {r id : Nat}
    (hq : s.reqs r = some id) : (vs id).out = some r := by
  obtain ⟨c, e1, e2⟩ := h.req _ _ hq
  have := h.phase id
  rw [e1] at this
  cases this with
  | active _ _ _ _ _ _ _ ho hr => rw [hr] at e2; rw [ho]; exact e2
  | waiting _ _ _ _ _ _ _ _ hr => rw [hr] at e2; cases e2
  | over _ _ hr => rw [hr] at e2; cases e2
  | gone _ _ hr => rw [hr] at e2; cases e2

/-- Nothing happens to anybody. -/
theorem Inv.same {s : State} {vs vs' : Nat → View} (h : Inv s vs) (hv : ∀ i, vs' i = vs i) :
    Inv s vs' := by
  have : vs' = vs := funext hv
  rw [this]; exact h

theorem inv_start {s : State} {vs : Nat → View} (h : Inv s vs) (id p : Nat) (f n : Bool) (cl : Nat)
    (fresh : ∀ i r, Out.sent i r ∈ (step s (.start id p f n cl)).2 → ∀ j, j ≠ i →
      ((vs j).input j (.start id p f n cl)).out ≠ some r) :
    Inv (step s (.start id p f n cl)).1
      (fun i => (vs i).see i (.start id p f n cl, (step s (.start id p f n cl)).2)) := by
  by_cases hc : (s.conns id).isSome = true ∨ p = 0
  · have hst : step s (.start id p f n cl) = (s, []) := by simp only [step, if_pos hc]
    rw [hst]
    refine h.same ?_
    intro i
    simp only [View.see, List.foldl_nil, View.input]
    rw [if_neg]
    rintro ⟨rfl, h1, h2⟩
    rcases hc with hc | hc
    · have := h.phase id
      cases he : s.conns id with
      | none => rw [he] at hc; simp at hc
      | some c =>
        rw [he] at this
        cases this with
        | active hs => rw [hs] at h1; cases h1
        | waiting hs => rw [hs] at h1; cases h1
        | over hs => rw [hs] at h1; cases h1
        | gone hs => rw [hs] at h1; cases h1
    · exact h2 hc
  · have hst : step s (.start id p f n cl) = sendReq { s with ids := s.ids ++ [id], gen := (next s.gen).2 } id
        { packets := p, fast := f || n, nml := n, client := cl, delays := [], waiting := false,
          rnum := none, timer := false, registered := true } := by simp only [step, if_neg hc]
    rw [hst] at fresh ⊢
    have hcn : s.conns id = none := by
      cases he : s.conns id with
      | none => rfl
      | some c => exact absurd (Or.inl (by rw [he]; rfl)) hc
    have hp : p ≠ 0 := fun e => hc (Or.inr e)
    have hv : vs id = {} := by
      have := h.phase id
      rw [hcn] at this
      generalize vs id = v at this ⊢
      cases this; rfl
    have hother : ∀ i, i ≠ id → (vs i).input i (.start id p f n cl) = vs i := by
      intro i hi
      simp only [View.input]
      rw [if_neg (by rintro ⟨e, _⟩; exact hi e.symm)]
    have hself : (vs id).input id (.start id p f n cl) =
        { started := true, packets := p, nml := n, client := cl } := by
      simp [View.input, hv, hp]
    refine inv_sendReq (vs := fun i => (vs i).input i (.start id p f n cl))
      (by have := h.gen1; simp only [next]; split <;> omega)
      (by have := h.gen2; simp only [next]; split <;> omega) ?_ ?_ h.pos
      ?_ (by simp) ?_ ?_ (by rw [hself]) (by rw [hself]) (by rw [hself]) (by rw [hself])
      (by intro e; simp at e; simp [e]) (by rw [hself]) (by rw [hself]; simp; omega)
      (by rw [hself]; simp) (by rw [hself]; simp) (by rw [hself]) (by rw [hself])
      (by rw [hself]; simp)
    · intro r i _ hq; exact h.req r i hq
    · intro r hq
      obtain ⟨c, e, _⟩ := h.req r id hq
      rw [hcn] at e; cases e
    · intro i hi
      simp only [List.mem_append, List.mem_singleton, hi, or_false]
      exact h.ids i
    · intro i hi
      simp only
      rw [hother i hi]
      exact h.phase i
    · intro i hi
      exact fresh id _ (by simp [sendReq]) i hi

/-- The test `id` gives its answer and waits for nothing more. -/
theorem inv_finish {s : State} {vs vs' : Nat → View} {id r : Nat} {c : Conn} (h : Inv s vs)
    (ho : (vs id).out = some r) (hother : ∀ i, i ≠ id → vs' i = vs i)
    (hph : Phase (fun k => if k = r then none else s.reqs k) id (some c) (vs' id)) :
    Inv (setConn (popReq s r) id c) vs' := by
  have hq := (h.phase id).out_reqs ho
  have hin : id ∈ s.ids := by
    rw [← h.ids]
    obtain ⟨c, e, _⟩ := h.req _ _ hq
    rw [e]; rfl
  unfold setConn popReq
  refine ⟨h.gen1, h.gen2, ?_, ?_, ?_, ?_⟩
  · intro k i hk
    simp only at hk ⊢
    by_cases hkr : k = r
    · rw [if_pos hkr] at hk; cases hk
    · rw [if_neg hkr] at hk
      have hi : i ≠ id := by
        intro e; subst e
        have := h.active_of_out hk
        rw [ho] at this; injection this with e; exact hkr e.symm
      rw [if_neg hi]
      exact h.req k i hk
  · intro k i hk
    simp only at hk
    by_cases hkr : k = r
    · rw [if_pos hkr] at hk; cases hk
    · rw [if_neg hkr] at hk; exact h.pos k i hk
  · intro i
    simp only
    by_cases hi : i = id
    · rw [if_pos hi, hi]; simp [hin]
    · rw [if_neg hi]; exact h.ids i
  · intro i
    simp only
    by_cases hi : i = id
    · rw [if_pos hi, hi]; exact hph
    · rw [if_neg hi, hother i hi]
      refine (h.phase i).frame ?_
      intro k hk hk'
      rw [if_neg]
      · exact hk'
      · intro e; subst e
        exact hi (h.out_unique hk ho)

/-- The test `id` had its answer or timed out and sends the next request. -/
theorem inv_again {s : State} {vs vs' : Nat → View} {id r : Nat} {c : Conn} (h : Inv s vs)
    (ho : (vs id).out = some r) (hother : ∀ i, i ≠ id → vs' i = vs i)
    (fresh : ∀ i, i ≠ id → (vs' i).out ≠ some s.gen)
    (hs : (vs' id).started = true) (hp : c.packets = (vs' id).packets)
    (hn : c.nml = (vs' id).nml) (hc : c.client = (vs' id).client) (hf : c.nml = true → c.fast = true)
    (hd : c.delays = (vs' id).res) (hl : (vs' id).res.length < (vs' id).packets)
    (hg : c.registered = true ↔ (vs' id).res = []) (hx : (vs' id).sends = (vs' id).res.length)
    (hgo : (vs' id).gone = false) (hfi : (vs' id).final = [])
    (ha : (vs' id).nml = true → none ∉ (vs' id).res) :
    Inv (sendReq (popReq s r) id c).1
      (fun i => (sendReq (popReq s r) id c).2.foldl (View.output i) (vs' i)) := by
  have hq := (h.phase id).out_reqs ho
  have hin : id ∈ s.ids := by
    rw [← h.ids]
    obtain ⟨c, e, _⟩ := h.req _ _ hq
    rw [e]; rfl
  refine inv_sendReq (s := popReq s r) h.gen1 h.gen2 ?_ ?_ ?_ ?_ hin ?_ fresh hs hp hn hc hf hd hl hg hx
    hgo hfi ha
  · intro k i hi hk
    simp only [popReq] at hk ⊢
    by_cases hkr : k = r
    · rw [if_pos hkr] at hk; cases hk
    · rw [if_neg hkr] at hk; exact h.req k i hk
  · intro k hk
    simp only [popReq] at hk
    by_cases hkr : k = r
    · rw [if_pos hkr] at hk; cases hk
    · rw [if_neg hkr] at hk
      have := h.active_of_out hk
      rw [ho] at this; injection this with e; exact hkr e.symm
  · intro k i hk
    simp only [popReq] at hk
    by_cases hkr : k = r
    · rw [if_pos hkr] at hk; cases hk
    · rw [if_neg hkr] at hk; exact h.pos k i hk
  · intro i _; exact h.ids i
  · intro i hi
    rw [hother i hi]
    refine (h.phase i).frame ?_
    intro k hk hk'
    simp only [popReq]
    rw [if_neg]
    · exact hk'
    · intro e; subst e
      exact hi (h.out_unique hk ho)

theorem inv_reply {s : State} {vs : Nat → View} (h : Inv s vs) (r t : Nat)
    (fresh : ∀ i k, Out.sent i k ∈ (step s (.reply r t)).2 → ∀ j, j ≠ i →
      ((vs j).input j (.reply r t)).out ≠ some k) :
    Inv (step s (.reply r t)).1 (fun i => (vs i).see i (.reply r t, (step s (.reply r t)).2)) := by
  cases hq : s.reqs r with
  | none =>
    have hst : step s (.reply r t) = (s, []) := by
      simp only [step, hq]; split <;> rfl
    rw [hst]
    refine h.same ?_
    intro i
    simp only [View.see, List.foldl_nil, View.input]
    rw [if_neg]
    intro ho
    have := (h.phase i).out_reqs ho
    rw [hq] at this; cases this
  | some id =>
    have hr0 : r ≠ 0 := h.pos _ _ hq
    have ho := h.active_of_out hq
    obtain ⟨c, hc, hrn⟩ := h.req _ _ hq
    have hst : step s (.reply r t) = connReply (popReq s r) id c t := by
      simp only [step, if_neg hr0, hq, hc]
    rw [hst] at fresh ⊢
    have hother : ∀ i, i ≠ id → (vs i).input i (.reply r t) = vs i := by
      intro i hi
      simp only [View.input]
      rw [if_neg]
      intro e; exact hi (h.out_unique e ho)
    have hself : (vs id).input id (.reply r t) =
        { vs id with out := none, res := (vs id).res ++ [some t] } := by
      simp only [View.input, if_pos ho]
    have hph := h.phase id
    rw [hc] at hph
    generalize hvid : vs id = v at hph hself
    cases hph with
    | waiting _ _ _ _ _ _ _ ho' => rw [← hvid, ho] at ho'; cases ho'
    | over _ ho' => rw [← hvid, ho] at ho'; cases ho'
    | gone _ ho' => rw [← hvid, ho] at ho'; cases ho'
    | active hs hp hn hcl hf hd hl ho' hr hq' ht hw hg hx hgo hfi ha =>
    rw [hr] at hrn; injection hrn with hrn; have hrn := hrn.symm; subst hrn
    unfold connReply at fresh ⊢
    rw [cancel_some hr, popReq_popReq] at fresh ⊢
    simp only at fresh ⊢
    by_cases hfull : (c.delays ++ [some t]).length = c.packets
    · rw [if_pos hfull] at fresh ⊢
      simp only [setConn_setConn]
      refine inv_finish h ho ?_ ?_
      · intro i hi
        simp only [View.see]
        rw [hother i hi, outputs_other]
        intro o hm
        unfold finished at hm
        split at hm <;> simp at hm <;> subst hm <;> simp [Out.owner] <;> exact fun e => hi e.symm
      · simp only [View.see]
        rw [hvid, hself]
        unfold finished
        simp only
        rw [List.length_append, List.length_singleton, hd] at hfull
        by_cases hnm : c.nml = true
        · rw [if_pos hnm]
          simp only [List.foldl_cons, List.foldl_nil, View.output, if_true]
          refine .over (o := .looped id) hs rfl rfl rfl rfl (by simp) (by simp [hx]) hgo (by simp [hfi])
            (Or.inr (Or.inl ⟨by rw [← hn]; exact hnm, rfl, ?_, ?_⟩))
          · simp; omega
          · have := ha (by rw [← hn]; exact hnm)
            simpa using this
        · rw [if_neg hnm]
          simp only [List.foldl_cons, List.foldl_nil, View.output, if_true]
          refine .over (o := .result id (v.res ++ [some t])) hs rfl rfl rfl rfl (by simp) (by simp [hx])
            hgo (by simp [hfi, hd]) (Or.inl ⟨by rw [← hn]; simpa using hnm, rfl, ?_⟩)
          simp; omega
    · rw [if_neg hfull] at fresh ⊢
      rw [List.length_append, List.length_singleton, hd] at hfull
      by_cases hfa : c.fast = false
      · rw [if_pos hfa] at fresh ⊢
        simp only [setConn_setConn]
        refine inv_finish h ho ?_ ?_
        · intro i hi
          simp only [View.see, List.foldl_nil]
          exact hother i hi
        · simp only [View.see, List.foldl_nil]
          rw [hvid, hself]
          refine .waiting hs hp hn hcl ?_ ?_ ?_ rfl rfl rfl rfl rfl (by simp) (by simp [hx]) hgo hfi
          · cases hnm : c.nml with
            | false => rfl
            | true => rw [hf hnm] at hfa; cases hfa
          · simp [hd]
          · simp; omega
      · rw [if_neg hfa, sendReq_setConn] at fresh ⊢
        refine inv_again (vs' := fun i => (vs i).input i (.reply r t)) h ho hother ?_ ?_ ?_ ?_ ?_ ?_ ?_ ?_
          ?_ ?_ ?_ ?_ ?_
        · intro i hi
          exact fresh id s.gen (by simp [sendReq, popReq]) i hi
        all_goals simp only [hvid, hself]
        · exact hs
        · exact hp
        · exact hn
        · exact hcl
        · exact hf
        · rw [hd]
        · simp; omega
        · simp
        · simp [hx]
        · exact hgo
        · exact hfi
        · intro e; simpa using ha e

theorem inv_timeout {s : State} {vs : Nat → View} (h : Inv s vs) (id : Nat)
    (fresh : ∀ i k, Out.sent i k ∈ (step s (.timeout id)).2 → ∀ j, j ≠ i →
      ((vs j).input j (.timeout id)).out ≠ some k) :
    Inv (step s (.timeout id)).1 (fun i => (vs i).see i (.timeout id, (step s (.timeout id)).2)) := by
  have hother : ∀ i, i ≠ id → (vs i).input i (.timeout id) = vs i := by
    intro i hi
    simp only [View.input]
    rw [if_neg (by rintro ⟨e, _⟩; exact hi e.symm)]
  have nothing : step s (.timeout id) = (s, []) → (vs id).out = none →
      Inv (step s (.timeout id)).1 (fun i => (vs i).see i (.timeout id, (step s (.timeout id)).2)) := by
    intro hst ho
    rw [hst]
    refine h.same ?_
    intro i
    simp only [View.see, List.foldl_nil]
    by_cases hi : i = id
    · subst hi
      simp only [View.input]
      rw [if_neg (by rintro ⟨_, e⟩; rw [ho] at e; cases e)]
    · exact hother i hi
  have hph := h.phase id
  cases hc : s.conns id with
  | none =>
    refine nothing (by simp only [step, hc]) ?_
    rw [hc] at hph
    generalize vs id = v at hph ⊢
    cases hph; rfl
  | some c =>
    rw [hc] at hph
    generalize hvid : vs id = v at hph
    cases hph with
    | over _ ho _ ht =>
      exact nothing (by simp only [step, hc, ht]; rfl) (by rw [hvid]; exact ho)
    | gone _ ho _ ht =>
      exact nothing (by simp only [step, hc, ht]; rfl) (by rw [hvid]; exact ho)
    | waiting hs hp hn hcl hnf hd hl ho hr ht hw hg hne hx hgo hfi =>
      have hst : step s (.timeout id) =
          sendReq s id { c with timer := false, registered := false } := by
        simp only [step, hc, ht, if_true, connTimeout]
        rw [cancel_none (by exact hr)]
        simp only [hw, Bool.true_eq_false, if_false]
        rw [sendReq_setConn]
      have hself : (vs id).input id (.timeout id) = v := by
        rw [hvid]
        simp only [View.input]
        rw [if_neg (by rintro ⟨_, e⟩; rw [ho] at e; cases e)]
      rw [hst] at fresh ⊢
      refine inv_sendReq (vs := fun i => (vs i).input i (.timeout id)) h.gen1 h.gen2 ?_ ?_ h.pos ?_ ?_ ?_
        ?_ ?_ ?_ ?_ ?_ ?_ ?_ ?_ ?_ ?_ ?_ ?_ ?_
      · intro r i _ hq; exact h.req r i hq
      · intro r hq
        obtain ⟨c', e1, e2⟩ := h.req r id hq
        rw [hc] at e1; injection e1 with e1; subst e1
        rw [hr] at e2; cases e2
      · intro i _; exact h.ids i
      · rw [← h.ids, hc]; rfl
      · intro i hi; simp only [hother i hi]; exact h.phase i
      · intro i hi; exact fresh id s.gen (by simp [sendReq]) i hi
      all_goals simp only [hself]
      · exact hs
      · exact hp
      · exact hn
      · exact hcl
      · simp only [hnf]; simp
      · exact hd
      · exact hl
      · simp [hne]
      · exact hx
      · exact hgo
      · exact hfi
      · rw [← hn, hnf]; simp
    | active hs hp hn hcl hf hd hl ho hr hq ht hw hg hx hgo hfi ha =>
      rename_i r
      have ho' : (vs id).out = some r := by rw [hvid]; exact ho
      have hself : (vs id).input id (.timeout id) = { v with out := none, res := v.res ++ [none] } := by
        rw [hvid]
        simp only [View.input, ho, Option.isSome_some, and_self, if_true]
      have hst : step s (.timeout id) =
          if c.nml = true then
            (setConn (popReq s r) id { c with registered := false, timer := false, rnum := none },
              [.failed id (c.packets - c.delays.length)])
          else if (c.delays ++ [none]).length = c.packets then
            (setConn (popReq s r) id { c with registered := false, timer := false, rnum := none,
                                              delays := c.delays ++ [none] },
              [.result id (c.delays ++ [none])])
          else sendReq (popReq s r) id
            { c with registered := false, timer := false, rnum := none, delays := c.delays ++ [none] } := by
        simp only [step, hc, ht, if_true, connTimeout]
        rw [cancel_some (by exact hr)]
        simp only [hw, if_true, setConn_setConn, sendReq_setConn, finished]
        by_cases hnm : c.nml = true
        · simp [hnm]
        · simp [hnm]
      rw [hst] at fresh ⊢
      by_cases hnm : c.nml = true
      · rw [if_pos hnm] at fresh ⊢
        refine inv_finish h ho' ?_ ?_
        · intro i hi
          simp only [View.see]
          rw [hother i hi, outputs_other]
          intro o hm
          simp at hm; subst hm
          exact fun e => hi e.symm
        · simp only [View.see, List.foldl_cons, List.foldl_nil]
          rw [hself]
          simp only [View.output, if_true]
          refine .over (o := .failed id (v.packets - v.res.length)) hs rfl rfl rfl rfl (by simp)
            (by simp [hx]) hgo (by simp [hfi, hd, hp])
            (Or.inr (Or.inr ⟨by rw [← hn]; exact hnm, v.res, rfl, ha (by rw [← hn]; exact hnm), hl, rfl⟩))
      · rw [if_neg hnm] at fresh ⊢
        by_cases hfull : (c.delays ++ [none]).length = c.packets
        · rw [if_pos hfull] at fresh ⊢
          refine inv_finish h ho' ?_ ?_
          · intro i hi
            simp only [View.see]
            rw [hother i hi, outputs_other]
            intro o hm
            simp at hm; subst hm
            exact fun e => hi e.symm
          · simp only [View.see, List.foldl_cons, List.foldl_nil]
            rw [hself]
            simp only [View.output, if_true]
            rw [List.length_append, List.length_singleton, hd] at hfull
            refine .over (o := .result id (v.res ++ [none])) hs rfl rfl rfl rfl (by simp)
              (by simp [hx]) hgo (by simp [hfi, hd]) (Or.inl ⟨by rw [← hn]; simpa using hnm, rfl, ?_⟩)
            simp; omega
        · rw [if_neg hfull] at fresh ⊢
          rw [List.length_append, List.length_singleton, hd] at hfull
          refine inv_again (vs' := fun i => (vs i).input i (.timeout id)) h ho' hother ?_ ?_ ?_ ?_ ?_ ?_
            ?_ ?_ ?_ ?_ ?_ ?_ ?_
          · intro i hi
            exact fresh id s.gen (by simp [sendReq, popReq]) i hi
          all_goals simp only [hself]
          · exact hs
          · exact hp
          · exact hn
          · exact hcl
          · exact hf
          · rw [hd]
          · simp; omega
          · simp
          · simp [hx]
          · exact hgo
          · exact hfi
          · rw [← hn]; intro e; exact absurd e hnm

/-- Closing the client of one connection. -/
theorem inv_endOne {s : State} {vs : Nat → View} (h : Inv s vs) (cl id : Nat) :
    Inv (endOne cl s id) (fun i => if i = id then (vs i).input i (.endApi cl) else vs i) := by
  unfold endOne
  have hph := h.phase id
  have same : (vs id).input id (.endApi cl) = vs id →
      ∀ i, (fun i => if i = id then (vs i).input i (.endApi cl) else vs i) i = vs i := by
    intro e i
    simp only
    by_cases hi : i = id
    · rw [if_pos hi, hi]; exact e
    · rw [if_neg hi]
  cases hc : s.conns id with
  | none =>
    refine h.same (same ?_)
    rw [hc] at hph
    generalize vs id = v at hph ⊢
    cases hph
    simp [View.input]
  | some c =>
    simp only
    rw [hc] at hph
    generalize hvid : vs id = v at hph
    have notreg : c.registered = false → v.res ≠ [] → Inv
        (if c.registered = true ∧ c.client = cl then (cancel s id c).1 else s)
        (fun i => if i = id then (vs i).input i (.endApi cl) else vs i) := by
      intro hg hne
      rw [if_neg (by rintro ⟨e, _⟩; rw [hg] at e; cases e)]
      refine h.same (same ?_)
      rw [hvid]
      simp only [View.input]
      rw [if_neg (by rintro ⟨_, _, e⟩; exact hne e)]
    cases hph with
    | waiting _ _ _ _ _ _ _ _ _ _ _ hg hne => exact notreg hg hne
    | over _ _ _ _ hg hne => exact notreg hg hne
    | gone hs ho hr ht hg hne hx hgo hfi =>
      rw [if_neg (by rintro ⟨e, _⟩; rw [hg] at e; cases e)]
      refine h.same (same ?_)
      rw [hvid]
      simp only [View.input]
      split
      · cases v; simp_all
      · rfl
    | active hs hp hn hcl hf hd hl ho hr hq ht hw hg hx hgo hfi ha =>
      rename_i r
      by_cases hreg : c.registered = true ∧ c.client = cl
      · rw [if_pos hreg, cancel_some hr]
        have hres := hg.mp hreg.1
        refine inv_finish h (r := r) (by rw [hvid]; exact ho) ?_ ?_
        · intro i hi; simp only [if_neg hi]
        · simp only [if_true]
          rw [hvid]
          simp only [View.input]
          rw [if_pos ⟨hs, by rw [← hcl]; exact hreg.2, hres⟩]
          exact .gone hs rfl rfl rfl rfl hres (by simp [hx, hres]) rfl hfi
      · rw [if_neg hreg]
        refine h.same (same ?_)
        rw [hvid]
        simp only [View.input]
        rw [if_neg]
        rintro ⟨_, e1, e2⟩
        exact hreg ⟨hg.mpr e2, by rw [hcl]; exact e1⟩

theorem input_endApi_idem (v : View) (id cl : Nat) :
    (v.input id (.endApi cl)).input id (.endApi cl) = v.input id (.endApi cl) := by
  by_cases h : v.started = true ∧ v.client = cl ∧ v.res = []
  · have e : v.input id (.endApi cl) = { v with out := none, gone := true } := by
      simp only [View.input, if_pos h]
    rw [e]
    simp only [View.input]
    rw [if_pos h]
  · have e : v.input id (.endApi cl) = v := by simp only [View.input, if_neg h]
    rw [e, e]

theorem endOne_ids (cl : Nat) (s : State) (id : Nat) : (endOne cl s id).ids = s.ids := by
  unfold endOne cancel setConn popReq
  split
  · rfl
  · split
    · split <;> rfl
    · rfl

theorem inv_endList (cl : Nat) (l : List Nat) : ∀ {s : State} {vs : Nat → View}, Inv s vs →
    Inv (l.foldl (endOne cl) s) (fun i => if i ∈ l then (vs i).input i (.endApi cl) else vs i) := by
  induction l with
  | nil => intro s vs h; simpa using h
  | cons a l ih =>
    intro s vs h
    rw [List.foldl_cons]
    refine (ih (inv_endOne h cl a)).same ?_
    intro i
    by_cases h1 : i = a <;> by_cases h2 : i ∈ l <;> simp [h1, h2]
    · subst h1; simp [h2, input_endApi_idem]
    · subst h1; simp [h2]

theorem inv_endApi {s : State} {vs : Nat → View} (h : Inv s vs) (cl : Nat) :
    Inv (step s (.endApi cl)).1 (fun i => (vs i).see i (.endApi cl, (step s (.endApi cl)).2)) := by
  simp only [step]
  refine (inv_endList cl s.ids h).same ?_
  intro i
  simp only [View.see, List.foldl_nil]
  by_cases hi : i ∈ s.ids
  · rw [if_pos hi]
  · rw [if_neg hi]
    rw [← h.ids] at hi
    have hph := h.phase i
    cases hc : s.conns i with
    | none =>
      rw [hc] at hph
      generalize vs i = v at hph ⊢
      cases hph
      simp [View.input]
    | some c => rw [hc] at hi; simp at hi

/-- Every event keeps the invariant, if the receipt numbers used are free. -/
theorem inv_step {s : State} {vs : Nat → View} (h : Inv s vs) (e : Ev)
    (fresh : ∀ i k, Out.sent i k ∈ (step s e).2 → ∀ j, j ≠ i → ((vs j).input j e).out ≠ some k) :
    Inv (step s e).1 (fun i => (vs i).see i (e, (step s e).2)) := by
  cases e with
  | start id p f n cl => exact inv_start h id p f n cl fresh
  | reply r t => exact inv_reply h r t fresh
  | timeout id => exact inv_timeout h id fresh
  | endApi cl => exact inv_endApi h cl

theorem inv_init {gen : Nat} (h1 : 1 ≤ gen) (h2 : gen ≤ 65535) : Inv (init gen) (fun _ => {}) :=
  ⟨h1, h2, (by intro r id h; cases h), (by intro r id h; cases h), (by intro id; simp [init]),
    fun _ => .idle⟩

theorem run_append (s : State) (es : List Ev) (e : Ev) :
    run s (es ++ [e]) = ((step (run s es).1 e).1, (run s es).2 ++ [(e, (step (run s es).1 e).2)]) := by
  induction es generalizing s with
  | nil => rfl
  | cons a es ih =>
    simp only [List.cons_append, run]
    rw [ih]

theorem view_append (id : Nat) (tr : List (Ev × List Out)) (x : Ev × List Out) :
    view id (tr ++ [x]) = (view id tr).see id x := by
  unfold view; rw [List.foldl_append]; rfl

theorem NoReuse.prefix {a b : List (Ev × List Out)} (h : NoReuse (a ++ b)) : NoReuse a := by
  intro pre e outs post ht
  refine h pre e outs (post ++ b) ?_
  rw [ht]; simp

theorem inv_run {gen : Nat} (h1 : 1 ≤ gen) (h2 : gen ≤ 65535) (es : List Ev)
    (hn : NoReuse (run (init gen) es).2) :
    Inv (run (init gen) es).1 (fun id => view id (run (init gen) es).2) := by
  rcases List.eq_nil_or_concat es with rfl | ⟨l, e, rfl⟩
  · exact inv_init h1 h2
  · rw [List.concat_eq_append, run_append] at hn ⊢
    have ih := inv_run h1 h2 l hn.prefix
    have := inv_step ih e ?_
    · refine this.same ?_
      intro i; rw [view_append]
    · intro i k hk j hj
      exact hn _ e _ [] rfl i k hk j hj
termination_by es.length
decreasing_by subst_vars; simp

end Verif.Mop
