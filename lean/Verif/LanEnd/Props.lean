import Verif.LanEnd.Lemmas
import Verif.Nsp.Model

/-!
# Properties C75 to C78

Histories are lists of records, oldest first; a record holds the time, the
event and what others saw of it.  `PRun` are the histories in which timers are
served when they are due.
-/

namespace Verif.LanEnd

theorem PRun.run {c : Cfg} {h : List Rec} {st : St} (r : PRun c h st) : Run c h st := by
  induction r with
  | start => exact .start
  | step _ hs _ ih => exact .step ih hs

theorem PRun.punctual {c : Cfg} {h : List Rec} {st : St} (r : PRun c h st) : Punctual st := by
  cases r with
  | start => exact ⟨Nat.zero_le _, fun r hr => (by cases hr), fun e he => (by cases he)⟩
  | step _ _ hp => exact hp

/-- The last step of a history. -/
theorem PRun.last {c : Cfg} {h : List Rec} {t : Nat} {ev : Ev} {outs : List Out} {st' : St}
    (r : PRun c (h ++ [⟨t, ev, outs⟩]) st') :
    ∃ st, PRun c h st ∧ st.now = t ∧ LanEnd.step c st ev = some (st', outs) := by
  generalize hg : h ++ [Rec.mk t ev outs] = g at r
  cases r with
  | start => simp at hg
  | @step h0 st ev _ outs r0 hs _ =>
    obtain ⟨rfl, hx⟩ := List.append_inj' hg rfl
    simp only [List.cons.injEq, Rec.mk.injEq, and_true] at hx
    obtain ⟨rfl, rfl, rfl⟩ := hx
    exact ⟨st, r0, rfl, hs⟩

theorem Run.last {c : Cfg} {h : List Rec} {t : Nat} {ev : Ev} {outs : List Out} {st' : St}
    (r : Run c (h ++ [⟨t, ev, outs⟩]) st') :
    ∃ st, Run c h st ∧ st.now = t ∧ LanEnd.step c st ev = some (st', outs) := by
  generalize hg : h ++ [Rec.mk t ev outs] = g at r
  cases r with
  | start => simp at hg
  | @step h0 st ev _ outs r0 hs =>
    obtain ⟨rfl, hx⟩ := List.append_inj' hg rfl
    simp only [List.cons.injEq, Rec.mk.injEq, and_true] at hx
    obtain ⟨rfl, rfl, rfl⟩ := hx
    exact ⟨st, r0, rfl, hs⟩

/-! ## The state, from the history -/

theorem there {c : Cfg} {h : List Rec} {st : St} (r : PRun c h st) {i : Nat}
    (hr : RouterThere c h st.now i) : ∃ d, st.dr = some d ∧ d.id = i := by
  obtain ⟨l, hl, hi, ha⟩ := hr
  rcases (inv_run r.run).rkept l hl with ⟨d, hd, hid⟩ | ⟨x, hx, hxi, hxn, ht⟩
  · exact ⟨d, hd, hid.trans hi⟩
  · exact absurd (ha x hx (hxi.trans hi) hxn) (by omega)

theorem notThere {c : Cfg} {h : List Rec} {st : St} (r : PRun c h st)
    (hr : NoRouter c h st.now) : st.dr = none := by
  cases hd : st.dr with
  | none => rfl
  | some d =>
    obtain ⟨l, x, hl, hli, hx, hxi, hxn, ht4, htm⟩ := (inv_run r.run).router d hd
    obtain ⟨hn, hlt⟩ := hr l hl x hx (hxi.trans hli.symm)
    rw [if_neg (hxn ▸ hn)] at htm
    have := r.punctual.2.1 d hd _ htm
    omega

theorem cachedHop {c : Cfg} {h : List Rec} {st : St} (r : PRun c h st) {n : Nat} {hop : Bytes}
    (hh : HeardThrough c h st.now n hop) : ∃ e, st.cache.find? (·.id = n) = some e ∧ e.hop = hop := by
  obtain ⟨⟨t, hl, ht⟩, hz⟩ := hh
  have i := inv_run r.run
  rcases i.kept n t hop hl hz with ⟨e, he, hid⟩ | h1
  · cases hf : st.cache.find? (·.id = n) with
    | none =>
      have := List.find?_eq_none.mp hf e he
      simp [hid] at this
    | some e' =>
      have hid' : e'.id = n := by simpa using List.find?_some hf
      obtain ⟨t', hl', -⟩ := i.cached e' (List.mem_of_find?_eq_some hf)
      rw [hid', hl] at hl'
      cases hl'
      exact ⟨e', rfl, rfl⟩
  · omega

theorem notCached {c : Cfg} {h : List Rec} {st : St} (r : PRun c h st) {n : Nat}
    (hh : NotHeard c h st.now n) : st.cache.find? (·.id = n) = none := by
  rw [List.find?_eq_none]
  intro e he
  have i := inv_run r.run
  intro hid
  have hid : e.id = n := by simpa using hid
  obtain ⟨t, hl, ht⟩ := i.cached e he
  rw [hid] at hl
  have h1 := hh t e.hop hl
  have h2 := r.punctual.2.2 e (List.mem_append_left _ he)
  omega

theorem expire_dr (st : St) (n : Nat) : (expire st n).dr = st.dr := rfl

theorem circSend_hit {c : Cfg} {st : St} {n : Nat} {e : Ent}
    (hf : st.cache.find? (·.id = n) = some e) : circSend c st n false = (st, some e.hop, false) := by
  unfold circSend
  rw [if_neg (by simp), hf]

theorem circSend_miss {c : Cfg} {st : St} {n : Nat} {th : Bool}
    (hf : th = true ∨ st.cache.find? (·.id = n) = none) :
    (circSend c st n th).2 = match st.dr with
      | some d => (some (mac d.id), true)
      | none => if n = c.own then (none, false) else (some (mac n), true) := by
  unfold circSend
  have hc : (if th = true then none else st.cache.find? (·.id = n)) = none := by
    rcases hf with rfl | hf
    · rfl
    · rw [hf]; simp
  have hd' : (if th = true then expire st n else st).dr = st.dr := by
    cases th <;> simp [expire_dr]
  rw [hc]
  dsimp only
  rw [hd']
  cases st.dr with
  | some d => rfl
  | none => dsimp only; split <;> rfl

theorem send_outs {c : Cfg} {st st' : St} {dest : Peer} {p : Bytes} {rqr th : Bool} {outs : List Out}
    (hs : LanEnd.step c st (.send dest p rqr th) = some (st', outs)) (hd : dest ≠ .node c.own) :
    outs = (match (circSend c st (target c dest) th).2.1 with
      | some h => [Out.tx rqr c.own (target c dest) p h] | none => []) ++
      if !(circSend c st (target c dest) th).2.2 && rqr then
        deliver c false (target c dest) c.own true p else [] := by
  simp only [LanEnd.step, Option.some.injEq] at hs
  unfold send at hs
  rw [if_neg hd] at hs
  exact (Prod.ext_iff.mp hs).2.symm

/-! ## C75: where a packet goes -/

/-- C75: a packet for a node heard in the last minute goes to the link address
from which it was last heard. -/
theorem next_hop_heard {c : Cfg} {h : List Rec} {st' : St} {t n : Nat} {p : Bytes} {rqr : Bool}
    {outs : List Out} {hop : Bytes}
    (r : PRun c (h ++ [⟨t, .send (.node n) p rqr false, outs⟩]) st') (hn : n ≠ c.own)
    (hh : HeardThrough c h t n hop) : outs.head? = some (.tx rqr c.own n p hop) := by
  obtain ⟨st, r0, rfl, hs⟩ := r.last
  obtain ⟨e, hf, rfl⟩ := cachedHop r0 hh
  rw [send_outs hs (by simpa using hn), target, circSend_hit hf]
  rfl

/-- C75: if it was not heard, or the caller does not trust that, and there is
a designated router, the packet goes to the router, once, and is not returned. -/
theorem next_hop_router {c : Cfg} {h : List Rec} {st' : St} {t n i : Nat} {p : Bytes}
    {rqr th : Bool} {outs : List Out}
    (r : PRun c (h ++ [⟨t, .send (.node n) p rqr th, outs⟩]) st') (hn : n ≠ c.own)
    (hh : th = true ∨ NotHeard c h t n) (hr : RouterThere c h t i) :
    outs = [.tx rqr c.own n p (mac i)] := by
  obtain ⟨st, r0, rfl, hs⟩ := r.last
  obtain ⟨d, hd, rfl⟩ := there r0 hr
  rw [send_outs hs (by simpa using hn), target, circSend_miss (hh.imp id (notCached r0)), hd]
  rfl

/-- C75: without designated router it goes directly to the destination. -/
theorem next_hop_direct {c : Cfg} {h : List Rec} {st' : St} {t n : Nat} {p : Bytes}
    {rqr th : Bool} {outs : List Out}
    (r : PRun c (h ++ [⟨t, .send (.node n) p rqr th, outs⟩]) st') (hn : n ≠ c.own)
    (hh : th = true ∨ NotHeard c h t n) (hr : NoRouter c h t) :
    outs = [.tx rqr c.own n p (mac n)] := by
  obtain ⟨st, r0, rfl, hs⟩ := r.last
  rw [send_outs hs (by simpa using hn), target, circSend_miss (hh.imp id (notCached r0)),
    notThere r0 hr]
  dsimp only
  rw [if_neg hn]
  rfl

theorem forgotten {c : Cfg} {h : List Rec} {t n : Nat} {p : Bytes} {rqr : Bool}
    {o : List Out} (hn : n ≠ c.own) (g : List Rec) :
    ∀ (st2 : St), PRun c (h ++ [⟨t, .send (.node n) p rqr true, o⟩] ++ g) st2 →
      heard c n g = [] → st2.cache.find? (·.id = n) = none := by
  generalize hx : (⟨t, .send (.node n) p rqr true, o⟩ : Rec) = x
  have key : ∀ (k : Nat) (g : List Rec), g.length = k → ∀ st2, PRun c (h ++ [x] ++ g) st2 →
      heard c n g = [] → ∀ e ∈ st2.cache, e.id ≠ n := by
    intro k
    induction k with
    | zero =>
      intro g hg st2 r2 _
      obtain rfl := List.length_eq_zero_iff.mp hg
      rw [List.append_nil] at r2
      obtain ⟨s0, _, _, hs0⟩ := r2.last
      subst hx
      simp only [LanEnd.step, Option.some.injEq] at hs0
      unfold send at hs0
      rw [if_neg (by simpa using hn)] at hs0
      have := (Prod.ext_iff.mp hs0).1
      simp only [circSend_state, if_true, target] at this
      subst this
      intro e he
      simpa using (List.mem_filter.mp he).2
    | succ k ih =>
      intro g hg st2 r2 hh
      rcases List.eq_nil_or_concat g with rfl | ⟨g', y, hgy⟩
      · simp at hg
      · rw [List.concat_eq_append] at hgy
        subst hgy
        rw [heard_snoc] at hh
        obtain ⟨hh1, hh2⟩ := List.append_eq_nil_iff.mp hh
        rw [← List.append_assoc] at r2
        obtain ⟨s0, r0, _, hs0⟩ := r2.last
        have i0 := ih g' (by simpa using hg) s0 r0 hh1
        have hsub : ∀ e ∈ st2.cache, e ∈ s0.cache ∨ e.id ≠ n := by
          intro e he
          obtain ⟨ty, ey, oy⟩ := y
          dsimp only at hs0 hh2
          cases ey with
          | wait ms =>
            have := (Prod.ext_iff.mp (Option.some.inj hs0)).1
            dsimp only at this
            subst this
            exact .inl he
          | recv hop m =>
            simp only [LanEnd.step] at hs0
            by_cases ha : accepted c hop = false
            · rw [if_pos ha] at hs0
              have := (Prod.ext_iff.mp (Option.some.inj hs0)).1
              subst this; exact .inl he
            · rw [if_neg ha] at hs0
              cases m with
              | hello id nt timer =>
                have hcache : st2.cache = s0.cache := by
                  simp only [rhello, newRtr, Rtr.listen] at hs0
                  (repeat' split at hs0) <;> simp at hs0 <;> obtain ⟨rfl, -⟩ := hs0 <;> rfl
                exact .inl (hcache ▸ he)
              | data src dst rts pl =>
                have := (Prod.ext_iff.mp (Option.some.inj hs0)).1
                dsimp only at this
                subst this
                have hne : src ≠ n := by
                  rintro rfl
                  unfold heardOf at hh2
                  simp [ha] at hh2
                unfold learn at he
                split at he
                · obtain ⟨e0, he0, rfl⟩ := List.mem_map.mp he
                  by_cases g0 : e0.id = src
                  · rw [if_pos g0]; exact .inr (by dsimp only; rw [g0]; exact hne)
                  · rw [if_neg g0]; exact .inl he0
                · rcases List.mem_append.mp he with he | he
                  · exact .inl he
                  · rw [List.mem_singleton.mp he]; exact .inr hne
          | send dest pl rq th =>
            simp only [LanEnd.step, Option.some.injEq] at hs0
            unfold send at hs0
            split at hs0
            · have := (Prod.ext_iff.mp hs0).1; dsimp only at this; subst this; exact .inl he
            · have := (Prod.ext_iff.mp hs0).1
              simp only [circSend_state] at this
              subst this
              cases th
              · exact .inl he
              · exact .inl (List.mem_filter.mp he).1
          | helloTimer =>
            simp only [LanEnd.step] at hs0
            split at hs0 <;> (have := (Prod.ext_iff.mp (Option.some.inj hs0)).1; dsimp only [sendhello] at this; subst this; exact .inl he)
          | drTimer =>
            simp only [LanEnd.step] at hs0
            (repeat' split at hs0) <;> (have := (Prod.ext_iff.mp (Option.some.inj hs0)).1; dsimp only at this; subst this; exact .inl he)
          | cacheTimer uid =>
            simp only [LanEnd.step] at hs0
            (repeat' split at hs0)
            · have := (Prod.ext_iff.mp (Option.some.inj hs0)).1; dsimp only at this; subst this; exact .inl he
            · have := (Prod.ext_iff.mp (Option.some.inj hs0)).1
              dsimp only at this
              subst this
              exact .inl (List.mem_filter.mp he).1
            · have := (Prod.ext_iff.mp (Option.some.inj hs0)).1; dsimp only at this; subst this; exact .inl he
        intro e he
        rcases hsub e he with a | a
        · exact i0 e a
        · exact a
  intro st2 r2 hh
  rw [List.find?_eq_none]
  intro e he hid
  exact key g.length g rfl st2 r2 hh e he (by simpa using hid)

/-- C75: a request to forget takes effect: until the node is heard again its
packets do not go to the link address it was heard from before, but to the
designated router ... -/
theorem forgotten_router {c : Cfg} {h g : List Rec} {st' : St} {t t' n i : Nat} {p q : Bytes}
    {rqr rqr' : Bool} {o outs : List Out} (hn : n ≠ c.own)
    (r : PRun c (h ++ [⟨t, .send (.node n) p rqr true, o⟩] ++ g ++
      [⟨t', .send (.node n) q rqr' false, outs⟩]) st') (hh : heard c n g = [])
    (hr : RouterThere c (h ++ [⟨t, .send (.node n) p rqr true, o⟩] ++ g) t' i) :
    outs = [.tx rqr' c.own n q (mac i)] := by
  obtain ⟨st, r0, rfl, hs⟩ := r.last
  obtain ⟨d, hd, rfl⟩ := there r0 hr
  rw [send_outs hs (by simpa using hn), target, circSend_miss (.inr (forgotten hn g st r0 hh)), hd]
  rfl

/-- ... or to the node itself. -/
theorem forgotten_direct {c : Cfg} {h g : List Rec} {st' : St} {t t' n : Nat} {p q : Bytes}
    {rqr rqr' : Bool} {o outs : List Out} (hn : n ≠ c.own)
    (r : PRun c (h ++ [⟨t, .send (.node n) p rqr true, o⟩] ++ g ++
      [⟨t', .send (.node n) q rqr' false, outs⟩]) st') (hh : heard c n g = [])
    (hr : NoRouter c (h ++ [⟨t, .send (.node n) p rqr true, o⟩] ++ g) t') :
    outs = [.tx rqr' c.own n q (mac n)] := by
  obtain ⟨st, r0, rfl, hs⟩ := r.last
  rw [send_outs hs (by simpa using hn), target, circSend_miss (.inr (forgotten hn g st r0 hh)),
    notThere r0 hr]
  dsimp only
  rw [if_neg hn]
  rfl


/-! ## C76: sent once, returned when not sent -/

def isTx : Out → Bool
  | .tx .. => true
  | _ => false

/-- C76: whatever happened before, and even if timers are late, a packet for
another node is given to the LAN exactly once, unaltered, from this node, to the
destination itself, a router of our area heard before, or a link address the
destination was heard from. -/
theorem sent_once {c : Cfg} {h : List Rec} {st' : St} {t n : Nat} {p : Bytes} {rqr th : Bool}
    {outs : List Out} (r : Run c (h ++ [⟨t, .send (.node n) p rqr th, outs⟩]) st')
    (hn : n ≠ c.own) :
    ∃ hop, outs.filter isTx = [.tx rqr c.own n p hop] ∧
      (hop = mac n ∨ (∃ x ∈ hellos c h, hop = mac x.id) ∨ ∃ t', (t', hop) ∈ heard c n h) := by
  obtain ⟨st, r0, rfl, hs⟩ := r.last
  have i := inv_run r0
  have ho := send_outs hs (by simpa using hn)
  rw [target] at ho
  have hdel : ∀ b : Bool, (if b && rqr then deliver c false n c.own true p else []).filter isTx = [] := by
    intro b
    cases b <;> cases rqr <;> simp [deliver, isTx]
  by_cases hm : th = true ∨ st.cache.find? (·.id = n) = none
  · rw [circSend_miss hm] at ho
    cases hd : st.dr with
    | some d =>
      rw [hd] at ho
      obtain ⟨l, x, hl, hli, -⟩ := i.router d hd
      refine ⟨mac d.id, ?_, .inr (.inl ⟨l, List.mem_of_getLast? hl, by rw [hli]⟩)⟩
      rw [ho, List.filter_append, hdel]
      rfl
    | none =>
      rw [hd] at ho
      dsimp only at ho
      rw [if_neg hn] at ho
      refine ⟨mac n, ?_, .inl rfl⟩
      rw [ho, List.filter_append, hdel]
      rfl
  · cases th with
    | true => exact absurd (.inl rfl) hm
    | false =>
      cases hf : st.cache.find? (·.id = n) with
      | none => exact absurd (.inr hf) hm
      | some e =>
        rw [circSend_hit hf] at ho
        obtain ⟨t', hl, -⟩ := i.cached e (List.mem_of_find?_eq_some hf)
        have hid : e.id = n := by simpa using List.find?_some hf
        refine ⟨e.hop, ?_, .inr (.inr ⟨t', hid ▸ List.mem_of_getLast? hl⟩)⟩
        rw [ho, List.filter_append, hdel]
        rfl

theorem mem_deliver {c : Cfg} {rx : Bool} {s d : Nat} {rts : Bool} {p : Bytes} {o : Out}
    (h : o ∈ deliver c rx s d rts p) :
    o = .nsp (if rx && s = c.own && c.loop then .circuit else .node s) rts p ∧ d = c.own := by
  unfold deliver at h
  split at h
  next hd => exact ⟨List.mem_singleton.mp h, hd⟩
  next => cases h

/-- C76: an end node originates only: whatever it gives to the LAN as a data
packet was asked for by its own NSP, with the same destination and content, and
bears its own address. -/
theorem no_relay {c : Cfg} {h : List Rec} {st : St} (r : Run c h st) :
    ∀ x ∈ h, ∀ rq s d p hop, Out.tx rq s d p hop ∈ x.outs →
      s = c.own ∧ ∃ dest th, x.ev = .send dest p rq th ∧ d = target c dest := by
  induction r with
  | start => intro x hx; cases hx
  | @step h st ev st' outs _ hs ih =>
    intro x hx
    rcases List.mem_append.mp hx with hx | hx
    · exact ih x hx
    obtain rfl := List.mem_singleton.mp hx
    intro rq s d p hop ho
    dsimp only at ho ⊢
    cases ev with
    | wait ms => cases hs; cases ho
    | recv hp m =>
      exfalso
      simp only [LanEnd.step] at hs
      by_cases ha : accepted c hp = false
      · rw [if_pos ha] at hs; cases hs; cases ho
      · rw [if_neg ha] at hs
        cases m with
        | data s' d' rts p' =>
          cases hs
          exact absurd (mem_deliver ho).1 (by simp)
        | hello id nt timer =>
          simp only [rhello, newRtr, Rtr.listen] at hs
          (repeat' split at hs) <;> simp at hs <;> obtain ⟨-, rfl⟩ := hs <;> simp at ho
    | send dest pl rqr th =>
      simp only [LanEnd.step, Option.some.injEq] at hs
      unfold send at hs
      split at hs
      · have := (Prod.ext_iff.mp hs).2
        dsimp only at this
        subst this
        exact absurd (mem_deliver ho).1 (by simp)
      · have := (Prod.ext_iff.mp hs).2
        dsimp only at this
        subst this
        rcases List.mem_append.mp ho with ho | ho
        · split at ho
          · simp only [List.mem_singleton, Out.tx.injEq] at ho
            obtain ⟨rfl, rfl, rfl, rfl, -⟩ := ho
            exact ⟨rfl, dest, th, rfl, rfl⟩
          · cases ho
        · split at ho
          · exact absurd (mem_deliver ho).1 (by simp)
          · cases ho
    | helloTimer =>
      exfalso
      simp only [LanEnd.step, sendhello] at hs
      split at hs <;> cases hs <;> simp at ho
    | drTimer =>
      exfalso
      simp only [LanEnd.step] at hs
      (repeat' split at hs) <;> cases hs <;> simp at ho
    | cacheTimer uid =>
      exfalso
      simp only [LanEnd.step] at hs
      (repeat' split at hs) <;> cases hs <;> simp at ho

/-- C76: a packet for this node itself goes to NSP and not to the LAN. -/
theorem to_self {c : Cfg} {h : List Rec} {st' : St} {t : Nat} {p : Bytes} {rqr th : Bool}
    {outs : List Out} (r : Run c (h ++ [⟨t, .send (.node c.own) p rqr th, outs⟩]) st') :
    outs = [.nsp (.node c.own) false p] := by
  obtain ⟨st, r0, rfl, hs⟩ := r.last
  simp only [LanEnd.step, Option.some.injEq, send, if_pos] at hs
  rw [← show _ = outs from (Prod.ext_iff.mp hs).2]
  simp [deliver]

/-- C76: a loop node: sent to the designated router, addressed to this node;
with no router to loop it, it is not sent, and returned if that was asked. -/
theorem loop_node {c : Cfg} {h : List Rec} {st' : St} {t : Nat} {p : Bytes} {rqr th : Bool}
    {outs : List Out} (r : PRun c (h ++ [⟨t, .send .circuit p rqr th, outs⟩]) st')
    (hh : th = true ∨ NotHeard c h t c.own) :
    (∀ i, RouterThere c h t i → outs = [.tx rqr c.own c.own p (mac i)]) ∧
    (NoRouter c h t → outs = if rqr then [.nsp (.node c.own) true p] else []) := by
  obtain ⟨st, r0, rfl, hs⟩ := r.last
  have ho := send_outs hs (by simp)
  rw [target, circSend_miss (hh.imp id (notCached r0))] at ho
  constructor
  · intro i hr
    obtain ⟨d, hd, rfl⟩ := there r0 hr
    rw [ho, hd]
    rfl
  · intro hr
    rw [ho, notThere r0 hr]
    cases rqr <;> simp [deliver]

/-- C76, finding: a Connect Initiate for a node heard in the last minute is
sent, and returned to NSP as undeliverable as well, always. -/
theorem connect_returned_though_sent {c : Cfg} {h : List Rec} {st' : St} {t n : Nat} {p : Bytes}
    {outs : List Out} {hop : Bytes}
    (r : PRun c (h ++ [⟨t, .send (.node n) p true false, outs⟩]) st') (hn : n ≠ c.own)
    (hh : HeardThrough c h t n hop) :
    outs = [.tx true c.own n p hop, .nsp (.node n) true p] := by
  obtain ⟨st, r0, rfl, hs⟩ := r.last
  obtain ⟨e, hf, rfl⟩ := cachedHop r0 hh
  rw [send_outs hs (by simpa using hn), target, circSend_hit hf]
  simp [deliver]

/-- And what NSP does with it: whatever the connection, if it still waits for
an answer to its Connect Initiate it closes and reports reason 39,
unreachable (nsp.py:1412-1420). -/
theorem returned_connect_fails (k : Nsp.Conn) (hk : k.state = .ci) (m : Nsp.Msg)
    (r : Bool) (f i s : Nat) (q : Bytes) (hm : m.body = .connInit r f i s q) :
    ∃ k', Nsp.recv k m = .ok k' ∧ Nsp.Out.scDisc 39 [] true ∈ k'.log ∧ k'.state = .closed := by
  unfold Nsp.recv
  rw [hk]
  dsimp only [Nsp.ciRecv]
  rw [hm]
  exact ⟨_, rfl, by simp [Nsp.close, Nsp.Conn.emit], rfl⟩

/-- C76: what is missing for that: a packet for another node comes back only if
the node was heard before and the caller trusts that. -/
theorem returned_partial {c : Cfg} {h : List Rec} {st' : St} {t n : Nat} {p : Bytes}
    {rqr th : Bool} {outs : List Out} (r : Run c (h ++ [⟨t, .send (.node n) p rqr th, outs⟩]) st')
    (hn : n ≠ c.own) {src : Peer} {rts : Bool} {q : Bytes} (ho : Out.nsp src rts q ∈ outs) :
    rqr = true ∧ th = false ∧ heard c n h ≠ [] := by
  obtain ⟨st, r0, rfl, hs⟩ := r.last
  have he := send_outs hs (by simpa using hn)
  rw [target] at he
  by_cases hm : th = true ∨ st.cache.find? (·.id = n) = none
  · rw [circSend_miss hm] at he
    cases hd : st.dr with
    | some d => rw [hd] at he; rw [he] at ho; simp at ho
    | none =>
      rw [hd] at he
      dsimp only at he
      rw [if_neg hn] at he
      rw [he] at ho
      simp at ho
  · cases th with
    | true => exact absurd (.inl rfl) hm
    | false =>
      cases hf : st.cache.find? (·.id = n) with
      | none => exact absurd (.inr hf) hm
      | some e =>
        rw [circSend_hit hf] at he
        refine ⟨?_, rfl, ?_⟩
        · cases rqr with
          | true => rfl
          | false => rw [he] at ho; simp at ho
        · obtain ⟨t', hl, -⟩ := (inv_run r0).cached e (List.mem_of_find?_eq_some hf)
          have hid : e.id = n := by simpa using List.find?_some hf
          intro hnil
          rw [hid, hnil] at hl
          cases hl

/-! ## C77: what is received -/

/-- A link address of a DECnet node: the prefix and the address of a node, low
byte first. -/
def NodeAddr (hop : Bytes) (n : Nat) : Prop :=
  1024 ≤ n ∧ n < 65536 ∧ n % 1024 ≠ 0 ∧
    hop = [0xaa, 0, 4, 0, UInt8.ofNat (n % 256), UInt8.ofNat (n / 256)]

theorem mac_eq (n : Nat) : mac n = [0xaa, 0, 4, 0, UInt8.ofNat (n % 256), UInt8.ofNat (n / 256)] := by
  have h2 : UInt8.ofNat (n / 256 % 256) = UInt8.ofNat (n / 256) := by
    apply UInt8.toNat.inj
    simp
  simp [mac, Addr.HIORD, Fields.le, h2]

theorem accepted_iff {c : Cfg} {hop : Bytes} (hl : hop.length = 6) (ho : c.own < 65536) :
    accepted c hop = true ↔ ∃ n, n ≠ c.own ∧ NodeAddr hop n := by
  match hop, hl with
  | [a, b, d, e, f, g], _ =>
    have hf : f.toNat < 256 := by simpa using f.toNat_lt
    have hg : g.toNat < 256 := by simpa using g.toNat_lt
    unfold accepted Addr.ofMac
    simp only [List.take, List.drop, Addr.HIORD, Fields.fromLe, Nat.mul_zero, Nat.add_zero]
    by_cases hp : [a, b, d, e] = [0xaa, 0, 4, 0]
    · simp only [List.cons.injEq, and_true] at hp
      obtain ⟨rfl, rfl, rfl, rfl⟩ := hp
      simp only [ne_eq, not_true_eq_false, if_false]
      have hn : ∀ n, n < 65536 → ([0xaa, 0, 4, 0, f, g] = ([0xaa, 0, 4, 0, UInt8.ofNat (n % 256), UInt8.ofNat (n / 256)] : Bytes) ↔
          n = f.toNat + 256 * g.toNat) := by
        intro n hn
        simp only [List.cons.injEq, true_and, and_true]
        constructor
        · rintro ⟨rfl, rfl⟩
          simp only [UInt8.toNat_ofNat']
          omega
        · rintro rfl
          constructor
          · apply UInt8.toNat.inj; simp only [UInt8.toNat_ofNat']; omega
          · apply UInt8.toNat.inj; simp only [UInt8.toNat_ofNat']; omega
      have hown : [0xaa, 0, 4, 0, f, g] = mac c.own ↔ c.own = f.toNat + 256 * g.toNat := by
        rw [mac_eq]; exact hn _ ho
      by_cases hbad : ((f.toNat + 256 * g.toNat : Nat) : Int) % 1024 = 0 ∨ ((f.toNat + 256 * g.toNat : Nat) : Int) / 1024 = 0
      · rw [if_pos hbad]
        simp only [Bool.and_false, Bool.false_eq_true, false_iff]
        rintro ⟨n, -, h1, h2, h3, h4⟩
        have := (hn n h2).mp h4
        omega
      · rw [if_neg hbad]
        unfold Addr.mk
        rw [if_neg (by simp; omega)]
        simp only [Bool.and_true, decide_eq_true_eq, hown]
        constructor
        · intro h
          exact ⟨f.toNat + 256 * g.toNat, fun h' => h h'.symm, by omega, by omega, by omega, (hn _ (by omega)).mpr rfl⟩
        · rintro ⟨n, h0, h1, h2, h3, h4⟩ h
          have := (hn n h2).mp h4
          omega
    · rw [if_pos hp]
      simp only [Bool.and_false, Bool.false_eq_true, false_iff]
      rintro ⟨n, -, h1, h2, h3, h4⟩
      simp only [List.cons.injEq] at h4
      obtain ⟨rfl, rfl, rfl, rfl, -⟩ := h4
      exact hp rfl

/-- C77: a data packet for this node goes to NSP, once, with its source,
content and return mark; if it comes from this node itself it is given as coming
from the loop node, if there is one.  Any other data packet, and any packet from
our own link address or from one that is not a node's, goes nowhere. -/
theorem delivered {c : Cfg} {h : List Rec} {st' : St} {t : Nat} {hop : Bytes} {src dst : Nat}
    {rts : Bool} {p : Bytes} {outs : List Out} (hl : hop.length = 6) (ho : c.own < 65536)
    (r : Run c (h ++ [⟨t, .recv hop (.data src dst rts p), outs⟩]) st') :
    (∀ n, n ≠ c.own → NodeAddr hop n → dst = c.own → outs =
      [.nsp (if src = c.own ∧ c.loop = true then .circuit else .node src) rts p]) ∧
    ((¬ ∃ n, n ≠ c.own ∧ NodeAddr hop n) ∨ dst ≠ c.own → outs = []) := by
  obtain ⟨st, r0, rfl, hs⟩ := r.last
  simp only [LanEnd.step] at hs
  by_cases ha : accepted c hop = false
  · rw [if_pos ha] at hs
    have : [] = outs := (Prod.ext_iff.mp (Option.some.inj hs)).2
    subst this
    refine ⟨fun n h1 h2 _ => ?_, fun _ => rfl⟩
    rw [(accepted_iff hl ho).mpr ⟨n, h1, h2⟩] at ha
    cases ha
  · rw [if_neg ha] at hs
    have : _ = outs := (Prod.ext_iff.mp (Option.some.inj hs)).2
    dsimp only at this
    subst this
    have ha' : accepted c hop = true := by simpa using ha
    refine ⟨fun n _ _ hd => ?_, fun hx => ?_⟩
    · unfold deliver
      rw [if_pos hd]
      simp
    · rcases hx with hx | hx
      · exact absurd ((accepted_iff hl ho).mp ha') hx
      · unfold deliver
        rw [if_neg hx]

/-- C77: nothing else reaches NSP: every item NSP gets is a packet it sent
itself or one that came from the LAN for this node. -/
theorem nsp_items {c : Cfg} {h : List Rec} {st : St} (r : Run c h st) :
    ∀ x ∈ h, ∀ src rts p, Out.nsp src rts p ∈ x.outs →
      (∃ dest rq th, x.ev = .send dest p rq th) ∨
      ∃ hop s, x.ev = .recv hop (.data s c.own rts p) ∧
        (src = .node s ∨ (src = .circuit ∧ s = c.own)) := by
  induction r with
  | start => intro x hx; cases hx
  | @step h st ev st' outs _ hs ih =>
    intro x hx
    rcases List.mem_append.mp hx with hx | hx
    · exact ih x hx
    obtain rfl := List.mem_singleton.mp hx
    intro src rts p ho
    dsimp only at ho ⊢
    cases ev with
    | wait ms => cases hs; cases ho
    | recv hp m =>
      right
      simp only [LanEnd.step] at hs
      by_cases ha : accepted c hp = false
      · rw [if_pos ha] at hs; cases hs; cases ho
      · rw [if_neg ha] at hs
        cases m with
        | data s' d' rts' p' =>
          cases hs
          obtain ⟨h1, rfl⟩ := mem_deliver ho
          simp only [Out.nsp.injEq] at h1
          obtain ⟨h1, rfl, rfl⟩ := h1
          refine ⟨hp, s', rfl, ?_⟩
          rw [h1]
          split
          next hc => exact .inr ⟨rfl, by simp at hc; exact hc.1⟩
          next => exact .inl rfl
        | hello id nt timer =>
          simp only [rhello, newRtr, Rtr.listen] at hs
          (repeat' split at hs) <;> simp at hs <;> obtain ⟨-, rfl⟩ := hs <;> simp at ho
    | send dest pl rqr th =>
      left
      simp only [LanEnd.step, Option.some.injEq] at hs
      unfold send at hs
      split at hs
      · have := (Prod.ext_iff.mp hs).2
        dsimp only at this
        subst this
        have := (mem_deliver ho).1
        simp only [Out.nsp.injEq] at this
        obtain ⟨-, -, rfl⟩ := this
        exact ⟨_, _, _, rfl⟩
      · have := (Prod.ext_iff.mp hs).2
        dsimp only at this
        subst this
        rcases List.mem_append.mp ho with ho | ho
        · split at ho <;> simp at ho
        · split at ho
          · have := (mem_deliver ho).1
            simp only [Out.nsp.injEq] at this
            obtain ⟨-, -, rfl⟩ := this
            exact ⟨_, _, _, rfl⟩
          · cases ho
    | helloTimer =>
      exfalso
      simp only [LanEnd.step, sendhello] at hs
      split at hs <;> cases hs <;> simp at ho
    | drTimer =>
      exfalso
      simp only [LanEnd.step] at hs
      (repeat' split at hs) <;> cases hs <;> simp at ho
    | cacheTimer uid =>
      exfalso
      simp only [LanEnd.step] at hs
      (repeat' split at hs) <;> cases hs <;> simp at ho

/-! ## C78: the designated router and our hello messages -/

/-- What the routing layer is told, read as the router that is up; `none` if it
is told something that makes no sense. -/
def told : Option Nat → List Out → Option (Option Nat)
  | v, [] => some v
  | none, .up i :: l => told (some i) l
  | some _, .up _ :: _ => none
  | some i, .down j :: l => if i = j then told none l else none
  | none, .down _ :: l => told none l
  | v, _ :: l => told v l

theorem told_append (v : Option Nat) (a b : List Out) :
    told v (a ++ b) = (told v a).bind fun w => told w b := by
  induction a generalizing v with
  | nil => rfl
  | cons o a ih =>
    cases o <;> cases v <;> simp only [List.cons_append, told, ih] <;> try rfl
    split <;> rfl

theorem told_quiet (v : Option Nat) (l : List Out)
    (h : ∀ o ∈ l, (∀ i, o ≠ .up i) ∧ ∀ i, o ≠ .down i) : told v l = some v := by
  induction l with
  | nil => cases v <;> rfl
  | cons o l ih =>
    have h1 := h o (List.mem_cons_self ..)
    have h2 := ih fun o ho => h o (List.mem_cons_of_mem _ ho)
    cases o with
    | up i => exact absurd rfl (h1.1 i)
    | down i => exact absurd rfl (h1.2 i)
    | tx => cases v <;> exact h2
    | hello => cases v <;> exact h2
    | nsp => cases v <;> exact h2

theorem told_run {c : Cfg} {h : List Rec} {st : St} (r : Run c h st) :
    told none (h.flatMap (·.outs)) = some (st.dr.map (·.id)) := by
  induction r with
  | start => rfl
  | @step h st ev st' outs _ hs ih =>
    rw [List.flatMap_append, told_append, ih]
    simp only [List.flatMap_cons, List.flatMap_nil, List.append_nil, Option.bind_some]
    cases ev with
    | wait ms => cases hs; cases st.dr <;> rfl
    | recv hp m =>
      simp only [LanEnd.step] at hs
      by_cases ha : accepted c hp = false
      · rw [if_pos ha] at hs; cases hs; cases st.dr <;> rfl
      · rw [if_neg ha] at hs
        cases m with
        | data s' d' rts' p' =>
          cases hs
          rw [told_quiet]
          · unfold learn; split <;> rfl
          · intro o ho
            rw [(mem_deliver ho).1]
            simp
        | hello id nt timer =>
          simp only [rhello, newRtr, Rtr.listen] at hs
          (repeat' split at hs) <;> simp at hs <;> obtain ⟨rfl, rfl⟩ := hs <;> simp_all [told]
    | send dest pl rqr th =>
      simp only [LanEnd.step, Option.some.injEq] at hs
      unfold send at hs
      split at hs
      · cases hs
        rw [told_quiet]
        intro o ho
        rw [(mem_deliver ho).1]
        simp
      · cases hs
        rw [told_quiet]
        · rw [circSend_state]; cases th <;> rfl
        · intro o ho
          rcases List.mem_append.mp ho with ho | ho
          · split at ho
            · rw [List.mem_singleton.mp ho]; simp
            · cases ho
          · split at ho
            · rw [(mem_deliver ho).1]; simp
            · cases ho
    | helloTimer =>
      simp only [LanEnd.step, sendhello] at hs
      split at hs <;> cases hs <;> cases st.dr <;> rfl
    | drTimer =>
      simp only [LanEnd.step] at hs
      (repeat' split at hs) <;> cases hs <;> simp_all [told]
    | cacheTimer uid =>
      simp only [LanEnd.step] at hs
      (repeat' split at hs) <;> cases hs <;> rw [told_quiet _ _ (by simp)] <;> rfl

/-- C78: the routing layer is never told that a router is up while another one
is, nor that one goes down which is not up (though it may be told twice); and it
knows the router of the latest hello while that is valid, and none when it has
run out. -/
theorem routing_informed {c : Cfg} {h : List Rec} {st : St} (r : PRun c h st) :
    ∃ v, told none (h.flatMap (·.outs)) = some v ∧
      (∀ i, RouterThere c h st.now i → v = some i) ∧ (NoRouter c h st.now → v = none) := by
  refine ⟨_, told_run r.run, ?_, ?_⟩
  · intro i hi
    obtain ⟨d, hd, rfl⟩ := there r hi
    rw [hd]; rfl
  · intro hn
    rw [notThere r hn]; rfl

/-- Times at which we send hello messages after the first. -/
def helloTimes (h : List Rec) : List Nat :=
  h.filterMap fun x => if x.outs.any (fun o => match o with | .hello _ => true | _ => false) then some x.time else none

theorem hello_phase {c : Cfg} {h : List Rec} {st : St} (r : PRun c h st) :
    ∃ k, helloTimes h = (List.range k).map (fun i => (i + 1) * c.t3) ∧ st.htimer = (k + 1) * c.t3 ∧
      ∀ x ∈ h, x.time ≤ st.now := by
  induction r with
  | start => exact ⟨0, rfl, by simp [start, sendhello], fun x hx => (by cases hx)⟩
  | @step h st ev st' outs r0 hs hp ih =>
    obtain ⟨k, hk, ht, hle⟩ := ih
    have hpre := r0.punctual
    have quiet : (∀ o ∈ outs, ∀ n, o ≠ .hello n) → st'.htimer = st.htimer → st.now ≤ st'.now →
        ∃ k, helloTimes (h ++ [⟨st.now, ev, outs⟩]) = (List.range k).map (fun i => (i + 1) * c.t3) ∧
          st'.htimer = (k + 1) * c.t3 ∧ ∀ x ∈ h ++ [⟨st.now, ev, outs⟩], x.time ≤ st'.now := by
      intro h1 h2 h3
      refine ⟨k, ?_, h2.trans ht, ?_⟩
      · unfold helloTimes at hk ⊢
        rw [List.filterMap_append, hk]
        have : (outs.any fun o => match o with | .hello _ => true | _ => false) = false := by
          rw [List.any_eq_false]
          intro o ho
          have := h1 o ho
          cases o with
          | hello n => exact absurd rfl (this n)
          | _ => simp
        simp [List.filterMap, this]
      · intro x hx
        rcases List.mem_append.mp hx with hx | hx
        · exact Nat.le_trans (hle x hx) h3
        · rw [List.mem_singleton.mp hx]; exact h3
    cases ev with
    | wait ms =>
      cases hs
      exact quiet (fun o ho => (by cases ho)) rfl (Nat.le_add_right _ _)
    | recv hop m =>
      simp only [LanEnd.step] at hs
      by_cases ha : accepted c hop = false
      · rw [if_pos ha] at hs; cases hs
        exact quiet (fun o ho => (by cases ho)) rfl (Nat.le_refl _)
      · rw [if_neg ha] at hs
        cases m with
        | data s' d' rts' p' =>
          cases hs
          refine quiet ?_ (by unfold learn; split <;> rfl) (by unfold learn; split <;> exact Nat.le_refl _)
          intro o ho n
          rw [(mem_deliver ho).1]
          simp
        | hello id nt timer =>
          simp only [rhello, newRtr, Rtr.listen] at hs
          (repeat' split at hs) <;> simp at hs <;> obtain ⟨rfl, rfl⟩ := hs <;>
            refine quiet ?_ rfl (Nat.le_refl _) <;> simp
    | send dest pl rqr th =>
      simp only [LanEnd.step, Option.some.injEq] at hs
      unfold send at hs
      split at hs
      · cases hs
        refine quiet ?_ rfl (Nat.le_refl _)
        intro o ho n
        rw [(mem_deliver ho).1]
        simp
      · cases hs
        refine quiet ?_ ?_ ?_
        · intro o ho n
          rcases List.mem_append.mp ho with ho | ho
          · split at ho
            · rw [List.mem_singleton.mp ho]; simp
            · cases ho
          · split at ho
            · rw [(mem_deliver ho).1]; simp
            · cases ho
        · rw [circSend_state]; cases th <;> rfl
        · rw [circSend_state]; cases th <;> exact Nat.le_refl _
    | helloTimer =>
      simp only [LanEnd.step, sendhello] at hs
      split at hs
      · cases hs
        exact quiet (fun o ho => (by cases ho)) rfl (Nat.le_refl _)
      next hlt =>
        cases hs
        have hnow : st.now = (k + 1) * c.t3 := by
          have := hpre.1
          omega
        refine ⟨k + 1, ?_, ?_, ?_⟩
        · unfold helloTimes at hk ⊢
          rw [List.filterMap_append, hk, List.range_succ, List.map_append]
          simp [List.filterMap, hnow]
        · dsimp only
          rw [hnow, Nat.add_mul (k + 1) 1, Nat.one_mul]
        · intro x hx
          rcases List.mem_append.mp hx with hx | hx
          · exact hle x hx
          · rw [List.mem_singleton.mp hx]; exact Nat.le_refl _
    | drTimer =>
      simp only [LanEnd.step] at hs
      (repeat' split at hs) <;> cases hs <;> refine quiet ?_ rfl (Nat.le_refl _) <;> simp
    | cacheTimer uid =>
      simp only [LanEnd.step] at hs
      (repeat' split at hs) <;> cases hs <;> refine quiet ?_ rfl (Nat.le_refl _) <;> simp

/-- C78: our hello messages go out at every multiple of the hello time, and at
no other time: the k-th at `k` times the hello time, and no event comes after
the time for the next one without it. -/
theorem hello_regular {c : Cfg} {h : List Rec} {st : St} (r : PRun c h st) :
    ∃ k, helloTimes h = (List.range k).map (fun i => (i + 1) * c.t3) ∧
      ∀ x ∈ h, x.time ≤ (k + 1) * c.t3 := by
  obtain ⟨k, h1, h2, h3⟩ := hello_phase r
  refine ⟨k, h1, fun x hx => Nat.le_trans (h3 x hx) ?_⟩
  rw [← h2]
  exact r.punctual.1

/-- C78: they name the designated router, or none. -/
theorem hello_neighbor {c : Cfg} {h : List Rec} {st' : St} {t : Nat} {o : Option Nat} {ev : Ev}
    {outs : List Out} (r : PRun c (h ++ [⟨t, ev, outs⟩]) st') (ho : .hello o ∈ outs) :
    (∀ i, RouterThere c h t i → o = some i) ∧ (NoRouter c h t → o = none) := by
  obtain ⟨st, r0, rfl, hs⟩ := r.last
  have key : o = st.dr.map (·.id) := by
    cases ev with
    | wait ms => cases hs; cases ho
    | recv hp m =>
      exfalso
      simp only [LanEnd.step] at hs
      by_cases ha : accepted c hp = false
      · rw [if_pos ha] at hs; cases hs; cases ho
      · rw [if_neg ha] at hs
        cases m with
        | data s' d' rts p' =>
          cases hs
          exact absurd (mem_deliver ho).1 (by simp)
        | hello id nt timer =>
          simp only [rhello, newRtr, Rtr.listen] at hs
          (repeat' split at hs) <;> simp at hs <;> obtain ⟨-, rfl⟩ := hs <;> simp at ho
    | send dest pl rqr th =>
      exfalso
      simp only [LanEnd.step, Option.some.injEq] at hs
      unfold send at hs
      split at hs
      · have := (Prod.ext_iff.mp hs).2
        dsimp only at this
        subst this
        exact absurd (mem_deliver ho).1 (by simp)
      · have := (Prod.ext_iff.mp hs).2
        dsimp only at this
        subst this
        rcases List.mem_append.mp ho with ho | ho
        · split at ho <;> simp at ho
        · split at ho
          · exact absurd (mem_deliver ho).1 (by simp)
          · cases ho
    | helloTimer =>
      simp only [LanEnd.step, sendhello] at hs
      split at hs <;> cases hs
      · cases ho
      · simpa using ho
    | drTimer =>
      exfalso
      simp only [LanEnd.step] at hs
      (repeat' split at hs) <;> cases hs <;> simp at ho
    | cacheTimer uid =>
      exfalso
      simp only [LanEnd.step] at hs
      (repeat' split at hs) <;> cases hs <;> simp at ho
  subst key
  constructor
  · intro i hi
    obtain ⟨d, hd, rfl⟩ := there r0 hi
    rw [hd]; rfl
  · intro hn
    rw [notThere r0 hn]; rfl

/-- C78, finding: a router that announces a hello time of 1162 s or more, and
is not a Phase II node, stops the node. -/
theorem long_hello_time_stops_node {c : Cfg} {st : St} {hop : Bytes} {id nt timer : Nat}
    (ha : accepted c hop = true) (hid : id / 1024 = c.own / 1024) (hnt : nt ≠ 0)
    (ht : 1162 ≤ timer) (hnew : ∀ r, st.dr = some r → r.id ≠ id) :
    LanEnd.step c st (.recv hop (.hello id nt timer)) = none := by
  have hl : Rtr.listen st.now ⟨id, nt, Lan.t4of c.t3 timer, none⟩ = none := by
    unfold Rtr.listen
    rw [if_neg hnt, if_pos]
    simp only [Lan.maxTimer, Lan.t4of]
    split <;> omega
  have hn : newRtr c st id nt timer = none := by
    unfold newRtr
    rw [hl]; rfl
  simp only [LanEnd.step]
  rw [if_neg (by simp [ha])]
  dsimp only [rhello]
  rw [if_neg (fun g => g hid)]
  cases hd : st.dr with
  | none => exact hn
  | some r =>
    dsimp only
    rw [if_pos (hnew r hd), hn]
    rfl

/-- C78: otherwise nothing an end node on a LAN receives, sends or waits for
makes it fail. -/
theorem no_exception {c : Cfg} {h : List Rec} {st : St} (r : Run c h st) (ev : Ev)
    (hc : c.t3 ≤ 1161000) (hh : ∀ x ∈ hellos c h, x.timer < 1162)
    (he : ∀ hop id nt timer, ev = .recv hop (.hello id nt timer) → timer < 1162) :
    LanEnd.step c st ev ≠ none := by
  have hlim : ∀ timer, timer < 1162 → ¬ Lan.maxTimer ≤ Lan.t4of c.t3 timer := by
    intro timer ht
    simp only [Lan.maxTimer, Lan.t4of]
    split <;> omega
  cases ev with
  | wait ms => simp [LanEnd.step]
  | send => simp [LanEnd.step]
  | helloTimer => simp only [LanEnd.step]; split <;> simp
  | drTimer => simp only [LanEnd.step]; (repeat' split) <;> simp
  | cacheTimer uid => simp only [LanEnd.step]; (repeat' split) <;> simp
  | recv hop m =>
    simp only [LanEnd.step]
    split
    · simp
    · cases m with
      | data => simp
      | hello id nt timer =>
        have hnew : newRtr c st id nt timer ≠ none := by
          unfold newRtr Rtr.listen
          dsimp only
          split
          · simp
          · rw [if_neg (hlim timer (he hop id nt timer rfl))]; simp
        dsimp only [rhello]
        split
        · simp
        · cases hd : st.dr with
          | none => exact hnew
          | some d =>
            dsimp only
            split
            · cases hz : newRtr c st id nt timer with
              | none => exact absurd hz hnew
              | some z => simp
            · obtain ⟨l, x, _, _, hx, _, _, ht4, _⟩ := (inv_run r).router d hd
              unfold Rtr.listen
              split
              · simp
              · have : ¬ Lan.maxTimer ≤ d.t4 := by
                  rw [ht4, ← t4of_eq c x.time x.id x.nt x.timer]
                  exact hlim _ (hh x hx)
                rw [if_neg this]; simp

/-! ## Cases -/

/-- `Punctual`, computed. -/
def punctualB (st : St) : Bool :=
  st.now ≤ st.htimer && (match st.dr with
    | some r => (match r.timer with | some t => decide (st.now ≤ t) | none => true)
    | none => true) && (st.cache ++ st.gone).all fun e => st.now ≤ e.timer

theorem punctualB_iff {st : St} (h : punctualB st = true) : Punctual st := by
  simp only [punctualB, Bool.and_eq_true, List.all_eq_true, decide_eq_true_eq] at h
  refine ⟨h.1.1, fun r hr t ht => ?_, h.2⟩
  have := h.1.2
  rw [hr] at this
  dsimp only at this
  rw [ht] at this
  simpa using this

/-- Play events. -/
def play (c : Cfg) (h : List Rec) (st : St) : List Ev → Option (List Rec × St)
  | [] => some (h, st)
  | ev :: l => match LanEnd.step c st ev with
    | some (st', o) => if punctualB st' then play c (h ++ [⟨st.now, ev, o⟩]) st' l else none
    | none => none

theorem play_run {c : Cfg} {h g : List Rec} {st st' : St} {l : List Ev} (r : PRun c h st)
    (hp : play c h st l = some (g, st')) : PRun c g st' := by
  induction l generalizing h st with
  | nil => cases hp; exact r
  | cons ev l ih =>
    unfold play at hp
    split at hp
    next st1 o hs =>
      split at hp
      next hb => exact ih (.step r hs (punctualB_iff hb)) hp
      next => cases hp
    next => cases hp

/-- Node 1.1, hello timer 10 s. -/
def exC : Cfg := ⟨1025, 10000, false⟩

/-- Node 1.2 is heard through router 1.3, which then says hello; then we send to
1.2 and to 1.4. -/
def exEvs : List Ev :=
  [.recv (mac 1027) (.data 1026 1025 false [7]), .wait 5000, .recv (mac 1027) (.hello 1027 2 15),
   .wait 5000, .helloTimer, .send (.node 1026) [8] true false, .send (.node 1028) [9] true false]

example : ∃ h st, PRun exC h st ∧ h.flatMap (·.outs) =
    [.nsp (.node 1026) false [7], .up 1027, .hello (some 1027),
     .tx true 1025 1026 [8] (mac 1027), .nsp (.node 1026) true [8],
     .tx true 1025 1028 [9] (mac 1027)] := by
  cases hp : play exC [] (start exC).1 exEvs with
  | none => exact absurd hp (by decide)
  | some z =>
    refine ⟨z.1, z.2, play_run .start hp, ?_⟩
    have : (play exC [] (start exC).1 exEvs).map (fun z => z.1.flatMap (·.outs)) = some (z.1.flatMap (·.outs)) := by
      rw [hp]; rfl
    exact Option.some.inj (this.symm.trans (by decide))

/-- The hypotheses of C75: in that history node 1.2 is heard through 1.3, 1.4 is
not heard, and 1.3 is the router. -/
example : let h : List Rec := [⟨0, .recv (mac 1027) (.data 1026 1025 false [7]), [.nsp (.node 1026) false [7]]⟩,
      ⟨0, .wait 5000, []⟩, ⟨5000, .recv (mac 1027) (.hello 1027 2 15), [.up 1027]⟩, ⟨5000, .wait 5000, []⟩]
    HeardThrough exC h 10000 1026 (mac 1027) ∧ NotHeard exC h 10000 1028 ∧ RouterThere exC h 10000 1027 := by
  refine ⟨⟨⟨0, by decide, by decide⟩, by decide⟩, ?_, ⟨⟨5000, 1027, 2, 15⟩, by decide, rfl, ?_⟩⟩
  · intro t hop h
    exact absurd h (by rw [show heard exC 1028 _ = [] from by decide]; simp)
  · intro x hx _ _
    rw [show hellos exC _ = [⟨5000, 1027, 2, 15⟩] from by decide] at hx
    rw [List.mem_singleton.mp hx]
    decide

/-- C75, finding: after a request to forget, the timer of the forgotten entry
removes the next one.  Node 1.2 was heard through 1.3 one second ago, and
nothing else was heard, yet the packet does not go to 1.3. -/
theorem forgetting_lingers :
    ∃ h st outs, PRun { exC with t3 := 100000 } (h ++ [⟨60000, .send (.node 1026) [8] false false, outs⟩]) st ∧
      (heard { exC with t3 := 100000 } 1026 h).getLast? = some (59000, mac 1027) ∧
      outs = [.tx false 1025 1026 [8] (mac 1026)] := by
  let evs : List Ev := [.recv (mac 1027) (.data 1026 1025 false [7]), .wait 50000,
    .send (.node 1026) [8] false true, .wait 9000, .recv (mac 1027) (.data 1026 1025 false [7]),
    .wait 1000, .cacheTimer 0]
  cases hp : play { exC with t3 := 100000 } [] (start { exC with t3 := 100000 }).1 evs with
  | none => exact absurd hp (by decide)
  | some z =>
    have r := play_run .start hp
    have h1 : (play { exC with t3 := 100000 } [] (start { exC with t3 := 100000 }).1 evs).map
        (fun z => ((heard { exC with t3 := 100000 } 1026 z.1).getLast?, z.2.now,
          (LanEnd.step { exC with t3 := 100000 } z.2 (.send (.node 1026) [8] false false)).map (·.2),
          (LanEnd.step { exC with t3 := 100000 } z.2 (.send (.node 1026) [8] false false)).map fun x => punctualB x.1)) =
        some (some (59000, mac 1027), 60000, some [.tx false 1025 1026 [8] (mac 1026)], some true) := by
      decide
    rw [hp] at h1
    simp only [Option.map_some, Option.some.injEq, Prod.mk.injEq] at h1
    obtain ⟨h1, h2, h3, h4⟩ := h1
    cases hs : LanEnd.step { exC with t3 := 100000 } z.2 (.send (.node 1026) [8] false false) with
    | none => rw [hs] at h3; cases h3
    | some x =>
      rw [hs] at h3 h4
      simp only [Option.map_some, Option.some.injEq] at h3 h4
      refine ⟨z.1, x.1, x.2, ?_, h1, h3⟩
      rw [← h2]
      exact .step r hs (punctualB_iff h4)

end Verif.LanEnd
