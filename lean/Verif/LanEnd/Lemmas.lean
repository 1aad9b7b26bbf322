import Verif.LanEnd.Spec

namespace Verif.LanEnd

theorem hellos_snoc (c : Cfg) (h : List Rec) (x : Rec) :
    hellos c (h ++ [x]) = hellos c h ++ (helloOf c x).toList := by
  unfold hellos
  rw [List.filterMap_append]
  cases hx : helloOf c x <;> simp [List.filterMap, hx]

theorem heard_snoc (c : Cfg) (n : Nat) (h : List Rec) (x : Rec) :
    heard c n (h ++ [x]) = heard c n h ++ (heardOf c n x).toList := by
  unfold heard
  rw [List.filterMap_append]
  cases hx : heardOf c n x <;> simp [List.filterMap, hx]

theorem t4of_eq (c : Cfg) (t i nt timer : Nat) : Lan.t4of c.t3 timer = listenTime c ⟨t, i, nt, timer⟩ := rfl

/-- What the state has to do with the history. -/
structure Inv (c : Cfg) (h : List Rec) (st : St) : Prop where
  cached : ∀ e ∈ st.cache, ∃ t, (heard c e.id h).getLast? = some (t, e.hop) ∧ e.timer = t + 60000
  kept : ∀ n t hop, (heard c n h).getLast? = some (t, hop) → h.any (isTryhard c n) = false →
    (∃ e ∈ st.cache, e.id = n) ∨ t + 60000 ≤ st.now
  uniq : ∀ e ∈ st.cache, ∀ e' ∈ st.cache, e.id = e'.id → e = e'
  zombie : ∀ e ∈ st.gone, h.any (isTryhard c e.id) = true
  router : ∀ r, st.dr = some r → ∃ l x, (hellos c h).getLast? = some l ∧ l.id = r.id ∧
    x ∈ hellos c h ∧ x.id = r.id ∧ x.nt = r.nt ∧ r.t4 = listenTime c x ∧
    r.timer = if r.nt = 0 then none else some (l.time + r.t4)
  rkept : ∀ l, (hellos c h).getLast? = some l → (∃ r, st.dr = some r ∧ r.id = l.id) ∨
    ∃ x ∈ hellos c h, x.id = l.id ∧ x.nt ≠ 0 ∧ l.time + listenTime c x ≤ st.now

theorem inv_start (c : Cfg) : Inv c [] (start c).1 := by
  constructor <;> simp [start, sendhello, heard, hellos]

/-- Events that neither are heard nor change anything but the time. -/
theorem Inv.silent {c : Cfg} {h : List Rec} {st st' : St} (i : Inv c h st) (x : Rec)
    (h1 : helloOf c x = none) (h2 : ∀ n, heardOf c n x = none) (hc : st'.cache = st.cache)
    (hg : st'.gone = st.gone) (hd : st'.dr = st.dr) (hn : st.now ≤ st'.now) :
    Inv c (h ++ [x]) st' := by
  constructor
  · rw [hc]
    intro e he
    rw [heard_snoc, h2]
    simpa using i.cached e he
  · rw [hc]
    intro n t hop
    rw [heard_snoc, h2]
    intro hl ht
    simp only [List.any_append, Bool.or_eq_false_iff] at ht
    rcases i.kept n t hop (by simpa using hl) ht.1 with a | a
    · exact .inl a
    · exact .inr (by omega)
  · rw [hc]; exact i.uniq
  · rw [hg]
    intro e he
    simp [List.any_append, i.zombie e he]
  · rw [hd]
    intro r hr
    rw [hellos_snoc, h1]
    simpa using i.router r hr
  · rw [hd]
    intro l
    rw [hellos_snoc, h1]
    intro hl
    rcases i.rkept l (by simpa using hl) with a | ⟨y, hy, a, b, d⟩
    · exact .inl a
    · exact .inr ⟨y, by simpa using hy, a, b, by omega⟩

theorem helloOf_send (c : Cfg) (t : Nat) (d : Peer) (p : Bytes) (a b : Bool) (o : List Out) :
    helloOf c ⟨t, .send d p a b, o⟩ = none := rfl

/-- A hello of router `id`. -/
theorem Inv.hello {c : Cfg} {h : List Rec} {st st' : St} (i : Inv c h st) {hop : Bytes}
    {id nt timer : Nat} {o : List Out} (ha : accepted c hop = true)
    (hs : rhello c st id nt timer = some (st', o)) :
    Inv c (h ++ [⟨st.now, .recv hop (.hello id nt timer), o⟩]) st' := by
  have hh : ∀ n, heardOf c n ⟨st.now, .recv hop (.hello id nt timer), o⟩ = none := fun n => rfl
  unfold rhello at hs
  by_cases harea : id / 1024 = c.own / 1024
  · have h1 : helloOf c ⟨st.now, .recv hop (.hello id nt timer), o⟩ = some ⟨st.now, id, nt, timer⟩ :=
      if_pos ⟨ha, harea⟩
    rw [if_neg (fun g => g harea)] at hs
    -- the new state
    have key : ∃ r, st' = { st with dr := some r } ∧ r.id = id ∧
        ∃ x ∈ hellos c h ++ [⟨st.now, id, nt, timer⟩], x.id = id ∧ x.nt = r.nt ∧
          r.t4 = listenTime c x ∧ r.timer = if r.nt = 0 then none else some (st.now + r.t4) := by
      have hnew : ∀ {z : St × List Out}, newRtr c st id nt timer = some z →
          ∃ r, z.1 = { st with dr := some r } ∧ r.id = id ∧ r.nt = nt ∧
            r.t4 = listenTime c ⟨st.now, id, nt, timer⟩ ∧
            r.timer = if r.nt = 0 then none else some (st.now + r.t4) := by
        intro z hz
        unfold newRtr Rtr.listen at hz
        dsimp only at hz
        by_cases h0 : nt = Lan.PHASE2
        · rw [if_pos h0] at hz
          simp only [Option.map_some, Option.some.injEq] at hz
          subst hz
          exact ⟨_, rfl, rfl, rfl, rfl, (if_pos h0).symm⟩
        · rw [if_neg h0] at hz
          by_cases h2 : Lan.maxTimer ≤ Lan.t4of c.t3 timer
          · rw [if_pos h2] at hz; cases hz
          · rw [if_neg h2] at hz
            simp only [Option.map_some, Option.some.injEq] at hz
            subst hz
            exact ⟨_, rfl, rfl, rfl, rfl, (if_neg h0).symm⟩
      cases hdr : st.dr with
      | none =>
        rw [hdr] at hs
        obtain ⟨r, a, b, d, e, f⟩ := hnew hs
        exact ⟨r, a, b, _, List.mem_append_right _ (List.mem_singleton.mpr rfl), rfl, d.symm, e, f⟩
      | some r0 =>
        rw [hdr] at hs
        dsimp only at hs
        by_cases hid : r0.id = id
        · rw [if_neg (fun g => g hid)] at hs
          obtain ⟨l, x, _, hl, hx, hxi, hxn, ht4, htm⟩ := i.router r0 hdr
          unfold Rtr.listen at hs
          by_cases h0 : r0.nt = Lan.PHASE2
          · rw [if_pos h0] at hs
            simp only [Option.map_some, Option.some.injEq, Prod.mk.injEq] at hs
            obtain ⟨rfl, rfl⟩ := hs
            refine ⟨r0, rfl, hid, x, List.mem_append_left _ hx, hxi.trans hid, hxn, ht4, ?_⟩
            rw [htm, if_pos h0, if_pos h0]
          · rw [if_neg h0] at hs
            by_cases h2 : Lan.maxTimer ≤ r0.t4
            · rw [if_pos h2] at hs; cases hs
            · rw [if_neg h2] at hs
              simp only [Option.map_some, Option.some.injEq, Prod.mk.injEq] at hs
              obtain ⟨rfl, rfl⟩ := hs
              exact ⟨_, rfl, hid, x, List.mem_append_left _ hx, hxi.trans hid, hxn, ht4, (if_neg h0).symm⟩
        · rw [if_pos hid] at hs
          cases hz : newRtr c st id nt timer with
          | none => rw [hz] at hs; cases hs
          | some z =>
            rw [hz] at hs
            simp only [Option.map_some, Option.some.injEq, Prod.mk.injEq] at hs
            obtain ⟨hs, -⟩ := hs
            obtain ⟨r, a, b, d, e, f⟩ := hnew hz
            exact ⟨r, hs.symm.trans a, b, _, List.mem_append_right _ (List.mem_singleton.mpr rfl), rfl, d.symm, e, f⟩
    obtain ⟨r, rfl, hid, x, hx, hxi, hxn, ht4, htm⟩ := key
    constructor
    · intro e he
      rw [heard_snoc, hh]
      simpa using i.cached e he
    · intro n t hp
      rw [heard_snoc, hh]
      intro hl ht
      simp only [List.any_append, Bool.or_eq_false_iff] at ht
      exact i.kept n t hp (by simpa using hl) ht.1
    · exact i.uniq
    · intro e he
      simp [List.any_append, i.zombie e he]
    · intro r' hr'
      obtain rfl : r = r' := Option.some.inj hr'
      refine ⟨⟨st.now, id, nt, timer⟩, x, ?_, hid.symm, ?_, hxi.trans hid.symm, hxn, ht4, htm⟩
      · rw [hellos_snoc, h1]; simp
      · rw [hellos_snoc, h1]; exact hx
    · intro l hl
      rw [hellos_snoc, h1] at hl
      simp only [Option.toList_some, List.getLast?_append, List.getLast?_singleton, Option.some_or,
        Option.some.injEq] at hl
      subst hl
      exact .inl ⟨r, rfl, hid⟩
  · rw [if_pos harea] at hs
    cases hs
    exact i.silent _ (if_neg fun g => harea g.2) hh rfl rfl rfl (Nat.le_refl _)

/-- A data packet from node `n`. -/
theorem Inv.data {c : Cfg} {h : List Rec} {st : St} (i : Inv c h st) {hop : Bytes}
    {n dst : Nat} {rts : Bool} {p : Bytes} {o : List Out} (ha : accepted c hop = true) :
    Inv c (h ++ [⟨st.now, .recv hop (.data n dst rts p), o⟩]) (learn st n hop) := by
  have h1 : helloOf c ⟨st.now, .recv hop (.data n dst rts p), o⟩ = none := rfl
  have h2 : heardOf c n ⟨st.now, .recv hop (.data n dst rts p), o⟩ = some (st.now, hop) :=
    if_pos ⟨ha, rfl⟩
  have h3 : ∀ m, m ≠ n → heardOf c m ⟨st.now, .recv hop (.data n dst rts p), o⟩ = none :=
    fun m hm => if_neg fun g => hm g.2.symm
  have hdr : (learn st n hop).dr = st.dr := by unfold learn; split <;> rfl
  have hnow : (learn st n hop).now = st.now := by unfold learn; split <;> rfl
  have hgone : (learn st n hop).gone = st.gone := by unfold learn; split <;> rfl
  -- the cache afterwards
  have hin : ∃ e ∈ (learn st n hop).cache, e.id = n := by
    unfold learn
    split
    next hc =>
      obtain ⟨e, he, hid⟩ := List.any_eq_true.mp hc
      exact ⟨_, List.mem_map.mpr ⟨e, he, rfl⟩, by
        rw [if_pos (by simpa using hid)]; simpa using hid⟩
    next => exact ⟨_, List.mem_append_right _ (List.mem_singleton.mpr rfl), rfl⟩
  have huniq : ∀ e ∈ (learn st n hop).cache, ∀ e' ∈ (learn st n hop).cache, e.id = e'.id → e = e' := by
    unfold learn
    split
    next =>
      intro e he e' he' hid
      obtain ⟨a, ha, rfl⟩ := List.mem_map.mp he
      obtain ⟨b, hb, rfl⟩ := List.mem_map.mp he'
      have hab : a.id = b.id := by
        by_cases g : a.id = n <;> by_cases k : b.id = n <;> simp only [g, k, if_true, if_false] at hid ⊢ <;> exact hid
      rw [i.uniq a ha b hb hab]
    next hc =>
      have hno : ∀ e ∈ st.cache, e.id ≠ n := fun e he g =>
        hc (List.any_eq_true.mpr ⟨e, he, by simpa using g⟩)
      intro e he e' he' hid
      rcases List.mem_append.mp he with he | he <;> rcases List.mem_append.mp he' with he' | he'
      · exact i.uniq e he e' he' hid
      · rw [List.mem_singleton.mp he'] at hid; exact absurd hid (hno e he)
      · rw [List.mem_singleton.mp he] at hid; exact absurd hid.symm (hno e' he')
      · rw [List.mem_singleton.mp he, List.mem_singleton.mp he']
  have hnew : ∀ e ∈ (learn st n hop).cache, e.id = n → e.hop = hop ∧ e.timer = st.now + 60000 := by
    unfold learn
    split
    next =>
      intro e he hid
      obtain ⟨e0, he0, rfl⟩ := List.mem_map.mp he
      by_cases g : e0.id = n
      · rw [if_pos g]; exact ⟨rfl, rfl⟩
      · rw [if_neg g] at hid; exact absurd hid g
    next hc =>
      intro e he hid
      rcases List.mem_append.mp he with he | he
      · exact absurd (List.any_eq_true.mpr ⟨e, he, by simpa using hid⟩) hc
      · rw [List.mem_singleton.mp he]; exact ⟨rfl, rfl⟩
  have hold : ∀ e, e.id ≠ n → (e ∈ (learn st n hop).cache ↔ e ∈ st.cache) := by
    intro e hid
    unfold learn
    split
    next =>
      constructor
      · intro he
        obtain ⟨e0, he0, rfl⟩ := List.mem_map.mp he
        by_cases g : e0.id = n
        · rw [if_pos g] at hid; exact absurd g hid
        · rwa [if_neg g]
      · intro he
        exact List.mem_map.mpr ⟨e, he, if_neg hid⟩
    next =>
      constructor
      · intro he
        rcases List.mem_append.mp he with he | he
        · exact he
        · rw [List.mem_singleton.mp he] at hid; exact absurd rfl hid
      · exact fun he => List.mem_append_left _ he
  constructor
  · intro e he
    by_cases hid : e.id = n
    · obtain ⟨a, b⟩ := hnew e he hid
      refine ⟨st.now, ?_, b⟩
      rw [hid, heard_snoc, h2, a]; simp
    · rw [heard_snoc, h3 _ hid]
      simpa using i.cached e ((hold e hid).mp he)
  · intro m t hp hl ht
    by_cases hid : m = n
    · exact .inl (hid ▸ hin)
    · rw [heard_snoc, h3 _ hid] at hl
      simp only [List.any_append, Bool.or_eq_false_iff] at ht
      rcases i.kept m t hp (by simpa using hl) ht.1 with ⟨e, he, ge⟩ | a
      · exact .inl ⟨e, (hold e (by rw [ge]; exact hid)).mpr he, ge⟩
      · exact .inr (by rw [hnow]; exact a)
  · exact huniq
  · rw [hgone]
    intro e he
    simp [List.any_append, i.zombie e he]
  · rw [hdr]
    intro r hr
    rw [hellos_snoc, h1]
    simpa using i.router r hr
  · rw [hdr, hnow]
    intro l
    rw [hellos_snoc, h1]
    intro hl
    simpa using i.rkept l (by simpa using hl)

/-- Forgetting node `n`, for a reason. -/
theorem Inv.forget {c : Cfg} {h : List Rec} {st st' : St} (i : Inv c h st) (x : Rec) (n : Nat)
    (h1 : helloOf c x = none) (h2 : ∀ n, heardOf c n x = none)
    (hc : st'.cache = st.cache.filter (·.id ≠ n))
    (hg : ∀ e ∈ st'.gone, e ∈ st.gone ∨ (h ++ [x]).any (isTryhard c e.id) = true)
    (hd : st'.dr = st.dr) (hn : st'.now = st.now)
    (hw : (h ++ [x]).any (isTryhard c n) = true ∨
      ∀ t hop, (heard c n h).getLast? = some (t, hop) → t + 60000 ≤ st.now) :
    Inv c (h ++ [x]) st' := by
  constructor
  · rw [hc]
    intro e he
    rw [heard_snoc, h2]
    simpa using i.cached e (List.mem_filter.mp he).1
  · rw [hc]
    intro m t hop
    rw [heard_snoc, h2]
    intro hl ht
    have hl' : (heard c m h).getLast? = some (t, hop) := by simpa using hl
    have ht' := ht
    simp only [List.any_append, Bool.or_eq_false_iff] at ht'
    rcases i.kept m t hop hl' ht'.1 with ⟨e, he, ge⟩ | a
    · by_cases hid : m = n
      · subst hid
        rcases hw with hw | hw
        · rw [hw] at ht; cases ht
        · exact .inr (by rw [hn]; exact hw t hop hl')
      · exact .inl ⟨e, List.mem_filter.mpr ⟨he, by simp [ge, hid]⟩, ge⟩
    · exact .inr (by rw [hn]; exact a)
  · rw [hc]
    exact fun e he e' he' => i.uniq e (List.mem_filter.mp he).1 e' (List.mem_filter.mp he').1
  · intro e he
    rcases hg e he with a | a
    · simp [List.any_append, i.zombie e a]
    · exact a
  · rw [hd]
    intro r hr
    rw [hellos_snoc, h1]
    simpa using i.router r hr
  · rw [hd, hn]
    intro l
    rw [hellos_snoc, h1]
    intro hl
    simpa using i.rkept l (by simpa using hl)

/-- The state after `circSend`. -/
theorem circSend_state (c : Cfg) (st : St) (dst : Nat) (th : Bool) :
    (circSend c st dst th).1 = if th then expire st dst else st := by
  unfold circSend
  cases th with
  | true =>
    simp only [if_true]
    cases (expire st dst).dr with
    | some r => rfl
    | none => dsimp only; split <;> rfl
  | false =>
    simp only [Bool.false_eq_true, if_false]
    cases st.cache.find? (·.id = dst) with
    | some e => rfl
    | none =>
      cases st.dr with
      | some r => rfl
      | none => dsimp only; split <;> rfl

/-- The invariant holds along every history. -/
theorem inv_run {c : Cfg} {h : List Rec} {st : St} (hr : Run c h st) : Inv c h st := by
  induction hr with
  | start => exact inv_start c
  | @step h st ev st' outs _ hs i =>
    cases ev with
    | wait ms =>
      cases hs
      exact i.silent _ rfl (fun _ => rfl) rfl rfl rfl (Nat.le_add_right _ _)
    | recv hop m =>
      simp only [step] at hs
      by_cases ha : accepted c hop = false
      · rw [if_pos ha] at hs
        cases hs
        refine i.silent _ ?_ ?_ rfl rfl rfl (Nat.le_refl _)
        · cases m <;> simp [helloOf, ha]
        · intro n; cases m <;> simp [heardOf, ha]
      · rw [if_neg ha] at hs
        have ha' : accepted c hop = true := by simpa using ha
        cases m with
        | hello id nt timer => exact i.hello ha' hs
        | data src dst rts p =>
          cases hs
          exact i.data ha'
    | send dest p rqr th =>
      simp only [step, Option.some.injEq] at hs
      unfold send at hs
      by_cases hd : dest = .node c.own
      · rw [if_pos hd] at hs
        cases hs
        exact i.silent _ rfl (fun _ => rfl) rfl rfl rfl (Nat.le_refl _)
      · rw [if_neg hd] at hs
        simp only [Prod.mk.injEq] at hs
        obtain ⟨hs, ho⟩ := hs
        clear ho
        rw [circSend_state] at hs
        cases th with
        | false =>
          simp only [Bool.false_eq_true, if_false] at hs
          subst hs
          exact i.silent _ rfl (fun _ => rfl) rfl rfl rfl (Nat.le_refl _)
        | true =>
          simp only [if_true] at hs
          subst hs
          have ht : ∀ o, (h ++ [Rec.mk st.now (.send dest p rqr true) o]).any
              (isTryhard c (target c dest)) = true := by
            intro o
            rw [List.any_append]
            simp [isTryhard, hd]
          refine i.forget _ _ rfl (fun _ => rfl) rfl ?_ rfl rfl (.inl (ht _))
          intro e he
          rcases List.mem_append.mp he with he | he
          · exact .inl he
          · right
            have : e.id = target c dest := by
              simpa using (List.mem_filter.mp he).2
            rw [this]
            exact ht _
    | helloTimer =>
      simp only [step] at hs
      split at hs
      · cases hs
        exact i.silent _ rfl (fun _ => rfl) rfl rfl rfl (Nat.le_refl _)
      · cases hs
        exact i.silent _ rfl (fun _ => rfl) rfl rfl rfl (Nat.le_refl _)
    | drTimer =>
      have nop : ∀ o, Inv c (h ++ [⟨st.now, .drTimer, o⟩]) st := fun o =>
        i.silent _ rfl (fun _ => rfl) rfl rfl rfl (Nat.le_refl _)
      simp only [step] at hs
      cases hdr : st.dr with
      | none => rw [hdr] at hs; cases hs; exact nop _
      | some r =>
        rw [hdr] at hs
        dsimp only at hs
        cases htm : r.timer with
        | none => rw [htm] at hs; cases hs; exact nop _
        | some t =>
          rw [htm] at hs
          dsimp only at hs
          by_cases hlt : st.now < t
          · rw [if_pos hlt] at hs; cases hs; exact nop _
          · rw [if_neg hlt] at hs
            cases hs
            obtain ⟨l, x, hl, hli, hx, hxi, hxn, ht4, hrt⟩ := i.router r hdr
            constructor
            · intro e he
              have := i.cached e he
              rwa [heard_snoc, show heardOf c e.id _ = none from rfl, Option.toList_none, List.append_nil]
            · intro n t' hp
              rw [heard_snoc, show heardOf c n _ = none from rfl, Option.toList_none, List.append_nil]
              intro a b
              simp only [List.any_append, Bool.or_eq_false_iff] at b
              exact i.kept n t' hp a b.1
            · exact i.uniq
            · intro e he
              simp [List.any_append, i.zombie e he]
            · intro r' hr'; cases hr'
            · intro l' hl'
              rw [hellos_snoc, show helloOf c _ = none from rfl, Option.toList_none, List.append_nil] at hl' ⊢
              rw [hl] at hl'
              obtain rfl : l = l' := Option.some.inj hl'
              rw [htm] at hrt
              by_cases h0 : r.nt = 0
              · rw [if_pos h0] at hrt; cases hrt
              · rw [if_neg h0] at hrt
                have := Option.some.inj hrt
                exact .inr ⟨x, hx, hxi.trans hli.symm, hxn ▸ h0, by dsimp only; omega⟩
    | cacheTimer uid =>
      have nop : ∀ o, Inv c (h ++ [⟨st.now, .cacheTimer uid, o⟩]) st := fun o =>
        i.silent _ rfl (fun _ => rfl) rfl rfl rfl (Nat.le_refl _)
      simp only [step] at hs
      cases hf : (st.cache ++ st.gone).find? (·.uid = uid) with
      | none => rw [hf] at hs; cases hs; exact nop _
      | some e =>
        rw [hf] at hs
        dsimp only at hs
        by_cases hlt : st.now < e.timer
        · rw [if_pos hlt] at hs; cases hs; exact nop _
        · rw [if_neg hlt] at hs
          cases hs
          have hmem := List.mem_of_find?_eq_some hf
          by_cases hz : h.any (isTryhard c e.id) = true
          · refine i.forget _ e.id rfl (fun _ => rfl) rfl ?_ rfl rfl (.inl (by simp [List.any_append, hz]))
            intro e' he'
            rcases List.mem_append.mp (List.mem_filter.mp he').1 with a | a
            · exact .inl a
            · right
              have : e'.id = e.id := by simpa using (List.mem_filter.mp a).2
              rw [this]
              simp [List.any_append, hz]
          · rcases List.mem_append.mp hmem with hm | hm
            · obtain ⟨t, hl, ht⟩ := i.cached e hm
              refine i.forget _ e.id rfl (fun _ => rfl) rfl ?_ rfl rfl (.inr ?_)
              · intro e' he'
                rcases List.mem_append.mp (List.mem_filter.mp he').1 with a | a
                · exact .inl a
                · have hid : e'.id = e.id := by simpa using (List.mem_filter.mp a).2
                  have he : e' = e := i.uniq e' (List.mem_filter.mp a).1 e hm hid
                  have hu : e.uid = uid := by simpa using List.find?_some hf
                  have := (List.mem_filter.mp he').2
                  rw [he] at this
                  simp [hu] at this
              · intro t' hp hl'
                rw [hl] at hl'
                cases hl'
                omega
            · exact absurd (i.zombie e hm) hz

end Verif.LanEnd
