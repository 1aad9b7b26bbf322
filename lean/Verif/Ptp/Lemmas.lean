import Verif.Ptp.Spec

/-!
# Point-to-point circuits: invariant
-/
namespace Verif.Ptp

theorem Told.other' {l o v} (h : Told l v) (ho : match o with | .adjUp .. => False | .adjDown _ => False | _ => True) :
    Told (l ++ [o]) v := by
  cases o <;> first | exact ho.elim | exact Told.other h (by intros; simp) (by intros; simp)

/-- What holds after history `h`. -/
structure Inv (c : Cfg) (h : List Item) (s : St) : Prop where
  told : Told s.log (if s.state.isRu then some (s.id, s.ntype, s.blksize) else none)
  run : s.state.isRu = true → s.adj = some s.id ∧ (∃ n, s.nrec = some n) ∧
    s.listen = (if s.ntype = .phase2 then none else some s.id)
  nolisten : s.state.isRu = false → s.listen = none
  wait : s.state = .rv ∨ s.state = .rv2 → c.verify = true ∧ s.adj = some s.id ∧ s.verif = c.iverif s.id ∧
    ∃ pre j p mid, h = pre ++ j :: mid ∧ Delivers j p ∧ InitOk c p s.rphase s.id s.ntype s.blksize ∧
      ∀ q ∈ mid, Quiet c s.rphase q
  rv : s.state = .rv → s.rphase = 3 ∨ s.rphase = 4
  rv2 : s.state = .rv2 → s.rphase = 2 ∧ s.ntype = .phase2
  ph : s.state.isRu = true →
    (s.rphase = 2 ∧ s.ntype = .phase2 ∧ s.state = .ru2) ∨
    ((s.rphase = 3 ∨ s.rphase = 4) ∧ s.ntype ≠ .phase2 ∧ s.state = rustate c s)
  timer : s.state ≠ .ha → s.state ≠ .ds → s.timer = true
  dsreq : s.state = .ds → ∃ l o, s.log = l ++ [o] ∧ (o = .dlOpen ∨ o = .dlRestart ∨ o = .selfUp)
  req : ∀ p ∈ s.requeued, p.isInit = true

theorem inv_init (c : Cfg) : Inv c [] St.init := by
  constructor <;> simp [St.init, State.isRu, Told.nil]

theorem rustate_isRu (c : Cfg) (s : St) : (rustate c s).isRu = true := by
  unfold rustate
  repeat' split
  all_goals rfl

theorem told_restart {c : Cfg} {l v} (h : Told l v) :
    Told (l ++ [if c.startWorks then .dlRestart else .selfUp]) v := by
  refine Told.other' h ?_
  cases c.startWorks <;> trivial

theorem restart_nr {c : Cfg} {s : St} (h' : List Item) (hr : s.state.isRu = false) (ht : Told s.log none)
    (hl : s.listen = none) (hreq : ∀ p ∈ s.requeued, p.isInit = true) : Inv c h' (restart c s) := by
  have e : restart0 c s = emit (if c.startWorks then .dlRestart else .selfUp) s := by
    simp [restart0, hr]
  constructor <;> simp only [restart, e, emit, State.isRu] <;> try simp
  · exact told_restart ht
  · exact hl
  · exact ⟨s.log, _, ⟨rfl, rfl⟩, by cases c.startWorks <;> simp⟩
  · exact hreq

theorem restart_ru {c : Cfg} {s : St} {nt blk} (h' : List Item) (hr : s.state.isRu = true)
    (ht : Told s.log (some (s.id, nt, blk))) (ha : s.adj = some s.id) (hreq : ∀ p ∈ s.requeued, p.isInit = true) :
    Inv c h' (restart c s) := by
  have e : restart0 c s = emit (if c.startWorks then .dlRestart else .selfUp) (adjDown s.id s) := by
    simp [restart0, hr, ha]
  constructor <;> simp only [restart, e, emit, adjDown, State.isRu] <;> try simp
  · simpa using told_restart (Told.down ht)
  · exact ⟨s.log ++ [.adjDown s.id], if c.startWorks then .dlRestart else .selfUp, by simp,
      by cases c.startWorks <;> simp⟩
  · exact hreq

/-- The states reached by a restart. -/
theorem Inv.restart {c h s} (hi : Inv c h s) (h' : List Item) : Inv c h' (restart c s) := by
  have ht := hi.told
  cases hr : s.state.isRu
  · rw [hr] at ht
    exact restart_nr h' hr ht (hi.nolisten hr) hi.req
  · rw [hr] at ht
    exact restart_ru h' hr ht (hi.run hr).1 hi.req

/-- Halting. -/
theorem inv_halt {c : Cfg} {s : St} (h' : List Item) (ht : Told s.log none) (hl : s.listen = none)
    (hreq : ∀ p ∈ s.requeued, p.isInit = true) : Inv c h' (halt s) := by
  constructor <;> simp only [halt, emit, State.isRu] <;> try simp
  · exact Told.other' ht trivial
  · exact hl
  · exact hreq

/-- Fields the invariant reads. -/
structure Same (s s' : St) : Prop where
  state : s'.state = s.state
  log : s'.log = s.log
  adj : s'.adj = s.adj
  id : s'.id = s.id
  ntype : s'.ntype = s.ntype
  blksize : s'.blksize = s.blksize
  verif : s'.verif = s.verif
  rphase : s'.rphase = s.rphase
  listen : s'.listen = s.listen

theorem rustate_same {c s s'} (hs : Same s s') : rustate c s' = rustate c s := by
  simp only [rustate, hs.rphase, hs.ntype]

/-- A step which changes none of them. -/
theorem Inv.same {c h s s'} (hi : Inv c h s) (hs : Same s s') (i : Item)
    (hq : s.state = .rv ∨ s.state = .rv2 → Quiet c s.rphase i)
    (hn : ∀ n, s.nrec = some n → ∃ m, s'.nrec = some m)
    (ht : s.state ≠ .ha → s.state ≠ .ds → s'.timer = true)
    (hr : ∀ p ∈ s'.requeued, p.isInit = true) : Inv c (h ++ [i]) s' := by
  constructor
  · rw [hs.log, hs.state, hs.id, hs.ntype, hs.blksize]; exact hi.told
  · rw [hs.state, hs.adj, hs.id, hs.ntype, hs.listen]
    intro h1
    obtain ⟨a, ⟨n, b⟩, d⟩ := hi.run h1
    exact ⟨a, hn n b, d⟩
  · rw [hs.state, hs.listen]; exact hi.nolisten
  · rw [hs.state, hs.adj, hs.id, hs.ntype, hs.blksize, hs.verif, hs.rphase]
    intro h1
    obtain ⟨a, b, d, pre, j, p, mid, e, f, g, k⟩ := hi.wait h1
    refine ⟨a, b, d, pre, j, p, mid ++ [i], by simp [e], f, g, ?_⟩
    intro q hqq
    rcases List.mem_append.1 hqq with hqq | hqq
    · exact k q hqq
    · rw [List.mem_singleton.1 hqq]; exact hq h1
  · rw [hs.state, hs.rphase]; exact hi.rv
  · rw [hs.state, hs.rphase, hs.ntype]; exact hi.rv2
  · rw [hs.state, hs.rphase, hs.ntype, rustate_same hs]; exact hi.ph
  · rw [hs.state]; exact ht
  · rw [hs.state, hs.log]; exact hi.dsreq
  · exact hr

/-- Coming up. -/
theorem inv_up {c : Cfg} {s : St} {st : State} (h' : List Item) (ha : s.adj = some s.id) (ht : Told s.log none)
    (hp : (s.rphase = 2 ∧ s.ntype = .phase2 ∧ st = .ru2) ∨
      ((s.rphase = 3 ∨ s.rphase = 4) ∧ s.ntype ≠ .phase2 ∧ st = rustate c s))
    (hreq : ∀ p ∈ s.requeued, p.isInit = true) :
    Inv c h' { up s with state := st } := by
  have hru : st.isRu = true := by
    rcases hp with ⟨-, -, rfl⟩ | ⟨-, -, rfl⟩
    · rfl
    · exact rustate_isRu c s
  have hne : st ≠ .rv ∧ st ≠ .rv2 ∧ st ≠ .ds := by
    refine ⟨?_, ?_, ?_⟩ <;> · rintro rfl; cases hru
  have e : up s = emit (.adjUp s.id s.ntype s.blksize)
      { s with listen := if s.ntype = .phase2 then none else some s.id, nrec := some 0, timer := true } := by
    simp [up, ha]
  constructor <;> simp only [e, emit, hru, if_true] <;> try simp
  · exact Told.up ht
  · exact ha
  · exact fun h => (h.elim hne.1 hne.2.1).elim
  · exact fun h => (hne.1 h).elim
  · exact fun h => (hne.2.1 h).elim
  · rcases hp with h | h
    · exact Or.inl h
    · exact Or.inr h
  · exact fun h => (hne.2.2 h).elim
  · exact hreq

/-- The state when the verification comes back or is not needed. -/
def accepted (c : Cfg) (s : St) (p : Pkt) (ph id : Nat) (nt : NT) (blk : Nat) (li : Option Bool) : St :=
  { s with
    rphase := ph
    id := id
    ntype := nt
    blksize := blk
    adj := some id
    lastInit := li
    log := s.log ++ replies c p ph id }

/-- Outcomes of a packet in state `ri`. -/
inductive RiOut (c : Cfg) (s : St) (p : Pkt) : St → Prop
  | ignored : (∀ ph id nt blk, ¬ InitOk c p ph id nt blk) → RiOut c s p s
  | refused (s1 : St) : s1.state = s.state → s1.listen = s.listen → s1.requeued = s.requeued →
      (s1.log = s.log ∨ s1.log = s.log ++ [.sendInit 2 c.verify]) →
      (∀ ph id nt blk, ¬ InitOk c p ph id nt blk) → RiOut c s p (restart c s1)
  | wait (ph id : Nat) (nt : NT) (blk : Nat) (li : Option Bool) : InitOk c p ph id nt blk → c.verify = true →
      RiOut c s p { accepted c s p ph id nt blk li with
        verif := c.iverif id
        timer := true
        state := if ph = 2 then .rv2 else .rv }
  | up (ph id : Nat) (nt : NT) (blk : Nat) (li : Option Bool) : InitOk c p ph id nt blk → c.verify = false →
      RiOut c s p { Ptp.up (accepted c s p ph id nt blk li) with
        state := if ph = 2 then .ru2 else rustate c (accepted c s p ph id nt blk li) }

theorem numberOk_iff {c : Cfg} {n : Nat} :
    NumberOk c n ↔ ¬ (n = 0 ∨ (c.ntype.router = true ∧ n > c.maxnodes)) := by
  unfold NumberOk NT.router
  cases c.ntype <;> simp <;> omega

theorem areaOk_iff {c : Cfg} {nt : NT} {a : Nat} :
    AreaOk c nt a ↔ ¬ ((nt = .l2 ∧ c.ntype = .l2 ∧ ¬ (1 ≤ a ∧ a ≤ c.maxarea)) ∨
      ((nt ≠ .l2 ∨ c.ntype ≠ .l2) ∧ a ≠ c.homearea)) := by
  unfold AreaOk
  by_cases h1 : nt = .l2 <;> by_cases h2 : c.ntype = .l2 <;> simp [h1, h2]

theorem sendVerify_some {ph : Nat} {pw : Bytes} {s s' : St} (h : sendVerify ph pw s = some s') :
    pw.length ≤ (if ph = 2 then 8 else 64) ∧ s' = emit (.sendVerify ph pw) { s with lastInit := some false } := by
  unfold sendVerify at h
  by_cases hl : pw.length > (if ph = 2 then 8 else 64)
  · rw [if_pos hl] at h; cases h
  · rw [if_neg hl] at h; cases h; exact ⟨by omega, rfl⟩

theorem riEnd_form {c : Cfg} {s s' : St} {nt : NT} {v : Bool} {blk : Nat} (h : riEnd c s nt v blk = some s') :
    ∃ li, let s1 : St := { s with
            ntype := nt
            blksize := min blk 576
            adj := some s.id
            lastInit := li
            log := s.log ++ (if v = true then [.sendVerify s.rphase ((c.overif s.id).getD [])] else []) }
      s' = (if c.verify then { s1 with verif := c.iverif s.id, timer := true, state := .rv }
        else { up s1 with state := rustate c s1 }) := by
  dsimp only [riEnd] at h
  rw [Option.map_eq_some_iff] at h
  obtain ⟨s2, h2, rfl⟩ := h
  cases v
  · simp only [Bool.false_eq_true, if_false, Option.some.injEq] at h2
    subst h2
    exact ⟨s.lastInit, by simp [MTU]⟩
  · simp only [if_true] at h2
    obtain ⟨-, rfl⟩ := sendVerify_some h2
    exact ⟨some false, by simp [MTU, emit]⟩

theorem riPkt_out {c : Cfg} {s s' : St} {p : Pkt} (h : riPkt c s p = some s') : RiOut c s p s' := by
  cases p with
  | init4 src nt v blo blk tm =>
    dsimp only [riPkt] at h
    by_cases h1 : c.phase < 4
    · rw [if_pos h1] at h
      cases h
      refine .ignored ?_
      rintro _ _ _ _ ⟨⟩
      omega
    rw [if_neg h1] at h
    by_cases h2 : (nt ≠ .endnode ∧ nt ≠ .l1 ∧ nt ≠ .l2) ∨ blo = true
    · rw [if_pos h2] at h
      cases h
      refine .refused s rfl rfl rfl (Or.inl rfl) ?_
      intro _ _ _ _ hk
      cases hk with
      | phase4 a b d e =>
        rcases h2 with h2 | h2
        · rcases b with b | b | b <;> simp [b] at h2
        · cases h2
    rw [if_neg h2] at h
    by_cases h3 : src % 1024 = 0 ∨ (c.ntype.router = true ∧ src % 1024 > c.maxnodes) ∨
        (nt = .l2 ∧ c.ntype = .l2 ∧ ¬ (1 ≤ src / 1024 ∧ src / 1024 ≤ c.maxarea)) ∨
        ((nt ≠ .l2 ∨ c.ntype ≠ .l2) ∧ src / 1024 ≠ c.homearea)
    · rw [if_pos h3] at h
      cases h
      refine .refused s rfl rfl rfl (Or.inl rfl) ?_
      intro _ _ _ _ hk
      cases hk with
      | phase4 a b d e =>
        rw [numberOk_iff] at d
        rw [areaOk_iff] at e
        rcases h3 with h3 | h3 | h3
        · exact d (Or.inl h3)
        · exact d (Or.inr h3)
        · exact e h3
    rw [if_neg h3] at h
    have hok : InitOk c (.init4 src nt v blo blk tm) 4 src nt (min blk 576) := by
      have : blo = false := by
        cases blo
        · rfl
        · simp at h2
      subst this
      refine .phase4 (by omega) ?_ (numberOk_iff.2 ?_) (areaOk_iff.2 ?_)
      · cases nt <;> simp at h2 ⊢
      · exact fun k => h3 (k.elim Or.inl (fun k => Or.inr (Or.inl k)))
      · exact fun k => h3 (Or.inr (Or.inr k))
    obtain ⟨li, rfl⟩ := riEnd_form h
    have e : replies c (.init4 src nt v blo blk tm) 4 src =
        (if v = true then [.sendVerify 4 ((c.overif src).getD [])] else []) := by
      cases v <;> simp [replies]
    cases hv : c.verify
    · have := RiOut.up (s := s) 4 src nt (min blk 576) li hok hv
      simpa [accepted, e, hv] using this
    · have := RiOut.wait (s := s) 4 src nt (min blk 576) li hok hv
      simpa [accepted, e, hv] using this
  | init3 src nt v blk =>
    dsimp only [riPkt] at h
    by_cases h1 : c.phase < 3
    · rw [if_pos h1] at h
      cases h
      refine .ignored ?_
      rintro _ _ _ _ ⟨⟩
      omega
    rw [if_neg h1] at h
    by_cases h2 : nt ≠ .endnode ∧ nt ≠ .l1
    · rw [if_pos h2] at h
      cases h
      refine .refused s rfl rfl rfl (Or.inl rfl) ?_
      intro _ _ _ _ hk
      cases hk with
      | phase3 a b d e => rcases b with b | b <;> simp [b] at h2
    rw [if_neg h2] at h
    by_cases h3 : src = 0 ∨ (c.ntype.router = true ∧ src > c.maxnodes)
    · rw [if_pos h3] at h
      cases h
      refine .refused s rfl rfl rfl (Or.inl rfl) ?_
      intro _ _ _ _ hk
      cases hk with
      | phase3 a b d e => exact numberOk_iff.1 d h3
    rw [if_neg h3] at h
    by_cases h4 : nt = .l1 ∧ c.ntype.router = true ∧ blk < c.maxnodes * 2 + 6
    · rw [if_pos h4] at h
      cases h
      refine .refused s rfl rfl rfl (Or.inl rfl) ?_
      intro _ _ _ _ hk
      cases hk with
      | phase3 a b d e =>
        have := e h4.1 (by revert h4; cases c.ntype <;> simp [NT.router])
        omega
    rw [if_neg h4] at h
    have hid : (if c.phase = 4 then c.homearea * 1024 + src % 1024 else src % 1024) =
        (if c.phase = 4 then c.homearea * 1024 else 0) + src % 1024 := by
      split <;> simp
    rw [hid] at h
    have hok : InitOk c (.init3 src nt v blk) 3 ((if c.phase = 4 then c.homearea * 1024 else 0) + src % 1024) nt
        (min blk 576) := by
      refine .phase3 (by omega) ?_ (numberOk_iff.2 h3) ?_
      · cases nt <;> simp at h2 ⊢
      · intro k1 k2
        by_cases k : blk < c.maxnodes * 2 + 6
        · exact absurd ⟨k1, by rcases k2 with k2 | k2 <;> simp [k2, NT.router], k⟩ h4
        · omega
    generalize (if c.phase = 4 then c.homearea * 1024 else 0) + src % 1024 = id at h hok
    obtain ⟨li, rfl⟩ := riEnd_form h
    have e : ∀ l : List Out, (if c.phase > 3 then emit (.sendInit 3 c.verify) { s with rphase := 3, lastInit := some true }
        else { s with rphase := 3 }).log ++ l =
        s.log ++ ((if 3 < c.phase then [.sendInit 3 c.verify] else []) ++ l) := by
      intro l
      split <;> simp [emit]
    cases hv : c.verify
    · have := RiOut.up (s := s) 3 id nt (min blk 576) li hok hv
      by_cases h5 : 3 < c.phase <;> cases v <;>
        simpa [accepted, hv, replies, h5, sendInit, emit] using this
    · have := RiOut.wait (s := s) 3 id nt (min blk 576) li hok hv
      by_cases h5 : 3 < c.phase <;> cases v <;>
        simpa [accepted, hv, replies, h5, sendInit, emit] using this
  | nodeInit src name v blk =>
    dsimp only [riPkt] at h
    by_cases h1 : src = 0 ∨ (c.ntype.router = true ∧ src > c.maxnodes)
    · rw [if_pos h1] at h
      cases h
      refine .refused s rfl rfl rfl (Or.inl rfl) ?_
      intro _ _ _ _ hk
      cases hk with
      | phase2 a b => exact numberOk_iff.1 a h1
    rw [if_neg h1] at h
    cases hn : c.names name with
    | none =>
      rw [hn] at h
      simp only [Option.some.injEq] at h
      subst h
      refine .refused _ ?_ ?_ ?_ ?_ ?_
      · by_cases h5 : c.phase > 2 <;> simp [h5, sendInit, emit]
      · by_cases h5 : c.phase > 2 <;> simp [h5, sendInit, emit]
      · by_cases h5 : c.phase > 2 <;> simp [h5, sendInit, emit]
      · by_cases h5 : c.phase > 2 <;> simp [h5, sendInit, emit]
      · intro _ _ _ _ hk
        cases hk with
        | phase2 a b => rw [hn] at b; cases b
    | some id =>
      rw [hn] at h
      simp only [Option.map_eq_some_iff] at h
      obtain ⟨s2, h2, rfl⟩ := h
      have hok : InitOk c (.nodeInit src name v blk) 2 id .phase2 (min blk 576) :=
        .phase2 (numberOk_iff.2 h1) hn
      have h6 : ∃ li, s2 = accepted c s (.nodeInit src name v blk) 2 id .phase2 (min blk 576) li := by
        cases v
        · simp only [Bool.false_eq_true, if_false, Option.some.injEq] at h2
          subst h2
          by_cases h5 : 2 < c.phase
          · exact ⟨some true, by simp [accepted, replies, h5, sendInit, emit, MTU]⟩
          · exact ⟨s.lastInit, by simp [accepted, replies, h5, MTU]⟩
        · simp only [if_true] at h2
          obtain ⟨-, rfl⟩ := sendVerify_some h2
          by_cases h5 : 2 < c.phase
          · exact ⟨some false, by simp [accepted, replies, h5, sendInit, emit, MTU]⟩
          · exact ⟨some false, by simp [accepted, replies, h5, emit, MTU]⟩
      obtain ⟨li, rfl⟩ := h6
      cases hv : c.verify
      · have := RiOut.up (s := s) 2 id .phase2 (min blk 576) li hok hv
        simpa [hv] using this
      · have := RiOut.wait (s := s) 2 id .phase2 (min blk 576) li hok hv
        simpa [hv] using this
  | nodeVerify pw =>
    cases h
    exact .refused s rfl rfl rfl (Or.inl rfl) (by rintro _ _ _ _ ⟨⟩)
  | _ =>
    cases h
    exact .ignored (by rintro _ _ _ _ ⟨⟩)

theorem told_replies {c p ph id l v} (h : Told l v) : Told (l ++ replies c p ph id) v := by
  have h1 : Told (l ++ (if ph < c.phase ∧ ph ≠ 4 then [.sendInit ph c.verify] else [])) v := by
    split
    · exact Told.other' h trivial
    · simpa using h
  unfold replies
  rw [← List.append_assoc]
  generalize l ++ (if ph < c.phase ∧ ph ≠ 4 then [.sendInit ph c.verify] else []) = l1 at h1 ⊢
  split <;> first | exact Told.other' h1 trivial | simpa using h1

theorem InitOk.ph {c p ph id nt blk} (h : InitOk c p ph id nt blk) :
    (ph = 2 ∧ nt = .phase2) ∨ ((ph = 3 ∨ ph = 4) ∧ nt ≠ .phase2) := by
  cases h with
  | phase4 a b => right; rcases b with rfl | rfl | rfl <;> simp
  | phase3 a b => right; rcases b with rfl | rfl <;> simp
  | phase2 a b => simp

theorem inv_ri {c : Cfg} {h : List Item} {s s' : St} {i : Item} {p : Pkt} (hi : Inv c h s) (hst : s.state = .ri)
    (hd : Delivers i p) (ho : RiOut c s p s') : Inv c (h ++ [i]) s' := by
  have ht := hi.told
  have hl := hi.nolisten (by simp [hst, State.isRu])
  simp only [hst, State.isRu, Bool.false_eq_true, if_false] at ht
  cases ho with
  | ignored =>
    refine hi.same ⟨rfl, rfl, rfl, rfl, rfl, rfl, rfl, rfl, rfl⟩ i ?_ (fun n h => ⟨n, h⟩) hi.timer hi.req
    rw [hst]; simp
  | refused s1 e1 e2 e3 e4 =>
    refine restart_nr _ (by simp [e1, hst, State.isRu]) ?_ (by rw [e2, hl]) (by rw [e3]; exact hi.req)
    rcases e4 with e4 | e4 <;> rw [e4]
    · exact ht
    · exact Told.other' ht trivial
  | wait ph id nt blk li hok hv =>
    have hph := hok.ph
    by_cases h2 : ph = 2
    · constructor <;> simp only [accepted, h2, if_true, State.isRu] <;> try simp
      · exact told_replies ht
      · exact hl
      · exact ⟨hv, h, i, p, [], by simp, hd, h2 ▸ hok, by simp⟩
      · rcases hph with h3 | h3
        · exact h3.2
        · omega
      · exact hi.req
    · constructor <;> simp only [accepted, h2, if_false, State.isRu] <;> try simp
      · exact told_replies ht
      · exact hl
      · exact ⟨hv, h, i, p, [], by simp, hd, hok, by simp⟩
      · omega
      · exact hi.req
  | up ph id nt blk li hok hv =>
    refine inv_up _ rfl (told_replies ht) ?_ hi.req
    rcases hok.ph with ⟨h2, h3⟩ | ⟨h2, h3⟩
    · left; exact ⟨h2, h3, by simp [h2]⟩
    · right; exact ⟨h2, h3, by rw [if_neg (by omega)]⟩

theorem inv_same_ru {c : Cfg} {h : List Item} {s s' : St} (i : Item) (hi : Inv c h s) (hru : s.state.isRu = true)
    (hs : s'.state = s.state ∧ s'.adj = s.adj ∧ s'.id = s.id ∧ s'.ntype = s.ntype ∧ s'.blksize = s.blksize ∧
      s'.rphase = s.rphase ∧ s'.listen = s.listen ∧ s'.requeued = s.requeued)
    (hn : ∃ m, s'.nrec = some m) (ht : s'.timer = true)
    (hl : Told s'.log (some (s.id, s.ntype, s.blksize))) : Inv c (h ++ [i]) s' := by
  obtain ⟨e1, e2, e3, e4, e5, e6, e7, e8⟩ := hs
  have hne : s.state ≠ .rv ∧ s.state ≠ .rv2 ∧ s.state ≠ .ds := by
    refine ⟨?_, ?_, ?_⟩ <;> · intro h; rw [h] at hru; cases hru
  constructor
  · rw [e1, if_pos hru, e3, e4, e5]; exact hl
  · intro _
    rw [e2, e3, e4, e7]
    exact ⟨(hi.run hru).1, hn, (hi.run hru).2.2⟩
  · rw [e1, hru]; simp
  · rw [e1]; exact fun h => (h.elim hne.1 hne.2.1).elim
  · rw [e1]; exact fun h => (hne.1 h).elim
  · rw [e1]; exact fun h => (hne.2.1 h).elim
  · rw [e1, e4, e6]
    have : rustate c s' = rustate c s := by simp only [rustate, e4, e6]
    rw [this]; exact hi.ph
  · exact fun _ _ => ht
  · rw [e1]; exact fun h => (hne.2.2 h).elim
  · rw [e8]; exact hi.req

theorem rucommon_inv {c : Cfg} {h : List Item} {s : St} {i : Item} {w : Work} (hi : Inv c h s)
    (hru : s.state.isRu = true) (hw : w ≠ .timeout) : Inv c (h ++ [i]) (rucommon c s w) := by
  have hne : s.state ≠ .rv ∧ s.state ≠ .rv2 ∧ s.state ≠ .ds := by
    refine ⟨?_, ?_, ?_⟩ <;> · intro h; rw [h] at hru; cases hru
  have hsame : Inv c (h ++ [i]) s :=
    hi.same ⟨rfl, rfl, rfl, rfl, rfl, rfl, rfl, rfl, rfl⟩ i
      (fun h => (h.elim hne.1 hne.2.1).elim) (fun n h => ⟨n, h⟩) hi.timer hi.req
  cases w with
  | timeout => exact absurd rfl hw
  | dlDown => exact hi.restart _
  | circuitDown => exact hi.restart _
  | stop =>
    have ht := hi.told
    rw [if_pos hru] at ht
    simp only [rucommon, (hi.run hru).1]
    exact inv_halt _ (Told.down ht) rfl hi.req
  | start => exact hsame
  | dlUp => exact hsame
  | pkt p => exact hsame

theorem ru_inv {c : Cfg} {h : List Item} {s s' : St} {i : Item} {w : Work} (hi : Inv c h s)
    (hru : s.state.isRu = true) (h2 : s.state ≠ .ru2) (hw : w ≠ .timeout) (hs : ru c s w = some s') :
    Inv c (h ++ [i]) s' := by
  cases w with
  | pkt p =>
    obtain ⟨ha, ⟨n, hn⟩, hl⟩ := hi.run hru
    have hnt : s.ntype ≠ .phase2 := by
      rcases hi.ph hru with ⟨-, -, h⟩ | ⟨-, h, -⟩
      · exact absurd h h2
      · exact h
    have ht := hi.told
    rw [if_pos hru] at ht
    have htm := hi.timer (by rintro h; rw [h] at hru; cases hru) (by rintro h; rw [h] at hru; cases hru)
    have hl' : s.listen = some s.id := by rw [hl, if_neg hnt]
    simp only [ru, hn, ha, hnt, if_false] at hs
    by_cases hc : p.isCtl = true ∧
        srcOk { s with adj := some s.id, nrec := some (n + 1), listen := some s.id } p = false
    · rw [← ha] at hs hc
      rw [if_pos hc] at hs
      cases hs
      exact restart_ru _ hru ht ha hi.req
    · rw [← ha] at hs hc
      rw [if_neg hc] at hs
      split at hs
      · split at hs
        · cases hs
          refine inv_same_ru i hi hru ?_ ⟨n + 1, rfl⟩ htm ht
          exact ⟨rfl, rfl, rfl, rfl, rfl, rfl, ha.trans hl'.symm, rfl⟩
        · cases hs
          exact restart_ru _ hru ht ha hi.req
      · cases hs
        refine inv_same_ru i hi hru ?_ ⟨n + 1, rfl⟩ htm (Told.other' ht trivial)
        exact ⟨rfl, rfl, rfl, rfl, rfl, rfl, ha.trans hl'.symm, rfl⟩
  | _ => cases hs; exact rucommon_inv hi hru hw

theorem ru2_inv {c : Cfg} {h : List Item} {s s' : St} {i : Item} {w : Work} (hi : Inv c h s)
    (hru : s.state = .ru2) (hw : w ≠ .timeout) (hs : ru2 c s w = some s') :
    Inv c (h ++ [i]) s' := by
  have hr : s.state.isRu = true := by rw [hru]; rfl
  cases w with
  | pkt p =>
    obtain ⟨ha, ⟨n, hn⟩, hl⟩ := hi.run hr
    have ht := hi.told
    rw [if_pos hr] at ht
    have htm := hi.timer (by rw [hru]; simp) (by rw [hru]; simp)
    simp only [ru2, hn] at hs
    split at hs
    · cases hs
      exact inv_same_ru i hi hr ⟨rfl, rfl, rfl, rfl, rfl, rfl, rfl, rfl⟩ ⟨n + 1, rfl⟩ htm ht
    · cases hs
      exact inv_same_ru i hi hr ⟨rfl, rfl, rfl, rfl, rfl, rfl, rfl, rfl⟩ ⟨n + 1, rfl⟩ htm
        (Told.other' ht trivial)
  | _ => cases hs; exact rucommon_inv hi hr hw

/-- What is true of the item a work item was made from. -/
structure From (c : Cfg) (s : St) (i : Item) (w : Work) : Prop where
  pkt : ∀ p, w = .pkt p → Delivers i p
  start : w = .start → i = .start
  dlUp : w = .dlUp → i = .dlUp

theorem inv_action {c : Cfg} {h : List Item} {s s' : St} {i : Item} {w : Work} (hi : Inv c h s)
    (hf : From c s i w) (hw : w ≠ .timeout) (hs : action c s w = some s') : Inv c (h ++ [i]) s' := by
  have hsame : (s.state = .rv ∨ s.state = .rv2 → Quiet c s.rphase i) → Inv c (h ++ [i]) s := fun hq =>
    hi.same ⟨rfl, rfl, rfl, rfl, rfl, rfl, rfl, rfl, rfl⟩ i hq (fun n h => ⟨n, h⟩) hi.timer hi.req
  have ht := hi.told
  have hrv : s.state = .rv ∨ s.state = .rv2 → s' = rvcommon c s w → (∀ p, w ≠ .pkt p) → Inv c (h ++ [i]) s' := by
    intro h1 h2 h3
    have hr : s.state.isRu = false := by rcases h1 with h1 | h1 <;> rw [h1] <;> rfl
    rw [hr] at ht
    subst h2
    cases w with
    | timeout => exact absurd rfl hw
    | dlDown => exact hi.restart _
    | circuitDown => exact hi.restart _
    | stop => exact inv_halt _ ht (hi.nolisten hr) hi.req
    | start => exact hsame (fun _ => Or.inl (hf.start rfl))
    | dlUp => exact hsame (fun _ => Or.inr (Or.inl (hf.dlUp rfl)))
    | pkt p => exact absurd rfl (h3 p)
  unfold action at hs
  cases hst : s.state with
  | ha =>
    have hl := hi.nolisten (by rw [hst]; rfl)
    rw [hst] at hs ht
    cases w with
    | timeout => exact absurd rfl hw
    | start =>
      cases hs
      constructor <;> simp only [ha, rNeigh, emit, State.isRu] <;> try simp
      · exact Told.other' ht trivial
      · exact hl
      · exact ⟨s.log, .dlOpen, by simp⟩
      · exact hi.req
    | _ =>
      cases hs
      exact hsame (by rw [hst]; simp)
  | ds =>
    have hl := hi.nolisten (by rw [hst]; rfl)
    have hr : (rNeigh s).state.isRu = false := by simp [rNeigh, hst, State.isRu]
    rw [hst] at hs ht
    have hn : Inv c (h ++ [i]) (rNeigh s) := by
      constructor <;> simp only [rNeigh, hst, State.isRu] <;> try simp
      · exact ht
      · exact hl
      · exact hi.dsreq hst
      · exact hi.req
    cases w with
    | timeout => exact absurd rfl hw
    | dlUp =>
      cases hs
      constructor <;> simp only [ds, sendInit, rNeigh, emit, State.isRu] <;> try simp
      · exact Told.other' ht trivial
      · exact hl
      · exact hi.req
    | dlDown => cases hs; exact restart_nr _ hr ht hl hi.req
    | circuitDown => cases hs; exact restart_nr _ hr ht hl hi.req
    | stop => cases hs; exact inv_halt _ ht hl hi.req
    | _ => cases hs; exact hn
  | ri =>
    have hl := hi.nolisten (by rw [hst]; rfl)
    rw [hst] at hs ht
    cases w with
    | timeout => exact absurd rfl hw
    | dlDown => cases hs; exact hi.restart _
    | circuitDown => cases hs; exact hi.restart _
    | stop => cases hs; exact inv_halt _ ht hl hi.req
    | pkt p => exact inv_ri hi hst (hf.pkt p rfl) (riPkt_out hs)
    | _ =>
      cases hs
      exact hsame (by rw [hst]; simp)
  | rv =>
    have hr : s.state.isRu = false := by rw [hst]; rfl
    have hl := hi.nolisten hr
    rw [hst] at hs ht
    cases w with
    | pkt p =>
      simp only [rv] at hs
      split at hs
      · cases hs
      · split at hs
        · cases hs; exact hi.restart _
        · split at hs
          · split at hs
            · cases hs; exact hi.restart _
            · cases hs
              obtain ⟨a, b, d, pre, j, p, mid, e, f, g, k⟩ := hi.wait (Or.inl hst)
              refine inv_up _ b ht (Or.inr ⟨hi.rv hst, ?_, rfl⟩) hi.req
              have := hi.rv hst
              rcases g.ph with h5 | h5
              · omega
              · exact h5.2
          · cases hs
    | _ => exact hrv (Or.inl hst) (Option.some.inj hs).symm (by simp)
  | rv2 =>
    have hr : s.state.isRu = false := by rw [hst]; rfl
    have hl := hi.nolisten hr
    rw [hst] at hs ht
    cases w with
    | pkt p =>
      simp only [rv2] at hs
      split at hs
      · split at hs
        · cases hs; exact hi.restart _
        · cases hs
          obtain ⟨a, b, d, -⟩ := hi.wait (Or.inr hst)
          exact inv_up _ b ht (Or.inl ⟨(hi.rv2 hst).1, (hi.rv2 hst).2, rfl⟩) hi.req
      · cases hs
    | _ => exact hrv (Or.inr hst) (Option.some.inj hs).symm (by simp)
  | ru2 => rw [hst] at hs; exact ru2_inv hi hst hw hs
  | ru4l2 => rw [hst] at hs; exact ru_inv hi (by rw [hst]; rfl) (by rw [hst]; simp) hw hs
  | ru4l1 => rw [hst] at hs; exact ru_inv hi (by rw [hst]; rfl) (by rw [hst]; simp) hw hs
  | ru4e => rw [hst] at hs; exact ru_inv hi (by rw [hst]; rfl) (by rw [hst]; simp) hw hs
  | ru3r => rw [hst] at hs; exact ru_inv hi (by rw [hst]; rfl) (by rw [hst]; simp) hw hs
  | ru3e => rw [hst] at hs; exact ru_inv hi (by rw [hst]; rfl) (by rw [hst]; simp) hw hs

theorem inv_timeout {c : Cfg} {h : List Item} {s s' : St} (hi : Inv c h s)
    (hs : action c { s with timer := false } .timeout = some s') : Inv c (h ++ [.timeout]) s' := by
  have ht := hi.told
  have hr0 : s.state.isRu = false → ({ s with timer := false } : St).state.isRu = false := fun h => h
  unfold action at hs
  have hru : s.state.isRu = true → Inv c (h ++ [.timeout]) (rucommon c { s with timer := false } .timeout) := by
    intro hru
    rw [if_pos hru] at ht
    exact inv_same_ru _ hi hru ⟨rfl, rfl, rfl, rfl, rfl, rfl, rfl, rfl⟩ (hi.run hru).2.1 rfl
      (Told.other' ht trivial)
  have hre : s.state.isRu = false → Inv c (h ++ [.timeout]) (restart c { s with timer := false }) := by
    intro hr
    rw [hr] at ht
    exact restart_nr _ hr ht (hi.nolisten hr) hi.req
  cases hst : s.state with
  | ha =>
    have hl := hi.nolisten (by rw [hst]; rfl)
    simp only [hst] at hs
    rw [hst] at ht
    cases hs
    constructor <;> simp only [ha, rNeigh, emit, State.isRu] <;> try simp
    · exact Told.other' ht trivial
    · exact hl
    · exact ⟨s.log, .dlOpen, by simp⟩
    · exact hi.req
  | ds =>
    have hl := hi.nolisten (by rw [hst]; rfl)
    simp only [hst] at hs
    rw [hst] at ht
    cases hs
    constructor <;> simp only [ds, rNeigh, State.isRu] <;> try simp
    · exact ht
    · exact hl
    · exact hi.dsreq hst
    · exact hi.req
  | ri => simp only [hst] at hs; cases hs; simpa only [hst] using hre (by rw [hst]; rfl)
  | rv => simp only [hst] at hs; cases hs; simpa only [hst, rvcommon] using hre (by rw [hst]; rfl)
  | rv2 => simp only [hst] at hs; cases hs; simpa only [hst, rvcommon] using hre (by rw [hst]; rfl)
  | _ => simp only [hst] at hs; cases hs; simpa only [hst] using hru (by rw [hst]; rfl)

/-- Outcomes of `validate`. -/
inductive Val (c : Cfg) (s : St) (pd : Bool) (b : Buf) : Res → Prop
  | null : b = .null → Val c s pd b (.skip s)
  | padded : pd = true → s.rphase < 4 → Val c s pd b (.skip s)
  | pkt (p : Pkt) : b = .pkt p → s.state.accepts p = true → Val c s pd b (.go (.pkt p))
  | dup (p : Pkt) : b = .pkt p ∨ b = .extra p → p.isInit = true → c.startWorks = false → s.lastInit = some true →
      s.nrec = some 0 → Val c s pd b (.skip { s with lastInit := some false })
  | again (p : Pkt) : b = .pkt p ∨ b = .extra p → p.isInit = true → c.startWorks = false →
      (s.lastInit = some false ∨ ∃ n, s.nrec = some (n + 1)) →
      Val c s pd b (.skip { restart c s with requeued := s.requeued ++ [p] })
  | down : (b = .checksum ∨ b = .bad ∨ ∃ p, (b = .pkt p ∧ s.state.accepts p = false) ∨ b = .extra p) →
      Val c s pd b (.go .circuitDown)
  | exc : Val c s pd b .exc

theorem reject_val {c s pd b p} (hb : (b = .pkt p ∧ s.state.accepts p = false) ∨ b = .extra p) :
    Val c s pd b (reject c s p) := by
  have hb' : b = .pkt p ∨ b = .extra p := hb.imp (fun h => h.1) id
  unfold reject
  by_cases h : c.startWorks = false ∧ p.isInit = true
  · rw [if_pos h]
    split
    · exact .exc
    · split
      · exact .exc
      · exact .dup p hb' h.2 h.1 (by assumption) (by assumption)
      · rename_i hn n k hk
        refine .again p hb' h.2 h.1 (Or.inr ?_)
        cases n with
        | zero => exact absurd rfl k
        | succ n => exact ⟨n, hk⟩
    · exact .again p hb' h.2 h.1 (Or.inl (by assumption))
  · rw [if_neg h]
    exact .down (Or.inr (Or.inr ⟨p, hb⟩))

theorem validate_val (c s pd b) : Val c s pd b (validate c s pd b) := by
  unfold validate
  by_cases h : b = .null ∨ (pd = true ∧ s.rphase < 4)
  · rw [if_pos h]
    rcases h with h | ⟨h, h1⟩
    · exact .null h
    · exact .padded h h1
  rw [if_neg h]
  cases b with
  | pkt p =>
    cases ha : s.state.accepts p
    · simpa [ha] using reject_val (c := c) (pd := pd) (Or.inl ⟨rfl, ha⟩)
    · simpa [ha] using Val.pkt p rfl ha
  | extra p => exact reject_val (Or.inr rfl)
  | checksum => exact .down (by simp)
  | bad => exact .down (by simp)
  | crash => exact .exc
  | null => simp at h

theorem inv_step {c : Cfg} {h : List Item} {s s' : St} {i : Item} (hi : Inv c h s) (hv : Valid s i)
    (hs : step c s i = some s') : Inv c (h ++ [i]) s' := by
  cases i with
  | start => exact inv_action hi ⟨by simp, by simp, by simp⟩ (by simp) hs
  | stop => exact inv_action hi ⟨by simp, by simp, by simp⟩ (by simp) hs
  | dlUp => exact inv_action hi ⟨by simp, by simp, by simp⟩ (by simp) hs
  | dlDown => exact inv_action hi ⟨by simp, by simp, by simp⟩ (by simp) hs
  | timeout => exact inv_timeout hi hs
  | listen =>
    cases hs
    cases hl : s.listen with
    | none => exact absurd hl hv
    | some a =>
      have hru : s.state.isRu = true := by
        cases h : s.state.isRu
        · rw [hi.nolisten h] at hl; cases hl
        · rfl
      have ha : a = s.id := by
        have := (hi.run hru).2.2
        rw [hl] at this
        split at this
        · cases this
        · exact Option.some.inj this
      subst ha
      have ht := hi.told
      rw [if_pos hru] at ht
      have e : adjTimeout c s = { emit (if c.startWorks then .dlRestart else .selfUp)
          { adjDown s.id s with adj := none } with state := .ds } := by
        simp [adjTimeout, hl, restart0]
      rw [e]
      constructor <;> simp only [emit, adjDown, State.isRu] <;> try simp
      · simpa using told_restart (Told.down ht)
      · exact ⟨s.log ++ [.adjDown s.id], if c.startWorks then .dlRestart else .selfUp, by simp,
          by cases c.startWorks <;> simp⟩
      · exact hi.req
  | again p =>
    have hreq : ∀ q ∈ s.requeued.erase p, q.isInit = true := fun q hq => hi.req q (List.mem_of_mem_erase hq)
    have hi' : Inv c h { s with requeued := s.requeued.erase p } :=
      ⟨hi.told, hi.run, hi.nolisten, hi.wait, hi.rv, hi.rv2, hi.ph, hi.timer, hi.dsreq, hreq⟩
    exact inv_action hi' ⟨fun q hq => Or.inl (by cases hq; rfl), by simp, by simp⟩ (by simp) hs
  | recv pd b =>
    have hval := validate_val c s pd b
    dsimp only [step] at hs
    generalize validate c s pd b = r at hs hval
    have hskip : (s.state = .rv ∨ s.state = .rv2 → Quiet c s.rphase (.recv pd b)) → ∀ li,
        Inv c (h ++ [.recv pd b]) { s with lastInit := li } := fun hq li =>
      hi.same (s' := { s with lastInit := li }) ⟨rfl, rfl, rfl, rfl, rfl, rfl, rfl, rfl, rfl⟩ _ hq
        (fun n h => ⟨n, h⟩) hi.timer hi.req
    cases hval with
    | null h1 => cases hs; exact hskip (fun _ => Or.inr (Or.inr (Or.inl ⟨pd, by rw [h1]⟩))) s.lastInit
    | padded h1 h2 =>
      cases hs
      exact hskip (fun _ => Or.inr (Or.inr (Or.inr (Or.inl ⟨h2, b, by rw [h1]⟩)))) s.lastInit
    | pkt p h1 h2 =>
      exact inv_action hi ⟨fun q hq => Or.inr ⟨pd, by cases hq; rw [h1]⟩, by simp, by simp⟩ (by simp) hs
    | dup p h1 h2 h3 h4 h5 =>
      cases hs
      refine hskip (fun _ => Or.inr (Or.inr (Or.inr (Or.inr ⟨h3, pd, p, h2, ?_⟩)))) (some false)
      rcases h1 with rfl | rfl <;> simp
    | again p h1 h2 h3 h4 =>
      cases hs
      have h6 := hi.restart (h ++ [.recv pd b])
      refine ⟨h6.told, h6.run, h6.nolisten, h6.wait, h6.rv, h6.rv2, h6.ph, h6.timer, h6.dsreq, ?_⟩
      intro q hq
      rcases List.mem_append.1 hq with hq | hq
      · exact hi.req q hq
      · rw [List.mem_singleton.1 hq]; exact h2
    | down h1 => exact inv_action hi ⟨by simp, by simp, by simp⟩ (by simp) hs
    | exc => cases hs

theorem steps_inv {c : Cfg} {h : List Item} {s : St} (hs : Steps c h s) : Inv c h s := by
  induction hs with
  | nil => exact inv_init c
  | snoc _ hv h2 ih => exact inv_step ih hv h2

end Verif.Ptp
