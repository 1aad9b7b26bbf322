import Verif.Ptp.Running

/-!
# Point-to-point circuits: properties

`Steps c h s`: the circuit, configured as `c`, is in state `s` after the items `h`, in any order
the datalink, the operator, the timers and the neighbour may produce.
-/
namespace Verif.Ptp

/-! ## C25: verification -/

/-- With verification required, the adjacency with node `id` is reported up only on receipt of a
verification message from `id` with the password configured for `id`; before it came an acceptable init
message naming `id`, and in between nothing that matters. -/
theorem verified_up {c : Cfg} {h : List Item} {s s' : St} {i : Item} {d : List Out} {id : Nat} {nt : NT} {blk : Nat}
    (hv : c.verify = true) (hs : Steps c h s) (hi : Valid s i) (hst : step c s i = some s')
    (hd : s'.log = s.log ++ d) (hup : Out.adjUp id nt blk ∈ d) :
    ∃ ph pre j p mid pd v, h = pre ++ j :: mid ∧ Delivers j p ∧ InitOk c p ph id nt blk ∧
      (∀ q ∈ mid, Quiet c ph q) ∧ i = .recv pd (.pkt v) ∧ VerifyOk c ph id v := by
  have hinv := steps_inv hs
  obtain ⟨d', w, h1, h2, h3⟩ := step_emits hinv hi hst
  have : d' = d := List.append_cancel_left (h1.symm.trans hd)
  subst this
  cases h2 with
  | plain _ h4 => exact absurd (h4 _ hup) (by simp [Out.plain])
  | accept p ph id' nt' blk' h4 h5 h6 =>
    rw [hv] at hup
    simp only [if_true, List.append_nil, replies, List.mem_append] at hup
    rcases hup with hup | hup
    · split at hup <;> simp at hup
    · split at hup <;> simp at hup
  | verified p h4 h5 h6 =>
    simp only [List.mem_singleton, Out.adjUp.injEq] at hup
    obtain ⟨rfl, rfl, rfl⟩ := hup
    obtain ⟨-, -, -, pre, j, q, mid, e, f, g, k⟩ := hinv.wait h4
    rcases h3 p h5 with ⟨pd, h7, -⟩ | ⟨-, h7⟩
    · exact ⟨s.rphase, pre, j, q, mid, pd, p, e, f, g, k, h7, h6⟩
    · cases h6 <;> cases h7
  | passed p o h4 h5 h6 =>
    rcases h6 with ⟨-, rfl⟩ | ⟨-, rfl, -⟩ <;> simp at hup

/-- With verification required, a node for which no password is configured never comes up. -/
theorem no_password_never_up {c : Cfg} {h : List Item} {s : St} {id : Nat} (hv : c.verify = true)
    (hp : c.iverif id = none) (hs : Steps c h s) : ∀ nt blk, Out.adjUp id nt blk ∉ s.log := by
  induction hs with
  | nil => simp [St.init]
  | @snoc h s s' i hs hi hst ih =>
    intro nt blk hm
    obtain ⟨d, w, h1, -, -⟩ := step_emits (steps_inv hs) hi hst
    rw [h1] at hm
    rcases List.mem_append.1 hm with hm | hm
    · exact ih nt blk hm
    · obtain ⟨ph, pre, j, p, mid, pd, v, -, -, -, -, -, hok⟩ := verified_up hv hs hi hst h1 hm
      cases hok with
      | phase4 _ h2 => rw [hp] at h2; cases h2
      | phase3 _ h2 => rw [hp] at h2; cases h2
      | phase2 _ h2 => rw [hp] at h2; cases h2

/-- The same over whole histories: whoever is up has sent an acceptable init message and, after it, the
configured password. -/
theorem up_history {c : Cfg} {h : List Item} {s : St} {id : Nat} {nt : NT} {blk : Nat} (hv : c.verify = true)
    (hs : Steps c h s) (hup : Out.adjUp id nt blk ∈ s.log) :
    ∃ ph pre j p mid pd v post, h = pre ++ j :: (mid ++ .recv pd (.pkt v) :: post) ∧ Delivers j p ∧
      InitOk c p ph id nt blk ∧ (∀ q ∈ mid, Quiet c ph q) ∧ VerifyOk c ph id v := by
  induction hs with
  | nil => simp [St.init] at hup
  | @snoc h s s' i hs hi hst ih =>
    obtain ⟨d, w, h1, -, -⟩ := step_emits (steps_inv hs) hi hst
    rw [h1] at hup
    rcases List.mem_append.1 hup with hm | hm
    · obtain ⟨ph, pre, j, p, mid, pd, v, post, e, h2⟩ := ih hm
      exact ⟨ph, pre, j, p, mid, pd, v, post ++ [i], by simp [e], h2⟩
    · obtain ⟨ph, pre, j, p, mid, pd, v, e, h2, h3, h4, h5, h6⟩ := verified_up hv hs hi hst h1 hm
      exact ⟨ph, pre, j, p, mid, pd, v, [], by simp [e, h5], h2, h3, h4, h6⟩

/-- Waiting for verification, any other password or a wrong sender restarts the circuit. -/
theorem wrong_password_restarts {c : Cfg} {h : List Item} {s : St} {src : Nat} {f : Bytes} {pd : Bool}
    (hs : Steps c h s) (hst : s.state = .rv) (hpd : pd = false ∨ s.rphase = 4)
    (hbad : ¬ VerifyOk c s.rphase s.id (.verify src f)) :
    ∃ s', step c s (.recv pd (.pkt (.verify src f))) = some s' ∧ s'.state = .ds ∧
      s'.log = s.log ++ [if c.startWorks then .dlRestart else .selfUp] := by
  have hi := steps_inv hs
  obtain ⟨-, -, hver, -⟩ := hi.wait (Or.inl hst)
  dsimp only [step, validate]
  rw [if_neg (not_ignored hpd (by simp))]
  simp only [hst, State.accepts, if_true, action, rv, Pkt.src?]
  have hr : ∃ s', some (restart c s) = some s' ∧ s'.state = .ds ∧
      s'.log = s.log ++ [if c.startWorks then .dlRestart else .selfUp] :=
    ⟨_, rfl, rfl, by simp [restart, restart0, hst, State.isRu, emit]⟩
  by_cases h1 : checksrc s src = false
  · rw [if_pos h1]; exact hr
  · rw [if_neg h1]
    by_cases h2 : some f = s.verif
    · exfalso
      apply hbad
      have h3 : src = if s.rphase = 4 then s.id else s.id % 1024 := by simpa [checksrc] using h1
      have h4 : c.iverif s.id = some f := by rw [← hver, h2]
      rcases hi.rv hst with h5 | h5
      · rw [if_neg (by omega)] at h3; subst h3; exact .phase3 h5 h4
      · rw [if_pos h5] at h3; subst h3; exact .phase4 h5 h4
    · rw [if_pos h2]; exact hr

/-- The right one brings it up: the verification is not only necessary. -/
theorem right_password_up {c : Cfg} {h : List Item} {s : St} {v : Pkt} {pd : Bool}
    (hs : Steps c h s) (hst : s.state = .rv ∨ s.state = .rv2) (hpd : pd = false ∨ s.rphase = 4)
    (hok : VerifyOk c s.rphase s.id v) :
    ∃ s', step c s (.recv pd (.pkt v)) = some s' ∧ s'.state.isRu = true ∧
      s'.log = s.log ++ [.adjUp s.id s.ntype s.blksize] := by
  have hi := steps_inv hs
  obtain ⟨-, hadj, hver, -⟩ := hi.wait hst
  dsimp only [step, validate]
  rw [if_neg (not_ignored hpd (by simp))]
  have hrv : s.state = .rv → ∀ src f, src = (if s.rphase = 4 then s.id else s.id % 1024) → c.iverif s.id = some f →
      v = .verify src f → ∃ s', action c s (.pkt v) = some s' ∧ s'.state.isRu = true ∧
      s'.log = s.log ++ [.adjUp s.id s.ntype s.blksize] := by
    intro hst src f h1 h2 h3
    subst h3
    simp only [hst, action, rv, Pkt.src?]
    have h4 : ¬ (checksrc s src = false) := by simpa [checksrc] using h1
    rw [if_neg h4, if_neg (by rw [hver, h2]; simp)]
    exact ⟨_, rfl, rustate_isRu c s, up_log hadj⟩
  cases hok with
  | @phase4 f h1 h2 =>
    have hs4 : s.state = .rv := by
      rcases hst with h3 | h3
      · exact h3
      · have := (hi.rv2 h3).1; omega
    simp only [hs4, State.accepts, if_true]
    exact hrv hs4 s.id f (by rw [if_pos h1]) h2 rfl
  | @phase3 f h1 h2 =>
    have hs4 : s.state = .rv := by
      rcases hst with h3 | h3
      · exact h3
      · have := (hi.rv2 h3).1; omega
    simp only [hs4, State.accepts, if_true]
    exact hrv hs4 _ f (by rw [if_neg (by omega)]) h2 rfl
  | @phase2 v f h1 h2 h3 h4 =>
    have hs4 : s.state = .rv2 := by
      rcases hst with h5 | h5
      · rcases hi.rv h5 with h6 | h6 <;> omega
      · exact h5
    have hf : f = pad8 v := by
      apply List.ext_getElem?
      intro k
      by_cases hk : k < f.length
      · rw [h4 k hk, (pad8_spec v).2 k (by rw [(pad8_spec v).1, ← h3]; exact hk)]
      · rw [List.getElem?_eq_none (by omega), List.getElem?_eq_none (by rw [(pad8_spec v).1, ← h3]; omega)]
    simp only [hs4, State.accepts, if_true, action, rv2, hver, h2]
    rw [if_neg (by rw [hf]; simp)]
    exact ⟨_, rfl, rfl, up_log hadj⟩

/-! ## C26: which neighbours are accepted, and errors -/

/-- The adjacency comes up only after an init message that is acceptable: node number within the limit,
area allowed, node type known, block size given.  What is reported is what the message said, with the
block size limited to ours. -/
theorem up_allowed {c : Cfg} {h : List Item} {s s' : St} {i : Item} {d : List Out} {id : Nat} {nt : NT} {blk : Nat}
    (hs : Steps c h s) (hi : Valid s i) (hst : step c s i = some s') (hd : s'.log = s.log ++ d)
    (hup : Out.adjUp id nt blk ∈ d) :
    ∃ ph p j, j ∈ h ++ [i] ∧ Delivers j p ∧ InitOk c p ph id nt blk := by
  cases hv : c.verify
  · obtain ⟨d', w, h1, h2, h3⟩ := step_emits (steps_inv hs) hi hst
    have : d' = d := List.append_cancel_left (h1.symm.trans hd)
    subst this
    cases h2 with
    | plain _ h4 => exact absurd (h4 _ hup) (by simp [Out.plain])
    | accept p ph id' nt' blk' h4 h5 h6 =>
      simp only [hv, Bool.false_eq_true, if_false, List.mem_append, List.mem_singleton, Out.adjUp.injEq] at hup
      rcases hup with hup | ⟨rfl, rfl, rfl⟩
      · simp only [replies, List.mem_append] at hup
        rcases hup with hup | hup
        · split at hup <;> simp at hup
        · split at hup <;> simp at hup
      · refine ⟨ph, p, i, by simp, ?_, h6⟩
        rcases h3 p h5 with ⟨pd, h7, -⟩ | ⟨h7, -⟩
        · exact Or.inr ⟨pd, h7⟩
        · exact Or.inl h7
    | verified p h4 h5 h6 =>
      have := ((steps_inv hs).wait h4).1
      rw [hv] at this
      cases this
    | passed p o h4 h5 h6 =>
      rcases h6 with ⟨-, rfl⟩ | ⟨-, rfl, -⟩ <;> simp at hup
  · obtain ⟨ph, pre, j, p, mid, pd, v, e, h2, h3, -⟩ := verified_up hv hs hi hst hd hup
    exact ⟨ph, p, j, by rw [e]; simp, h2, h3⟩

/-- In the words of the claim.  Full statement: for every accepted neighbour the node number is not 0
and, at a router, at most `maxnodes`; the area is ours, or, between two level 2 routers, one of those
configured; and the block size is at most ours.  Proved for Phase IV neighbours of every node and for
Phase III neighbours of Phase IV routers.  Missing because false: Phase II neighbours
(`phase2_number_unchecked`) and Phase III neighbours of an endnode (`phase3_number_zero`). -/
theorem up_limits_partial {c : Cfg} {p : Pkt} {ph id : Nat} {nt : NT} {blk : Nat} (h : InitOk c p ph id nt blk)
    (hc : ph = 4 ∨ (ph = 3 ∧ c.phase = 4 ∧ (c.ntype = .l1 ∨ c.ntype = .l2) ∧ c.maxnodes ≤ 1023)) :
    0 < id % 1024 ∧ (c.ntype = .l1 ∨ c.ntype = .l2 → id % 1024 ≤ c.maxnodes) ∧
    (id / 1024 = c.homearea ∨ (nt = .l2 ∧ c.ntype = .l2 ∧ 1 ≤ id / 1024 ∧ id / 1024 ≤ c.maxarea)) ∧ blk ≤ 576 := by
  cases h with
  | phase4 a b d e =>
    refine ⟨d.1, d.2, ?_, by omega⟩
    by_cases hh : nt = .l2 ∧ c.ntype = .l2
    · exact Or.inr ⟨hh.1, hh.2, e.1 hh⟩
    · exact Or.inl (e.2 hh)
  | phase3 a b d e =>
    rcases hc with hc | ⟨-, h4, hr, hm⟩
    · omega
    · have := d.2 hr
      have := d.1
      rw [if_pos h4]
      exact ⟨by omega, fun _ => by omega, Or.inl (by omega), by omega⟩
  | phase2 a b =>
    rcases hc with hc | ⟨hc, -⟩ <;> omega

theorem riEnd_isSome {c : Cfg} {s : St} {nt : NT} {v : Bool} {blk : Nat}
    (h : ((c.overif s.id).getD []).length ≤ 8) : (riEnd c s nt v blk).isSome = true := by
  simp only [riEnd, Option.isSome_map]
  split
  · rw [sendVerify, if_neg]
    · rfl
    · split <;> omega
  · rfl

/-- An acceptable init message is accepted: without verification the adjacency comes up at once. -/
theorem good_init_accepted {c : Cfg} {h : List Item} {s : St} {p : Pkt} {ph id : Nat} {nt : NT} {blk : Nat}
    (_hs : Steps c h s) (hst : s.state = .ri) (hok : InitOk c p ph id nt blk)
    (hpw : ((c.overif id).getD []).length ≤ 8) :
    ∃ s', step c s (.recv false (.pkt p)) = some s' ∧ s'.id = id ∧ s'.ntype = nt ∧ s'.blksize = blk ∧ s'.rphase = ph ∧
      (c.verify = false → s'.state.isRu = true ∧ s'.log = s.log ++ replies c p ph id ++ [.adjUp id nt blk]) ∧
      (c.verify = true → (s'.state = .rv ∨ s'.state = .rv2) ∧ s'.log = s.log ++ replies c p ph id) := by
  have hacc : s.state.accepts p = true := by rw [hst]; cases hok <;> rfl
  have e : step c s (.recv false (.pkt p)) = riPkt c s p := by
    have hacc' : State.ri.accepts p = true := by rw [← hst]; exact hacc
    simp [step, validate, hacc', action, hst, ri]
  rw [e]
  have hsome : (riPkt c s p).isSome = true := by
    cases hok with
    | phase4 a b d e =>
      simp only [riPkt]
      repeat' split
      all_goals try rfl
      exact riEnd_isSome hpw
    | @phase3 src nt verif blk a b d e =>
      simp only [riPkt]
      repeat' split
      all_goals try rfl
      all_goals
        apply riEnd_isSome
        simp_all
    | phase2 a b =>
      simp only [riPkt, b]
      repeat' split
      all_goals try rfl
      all_goals
        simp only [Option.isSome_map]
        try rfl
        rw [sendVerify, if_neg (by simp; omega)]
        rfl
  obtain ⟨s', hs'⟩ := Option.isSome_iff_exists.1 hsome
  refine ⟨s', hs', ?_⟩
  have huniq : ∀ ph' id' nt' blk', InitOk c p ph' id' nt' blk' → ph' = ph ∧ id' = id ∧ nt' = nt ∧ blk' = blk := by
    intro ph' id' nt' blk' h'
    cases hok <;> cases h' <;> simp
    rename_i h1 _ h2
    rw [h1] at h2
    exact (Option.some.inj h2).symm
  cases riPkt_out hs' with
  | ignored h1 => exact absurd hok (h1 _ _ _ _)
  | refused s1 _ _ _ _ h1 => exact absurd hok (h1 _ _ _ _)
  | wait ph' id' nt' blk' li h1 hv =>
    obtain ⟨rfl, rfl, rfl, rfl⟩ := huniq _ _ _ _ h1
    refine ⟨rfl, rfl, rfl, rfl, by simp [hv], fun _ => ⟨?_, rfl⟩⟩
    by_cases h2 : ph' = 2 <;> simp [h2]
  | up ph' id' nt' blk' li h1 hv =>
    obtain ⟨rfl, rfl, rfl, rfl⟩ := huniq _ _ _ _ h1
    have hu : ∀ s1 : St, s1.adj = some id' → (up s1).id = s1.id ∧ (up s1).ntype = s1.ntype ∧
        (up s1).blksize = s1.blksize ∧ (up s1).rphase = s1.rphase := by
      intro s1 h; simp [up, h, emit]
    obtain ⟨u1, u2, u3, u4⟩ := hu (accepted c s p ph' id' nt' blk' li) rfl
    refine ⟨u1, u2, u3, u4, fun _ => ⟨?_, ?_⟩, by simp [hv]⟩
    · by_cases h2 : ph' = 2
      · simp [h2, State.isRu]
      · simp only [h2, if_false]; exact rustate_isRu _ _
    · exact up_log rfl

/-- An unacceptable one is not: no adjacency, and the circuit restarts (or ignores it when it is of a
later phase than ours). -/
theorem bad_init_refused {c : Cfg} {h : List Item} {s s' : St} {p : Pkt} {pd : Bool}
    (_hs : Steps c h s) (hst : s.state = .ri) (hacc : step c s (.recv pd (.pkt p)) = some s')
    (hbad : ∀ ph id nt blk, ¬ InitOk c p ph id nt blk) (hrun : c.startWorks = true) :
    s' = s ∨ (s'.state = .ds ∧ ∃ l, s'.log = s.log ++ l ∧
      (l = [.dlRestart] ∨ l = [.sendInit 2 c.verify, .dlRestart])) := by
  have hre : ∀ s1 : St, s1.state = .ri → (restart c s1).state = .ds ∧ (restart c s1).log = s1.log ++ [.dlRestart] := by
    intro s1 h1
    exact ⟨rfl, by simp [restart, restart0, h1, State.isRu, emit, hrun]⟩
  have hval := validate_val c s pd (.pkt p)
  dsimp only [step] at hacc
  generalize validate c s pd (.pkt p) = r at hacc hval
  cases hval with
  | null h1 => cases h1
  | padded h1 h2 => cases hacc; exact Or.inl rfl
  | pkt q h1 h2 =>
    cases h1
    simp only [action, hst, ri] at hacc
    cases riPkt_out hacc with
    | ignored h1 => exact Or.inl rfl
    | refused s1 e1 e2 e3 e4 h1 =>
      right
      obtain ⟨h5, h6⟩ := hre s1 (e1.trans hst)
      refine ⟨h5, ?_⟩
      rcases e4 with e4 | e4
      · exact ⟨_, by rw [h6, e4], Or.inl rfl⟩
      · exact ⟨[.sendInit 2 c.verify, .dlRestart], by rw [h6, e4]; simp, Or.inr rfl⟩
    | wait _ _ _ _ _ h1 => exact absurd h1 (hbad _ _ _ _)
    | up _ _ _ _ _ h1 => exact absurd h1 (hbad _ _ _ _)
  | dup q h1 h2 h3 => rw [hrun] at h3; cases h3
  | again q h1 h2 h3 => rw [hrun] at h3; cases h3
  | down h1 =>
    simp only [action, hst, ri] at hacc
    cases hacc
    exact Or.inr ⟨rfl, _, (hre s hst).2, Or.inl rfl⟩
  | exc => cases hacc

/-- The routing layer is told of one adjacency at a time; it is up exactly while the circuit runs, and
goes down under the address it came up with. -/
theorem told {c : Cfg} {h : List Item} {s : St} (hs : Steps c h s) :
    Told s.log (if s.state.isRu then some (s.id, s.ntype, s.blksize) else none) := (steps_inv hs).told

/-- Any error on a running circuit takes the adjacency down and starts the circuit over. -/
theorem running_error_restarts {c : Cfg} {h : List Item} {s : St} {i : Item} (hs : Steps c h s)
    (hru : s.state.isRu = true) (hv : Valid s i) (he : RunErr c s.rphase s.id s.ntype i) (hr : ¬ ReInit c i) :
    ∃ s', step c s i = some s' ∧ s'.state = .ds ∧
      s'.log = s.log ++ [.adjDown s.id, if c.startWorks then .dlRestart else .selfUp] :=
  running_error (steps_inv hs) hru hv he hr

/-- A running circuit stops running on errors and on the operator's command only (for datalinks
that tell when the other end restarts). -/
theorem running_leaves_iff {c : Cfg} {h : List Item} {s s' : St} {i : Item} (hw : c.startWorks = true)
    (hs : Steps c h s) (hru : s.state.isRu = true) (hv : Valid s i) (hst : step c s i = some s') :
    s'.state.isRu = false ↔ (RunErr c s.rphase s.id s.ntype i ∨ i = .stop) := by
  have hi := steps_inv hs
  have hnr : ¬ ReInit c i := fun h => by have := h.1; rw [hw] at this; cases this
  constructor
  · intro h1
    by_cases he : RunErr c s.rphase s.id s.ntype i
    · exact Or.inl he
    · by_cases h2 : i = .stop
      · exact Or.inr h2
      · have hna : ∀ p, i ≠ .again p := by
          intro p h3
          rw [h3] at hv
          have : p ∈ s.requeued := hv
          rw [requeued_nil hs hw] at this
          cases this
        have := running_stays hi hru hst he h2 hna hnr
        rw [this.state, hru] at h1
        cases h1
  · rintro (he | rfl)
    · obtain ⟨s1, h1, h2, -⟩ := running_error hi hru hv he hnr
      rw [hst] at h1
      cases h1
      rw [h2]; rfl
    · dsimp only [step, action] at hst
      cases hst1 : s.state <;> simp [hst1, State.isRu] at hru <;> simp only [hst1] at hst <;> cases hst <;>
        rfl

/-- The operator's command halts a running circuit, with the adjacency taken down first. -/
theorem stop_takes_down {c : Cfg} {h : List Item} {s : St} (hs : Steps c h s) (hru : s.state.isRu = true) :
    ∃ s', step c s .stop = some s' ∧ s'.state = .ha ∧ s'.log = s.log ++ [.adjDown s.id, .dlClose] := by
  have ha := ((steps_inv hs).run hru).1
  dsimp only [step, action]
  cases hst1 : s.state <;> simp [hst1, State.isRu] at hru <;>
    exact ⟨_, rfl, rfl, by simp [rucommon, ha, halt, emit, adjDown]⟩

/-- While waiting for a message the circuit's timer runs; when it runs out, initialisation starts
over. -/
theorem waiting_times_out {c : Cfg} {h : List Item} {s : St} (hs : Steps c h s)
    (hst : s.state = .ri ∨ s.state = .rv ∨ s.state = .rv2) :
    Valid s .timeout ∧ ∃ s', step c s .timeout = some s' ∧ s'.state = .ds ∧
      s'.log = s.log ++ [if c.startWorks then .dlRestart else .selfUp] := by
  refine ⟨(steps_inv hs).timer ?_ ?_, ?_⟩
  · rcases hst with h | h | h <;> rw [h] <;> simp
  · rcases hst with h | h | h <;> rw [h] <;> simp
  · rcases hst with h | h | h <;> dsimp only [step, action] <;> simp only [h] <;>
      exact ⟨_, rfl, rfl, by simp [rvcommon, restart, restart0, State.isRu, emit]⟩

/-- A running neighbour of Phase III or IV is watched by the listen timer. -/
theorem running_is_watched {c : Cfg} {h : List Item} {s : St} (hs : Steps c h s) (hru : s.state.isRu = true)
    (hp : s.ntype ≠ .phase2) : Valid s .listen := by
  have := ((steps_inv hs).run hru).2.2
  rw [if_neg hp] at this
  simp [Valid, this]

/-- In state `ds` the datalink has been asked to start, and nothing else has happened since. -/
theorem ds_requested {c : Cfg} {h : List Item} {s : St} (hs : Steps c h s) (hst : s.state = .ds) :
    ∃ l o, s.log = l ++ [o] ∧ (o = .dlOpen ∨ o = .dlRestart ∨ o = .selfUp) := (steps_inv hs).dsreq hst

/-- What is passed to the routing layer comes from the running neighbour: it is a kind of packet this
neighbour may send, and a control packet carries the neighbour's address. -/
theorem passed_up {c : Cfg} {h : List Item} {s s' : St} {i : Item} {d : List Out} {p : Pkt} (hw : c.startWorks = true)
    (hs : Steps c h s) (hi : Valid s i) (hst : step c s i = some s') (hd : s'.log = s.log ++ d)
    (hp : Out.toRouting p ∈ d) :
    s.state.isRu = true ∧ (∃ pd, i = .recv pd (.pkt p)) ∧ Expected c s.rphase s.ntype p ∧
    (p.isCtl = true → p.src? = some (if s.rphase = 4 then s.id else s.id % 1024)) := by
  have hinv := steps_inv hs
  obtain ⟨d', w, h1, h2, h3⟩ := step_emits hinv hi hst
  have : d' = d := List.append_cancel_left (h1.symm.trans hd)
  subst this
  cases h2 with
  | plain _ h4 => exact absurd (h4 _ hp) (by simp [Out.plain])
  | accept q ph id' nt' blk' h4 h5 h6 =>
    exfalso
    simp only [replies, List.mem_append] at hp
    rcases hp with (hp | hp) | hp
    · split at hp <;> simp at hp
    · split at hp <;> simp at hp
    · split at hp <;> simp at hp
  | verified q h4 h5 h6 => simp at hp
  | passed q o h4 h5 h6 =>
    rcases h6 with ⟨-, rfl⟩ | ⟨-, rfl, h7⟩
    · simp at hp
    · simp only [List.mem_singleton, Out.toRouting.injEq] at hp
      subst hp
      rcases h3 p h5 with ⟨pd, h8, h9⟩ | ⟨h8, -⟩
      · exact ⟨h4, ⟨pd, h8⟩, (accepts_iff hinv h4 p).1 h9, h7⟩
      · rw [h8] at hi
        have : p ∈ s.requeued := hi
        rw [requeued_nil hs hw] at this
        cases this

/-! ## No message stops the node -/

/-- Configurations for which no packet raises an exception: the datalink tells about restarts of the
other end, passwords to send fit the message, and if verification is required every node in the
name table has a password. -/
structure Sane (c : Cfg) : Prop where
  works : c.startWorks = true
  out : ∀ id, ((c.overif id).getD []).length ≤ 8
  inb : c.verify = true → ∀ name id, c.names name = some id → c.iverif id ≠ none

/-- With a sane configuration no item leads to an exception, except buffers on which the decoder itself
raises one. -/
theorem no_exception {c : Cfg} {h : List Item} {s : St} {i : Item} (hc : Sane c) (hs : Steps c h s) (hv : Valid s i)
    (hi : ∀ pd, i ≠ .recv pd .crash) : ∃ s', step c s i = some s' := by
  have hinv := steps_inv hs
  have hact : ∀ s1 : St, s1.state = s.state → s1.adj = s.adj → s1.nrec = s.nrec → ∀ w, (∀ p, w ≠ .pkt p) →
      ∃ s', action c s1 w = some s' := by
    intro s1 e1 e2 e3 w hw
    unfold action
    cases hst : s1.state <;> cases w <;> first | exact absurd rfl (hw _) | exact ⟨_, rfl⟩
  cases i with
  | start => exact hact s rfl rfl rfl _ (by simp)
  | stop => exact hact s rfl rfl rfl _ (by simp)
  | dlUp => exact hact s rfl rfl rfl _ (by simp)
  | dlDown => exact hact s rfl rfl rfl _ (by simp)
  | timeout => exact hact { s with timer := false } rfl rfl rfl .timeout (by simp)
  | listen => exact ⟨_, rfl⟩
  | again p =>
    have : p ∈ s.requeued := hv
    rw [requeued_nil hs hc.works] at this
    cases this
  | recv pd b =>
    by_cases hig : b = .null ∨ (pd = true ∧ s.rphase < 4)
    · exact ⟨s, by simp only [step, validate, if_pos hig]⟩
    have hrej : ∀ p, reject c s p = .go .circuitDown := fun p => reject_go (by simp [hc.works])
    have hdown : ∃ s', action c s .circuitDown = some s' := hact s rfl rfl rfl .circuitDown (by simp)
    cases b with
    | null => exact ⟨s, by simp [step, validate]⟩
    | crash => exact absurd rfl (hi pd)
    | checksum => simpa only [step, validate, if_neg hig] using hdown
    | bad => simpa only [step, validate, if_neg hig] using hdown
    | extra p => simpa only [step, validate, if_neg hig, hrej] using hdown
    | pkt p =>
      cases hacc : s.state.accepts p
      · have e : step c s (.recv pd (.pkt p)) = action c s .circuitDown := by
          simp only [step, validate, if_neg hig, hacc, hrej, Bool.false_eq_true, if_false]
        rw [e]
        exact hdown
      · have e : step c s (.recv pd (.pkt p)) = action c s (.pkt p) := by
          simp only [step, validate, if_neg hig, hacc, if_true]
        rw [e]
        by_cases hru : s.state.isRu = true
        · obtain ⟨ha, ⟨n, hn⟩, -⟩ := hinv.run hru
          by_cases h2 : s.state = .ru2
          · unfold action
            rw [h2]
            simp only [ru2, hn]
            split <;> exact ⟨_, rfl⟩
          · rw [action_ru hru h2]
            simp only [ru, hn, ha]
            generalize (if s.ntype = .phase2 then s.listen else some s.id) = li
            rw [← ha]
            by_cases hcc : p.isCtl = true ∧ srcOk { s with nrec := some (n + 1), listen := li } p = false
            · rw [if_pos hcc]; exact ⟨_, rfl⟩
            · rw [if_neg hcc]
              split
              · split <;> exact ⟨_, rfl⟩
              · exact ⟨_, rfl⟩
        · unfold action
          cases hst : s.state with
          | ha => rw [hst] at hacc; cases p <;> simp [State.accepts] at hacc
          | ds => rw [hst] at hacc; cases p <;> simp [State.accepts] at hacc
          | ri =>
            rw [hst] at hacc
            apply Option.isSome_iff_exists.1
            simp only [ri]
            cases p with
            | init4 src nt v blo blk tm =>
              simp only [riPkt]
              repeat' split
              all_goals try rfl
              all_goals exact riEnd_isSome (hc.out _)
            | init3 src nt v blk =>
              simp only [riPkt]
              repeat' split
              all_goals try rfl
              all_goals exact riEnd_isSome (hc.out _)
            | nodeInit src name v blk =>
              simp only [riPkt]
              repeat' split
              all_goals try rfl
              all_goals
                simp only [Option.isSome_map]
                try rfl
                rw [sendVerify, if_neg (by have := hc.out; simp; exact this _)]
                rfl
            | nodeVerify pw => rfl
            | _ => simp [State.accepts] at hacc
          | rv =>
            rw [hst] at hacc
            cases p <;> simp [State.accepts] at hacc
            simp only [rv, Pkt.src?]
            split
            · exact ⟨_, rfl⟩
            · split <;> exact ⟨_, rfl⟩
          | rv2 =>
            rw [hst] at hacc
            cases p <;> simp [State.accepts] at hacc
            obtain ⟨hve, -, hver, pre, j, q, mid, -, -, hok, -⟩ := hinv.wait (Or.inr hst)
            have hne : s.verif ≠ none := by
              rw [hver]
              have h2 := (hinv.rv2 hst).1
              rw [h2] at hok
              generalize s.ntype = nt, s.blksize = bl at hok
              cases hok with
              | phase2 a b => exact hc.inb hve _ _ b
            cases hsv : s.verif with
            | none => exact absurd hsv hne
            | some v =>
              simp only [rv2, hsv]
              split <;> exact ⟨_, rfl⟩
          | _ => rw [hst] at hru; simp [State.isRu] at hru

/-! ## C61: our own password -/

/-- A password is sent only in answer to an acceptable init message that asks for it, and it is the one
configured for the node which sent that message (the empty one if there is none). -/
theorem password_sent {c : Cfg} {h : List Item} {s s' : St} {i : Item} {d : List Out} {ph : Nat} {pw : Bytes}
    (hs : Steps c h s) (hi : Valid s i) (hst : step c s i = some s') (hd : s'.log = s.log ++ d)
    (hp : Out.sendVerify ph pw ∈ d) :
    ∃ p id nt blk, Delivers i p ∧ InitOk c p ph id nt blk ∧ AsksVerify p ∧ pw = (c.overif id).getD [] := by
  obtain ⟨d', w, h1, h2, h3⟩ := step_emits (steps_inv hs) hi hst
  have : d' = d := List.append_cancel_left (h1.symm.trans hd)
  subst this
  cases h2 with
  | plain _ h4 => exact absurd (h4 _ hp) (by simp [Out.plain])
  | accept q ph' id' nt' blk' h4 h5 h6 =>
    have hdel : Delivers i q := by
      rcases h3 q h5 with ⟨pd, h7, -⟩ | ⟨h7, -⟩
      · exact Or.inr ⟨pd, h7⟩
      · exact Or.inl h7
    simp only [replies, List.mem_append] at hp
    rcases hp with (hp | hp) | hp
    · split at hp <;> simp at hp
    · split at hp
      · simp only [List.mem_singleton, Out.sendVerify.injEq] at hp
        obtain ⟨rfl, rfl⟩ := hp
        exact ⟨_, id', nt', blk', hdel, h6, rfl, rfl⟩
      · simp only [List.mem_singleton, Out.sendVerify.injEq] at hp
        obtain ⟨rfl, rfl⟩ := hp
        exact ⟨_, id', nt', blk', hdel, h6, rfl, rfl⟩
      · simp only [List.mem_singleton, Out.sendVerify.injEq] at hp
        obtain ⟨rfl, rfl⟩ := hp
        exact ⟨_, id', nt', blk', hdel, h6, rfl, rfl⟩
      · simp at hp
    · split at hp <;> simp at hp
  | verified q h4 h5 h6 => simp at hp
  | passed q o h4 h5 h6 =>
    rcases h6 with ⟨-, rfl⟩ | ⟨-, rfl, -⟩ <;> simp at hp

/-! ## Examples, and what goes wrong -/

/-- `Valid`, computed. -/
def okItem (s : St) : Item → Bool
  | .timeout => s.timer
  | .listen => s.listen.isSome
  | .again p => decide (p ∈ s.requeued)
  | _ => true

/-- Runs for the examples. -/
def run (c : Cfg) (h : List Item) : Option St :=
  h.foldl (fun s i => s.bind fun s => if okItem s i = true then step c s i else none) (some St.init)

theorem run_steps {c : Cfg} {h : List Item} {s : St} (hr : run c h = some s) : Steps c h s := by
  have key : ∀ n, ∀ h : List Item, h.length = n → ∀ s, run c h = some s → Steps c h s := by
    intro n
    induction n with
    | zero =>
      intro h hl s hr
      rw [List.length_eq_zero_iff.1 hl] at hr ⊢
      cases hr
      exact .nil
    | succ n ih =>
      intro h hl s hr
      rcases List.eq_nil_or_concat h with rfl | ⟨h', i, rfl⟩
      · simp at hl
      simp only [List.concat_eq_append] at hl hr ⊢
      have hl' : h'.length = n := by simpa using hl
      simp only [run, List.foldl_append, List.foldl_cons, List.foldl_nil, Option.bind_eq_some_iff] at hr
      obtain ⟨s1, h1, h2⟩ := hr
      by_cases hg : okItem s1 i = true
      · rw [if_pos hg] at h2
        refine .snoc (ih h' hl' s1 h1) ?_ h2
        cases i <;> simp_all [Valid, okItem, Option.isSome_iff_ne_none]
      · rw [if_neg hg] at h2
        cases h2
  exact key _ h rfl s hr

/-- A level 1 router of Phase IV, 1.1, with verification. -/
def exCfg : Cfg :=
  { phase := 4
    ntype := .l1
    own := 1025
    maxnodes := 100
    maxarea := 5
    homearea := 1
    verify := true
    startWorks := true
    iverif := fun n => if n = 1026 then some [1, 2, 3] else if n = 1030 then some [1, 2, 3, 4, 5, 6, 7, 8, 9] else none
    overif := fun n => if n = 1026 then some [7] else none
    names := fun n => if n = [66] then some 1030 else if n = [67] then some 1031 else if n = [68] then some 1999 else none }

def init26 (v : Bool) : Item := .recv false (.pkt (.init4 1026 .l1 v false 1000 60))
def ver26 : Item := .recv false (.pkt (.verify 1026 [1, 2, 3]))

/-- Up after init and password (`verified_up`, `up_allowed`, `up_history`, `good_init_accepted`,
`right_password_up`, `told`, `password_sent`); our password goes out when asked for. -/
example : ∃ s, Steps exCfg [.start, .dlUp, init26 true, .start, ver26] s ∧ s.state = .ru4l1 ∧
    s.log = [.dlOpen, .sendInit 4 true, .sendVerify 4 [7], .adjUp 1026 .l1 576] := by
  exact ⟨_, run_steps (s := ((run exCfg [.start, .dlUp, init26 true, .start, ver26]).getD St.init))
    (by decide +kernel), by decide +kernel, by decide +kernel⟩

/-- Not up with another password (`wrong_password_restarts`), and not without one configured
(`no_password_never_up`). -/
example : (run exCfg [.start, .dlUp, init26 false, .recv false (.pkt (.verify 1026 [1, 2]))]).map (·.log) =
    some [.dlOpen, .sendInit 4 true, .dlRestart] := by decide +kernel

example : (run exCfg [.start, .dlUp, .recv false (.pkt (.init4 1027 .l1 false false 1000 60)),
    .recv false (.pkt (.verify 1027 []))]).map (·.log) =
    some [.dlOpen, .sendInit 4 true, .dlRestart] := by decide +kernel

/-- Errors on the running circuit (`running_error_restarts`, `running_leaves_iff`, `stop_takes_down`,
`running_is_watched`, `ds_requested`, `passed_up`). -/
example : (run exCfg [.start, .dlUp, init26 false, ver26, .recv false (.pkt (.routing1 1026 3)),
    .recv true (.pkt (.short 5)), .timeout, .recv false (.pkt (.routing1 1027 3))]).map (·.log) =
    some [.dlOpen, .sendInit 4 true, .adjUp 1026 .l1 576, .toRouting (.routing1 1026 3), .toRouting (.short 5),
      .sendHello, .adjDown 1026, .dlRestart] := by decide +kernel

example : (run exCfg [.start, .dlUp, init26 false, ver26, .listen]).map (·.log) =
    some [.dlOpen, .sendInit 4 true, .adjUp 1026 .l1 576, .adjDown 1026, .dlRestart] := by decide +kernel

example : (run exCfg [.start, .dlUp, init26 false, .timeout]).map (·.log) =
    some [.dlOpen, .sendInit 4 true, .dlRestart] := by decide +kernel

/-- An init message from another area (`bad_init_refused`). -/
example : (run exCfg [.start, .dlUp, .recv false (.pkt (.init4 2050 .l1 false false 1000 60))]).map (·.log) =
    some [.dlOpen, .sendInit 4 true, .dlRestart] := by decide +kernel

/-- `Sane` can be met. -/
example : Sane { exCfg with names := fun n => if n = [66] then some 1030 else none } := by
  refine ⟨rfl, ?_, ?_⟩
  · intro id
    simp only [exCfg]
    split <;> simp
  · intro _ name id
    simp only [exCfg]
    split
    · intro h; cases h; simp
    · intro h; cases h

/-- Phase II: the password is compared in its first 8 bytes only. -/
theorem phase2_password_prefix : (run exCfg [.start, .dlUp, .recv false (.pkt (.nodeInit 6 [66] false 500)),
    .recv false (.pkt (.nodeVerify [1, 2, 3, 4, 5, 6, 7, 8]))]).map (·.log) =
    some [.dlOpen, .sendInit 4 true, .sendInit 2 true, .adjUp 1030 .phase2 500] := by decide +kernel

/-- Phase II: the address of the neighbour comes from the name table and is not checked: it comes up
with a number above the limit although the number in the message is within. -/
theorem phase2_number_unchecked : (run { exCfg with verify := false } [.start, .dlUp,
    .recv false (.pkt (.nodeInit 6 [68] false 500))]).map (·.log) =
    some [.dlOpen, .sendInit 4 false, .sendInit 2 false, .adjUp 1999 .phase2 500] ∧
    1999 % 1024 > exCfg.maxnodes := by decide +kernel

/-- Phase II: if no password is configured for the neighbour, its verification message stops the
node. -/
theorem phase2_no_password_stops (pw : Bytes) :
    ∃ s, Steps exCfg [.start, .dlUp, .recv false (.pkt (.nodeInit 6 [67] false 500))] s ∧
      step exCfg s (.recv false (.pkt (.nodeVerify pw))) = none := by
  refine ⟨_, run_steps (s := ((run exCfg [.start, .dlUp, .recv false (.pkt (.nodeInit 6 [67] false 500))]).getD St.init))
    (by decide +kernel), ?_⟩
  rfl

/-- Phase II: a configured outbound password of more than 8 bytes stops the node when the neighbour asks
for it. -/
theorem phase2_long_password_stops : ∃ s, Steps { exCfg with overif := exCfg.iverif } [.start, .dlUp] s ∧
      step { exCfg with overif := exCfg.iverif } s (.recv false (.pkt (.nodeInit 6 [66] true 500))) = none := by
  refine ⟨_, run_steps (s := ((run { exCfg with overif := exCfg.iverif } [.start, .dlUp]).getD St.init))
    (by decide +kernel), ?_⟩
  rfl

/-- An endnode takes node number zero from a Phase III neighbour. -/
theorem phase3_number_zero : (run { exCfg with verify := false, ntype := .endnode } [.start, .dlUp,
    .recv false (.pkt (.init3 1024 .l1 false 500))]).map (·.log) =
    some [.dlOpen, .sendInit 4 false, .sendInit 3 false, .adjUp 1024 .l1 500] := by decide +kernel

/-- On a datalink without start notification, a second init message while waiting for the first
verification stops the node. -/
theorem multinet_duplicate_init_stops : ∃ s, Steps { exCfg with startWorks := false } [.start, .dlUp, init26 false] s ∧
      step { exCfg with startWorks := false } s (init26 false) = none := by
  refine ⟨_, run_steps (s := ((run { exCfg with startWorks := false } [.start, .dlUp, init26 false]).getD St.init))
    (by decide +kernel), ?_⟩
  rfl

/-- Likewise when a requeued init message finds the circuit waiting for verification again. -/
theorem multinet_requeued_init_stops : ∃ s, Steps { exCfg with startWorks := false }
      [.start, .dlUp, init26 true, init26 true, .dlUp, init26 true] s ∧
      Valid s (.again (.init4 1026 .l1 true false 1000 60)) ∧
      step { exCfg with startWorks := false } s (.again (.init4 1026 .l1 true false 1000 60)) = none := by
  refine ⟨_, run_steps (s := ((run { exCfg with startWorks := false }
    [.start, .dlUp, init26 true, init26 true, .dlUp, init26 true]).getD St.init)) (by decide +kernel), ?_, ?_⟩
  · simp only [Valid]; decide +kernel
  · decide +kernel

/-- A circuit stopped by the operator opens itself again when its timer runs out. -/
theorem stopped_circuit_reopens : (run exCfg [.start, .dlUp, .stop, .timeout]).map (fun s => (s.state, s.log)) =
    some (.ds, [.dlOpen, .sendInit 4 true, .dlClose, .dlOpen]) := by decide +kernel

end Verif.Ptp
