import Verif.Ptp.Lemmas

/-!
# Point-to-point circuits: what a step emits
-/
namespace Verif.Ptp

/-- Actions which say nothing about packets from the neighbour or passwords. -/
def Out.plain : Out → Bool
  | .adjUp .. | .sendVerify .. | .toRouting _ | .toIntercept _ => false
  | _ => true

inductive Emits (c : Cfg) (s : St) (w : Work) : List Out → Prop
  | plain (d : List Out) : (∀ o ∈ d, o.plain = true) → Emits c s w d
  | accept (p : Pkt) (ph id : Nat) (nt : NT) (blk : Nat) : s.state = .ri → w = .pkt p → InitOk c p ph id nt blk →
      Emits c s w (replies c p ph id ++ if c.verify then [] else [.adjUp id nt blk])
  | verified (p : Pkt) : s.state = .rv ∨ s.state = .rv2 → w = .pkt p → VerifyOk c s.rphase s.id p →
      Emits c s w [.adjUp s.id s.ntype s.blksize]
  | passed (p : Pkt) (o : Out) : s.state.isRu = true → w = .pkt p →
      (s.state = .ru2 ∧ o = .toIntercept p ∨
        s.state ≠ .ru2 ∧ o = .toRouting p ∧ (p.isCtl = true → p.src? = some (if s.rphase = 4 then s.id else s.id % 1024))) →
      Emits c s w [o]

theorem plain_rs (c : Cfg) : (if c.startWorks then Out.dlRestart else .selfUp).plain = true := by
  cases c.startWorks <;> rfl

theorem restart_log (c : Cfg) (s : St) : ∃ d, (restart c s).log = s.log ++ d ∧ ∀ o ∈ d, o.plain = true := by
  have hp := plain_rs c
  unfold restart restart0
  by_cases hr : s.state.isRu = true
  · cases ha : s.adj with
    | none => exact ⟨[if c.startWorks then .dlRestart else .selfUp], by simp [hr, emit], by simpa using hp⟩
    | some a =>
      refine ⟨[.adjDown a, if c.startWorks then .dlRestart else .selfUp], by simp [hr, emit, adjDown], ?_⟩
      intro o ho
      rcases List.mem_cons.1 ho with rfl | ho
      · rfl
      · rw [List.mem_singleton.1 ho]; exact hp
  · exact ⟨[if c.startWorks then .dlRestart else .selfUp], by simp [hr, emit], by simpa using hp⟩

theorem emits_restart {c s w s1} (d : List Out) (hd : s1.log = s.log ++ d) (hp : ∀ o ∈ d, o.plain = true) :
    ∃ e, (restart c s1).log = s.log ++ e ∧ Emits c s w e := by
  obtain ⟨d', h1, h2⟩ := restart_log c s1
  refine ⟨d ++ d', by rw [h1, hd, List.append_assoc], .plain _ ?_⟩
  intro o ho
  rcases List.mem_append.1 ho with ho | ho
  · exact hp o ho
  · exact h2 o ho

theorem emits_restart' {c s w s1} (hd : s1.log = s.log) :
    ∃ e, (restart c s1).log = s.log ++ e ∧ Emits c s w e :=
  emits_restart [] (by simpa using hd) (by simp)

theorem emits_one {c : Cfg} {s s' : St} {w : Work} (o : Out) (h : s'.log = s.log ++ [o]) (hp : o.plain = true) :
    ∃ e, s'.log = s.log ++ e ∧ Emits c s w e := ⟨[o], h, .plain _ (by simpa using hp)⟩

theorem emits_none {c : Cfg} {s s' : St} {w : Work} (h : s'.log = s.log) : ∃ e, s'.log = s.log ++ e ∧ Emits c s w e :=
  ⟨[], by simpa using h, .plain _ (by simp)⟩

theorem pad8_spec (v : Bytes) : (pad8 v).length = min 8 (v.length + 7) ∧
    ∀ k : Nat, k < (pad8 v).length → (pad8 v)[k]? = if k < v.length then v[k]? else some 0 := by
  have hl : (pad8 v).length = min 8 (v.length + 7) := by simp [pad8]
  refine ⟨hl, fun k hk => ?_⟩
  rw [hl] at hk
  unfold pad8
  rw [List.getElem?_take_of_lt (by omega)]
  by_cases h : k < v.length
  · rw [List.getElem?_append_left h, if_pos h]
  · rw [List.getElem?_append_right (by omega), if_neg h, List.getElem?_replicate, if_pos (by omega)]

theorem up_log {s : St} {a : Nat} (h : s.adj = some a) : (up s).log = s.log ++ [.adjUp a s.ntype s.blksize] := by
  simp [up, h, emit]

theorem rucommon_emits {c : Cfg} {s : St} {w : Work} : ∃ d, (rucommon c s w).log = s.log ++ d ∧ Emits c s w d := by
  cases w with
  | timeout => exact emits_one .sendHello rfl rfl
  | dlDown => exact emits_restart' rfl
  | circuitDown => exact emits_restart' rfl
  | stop =>
    cases ha : s.adj with
    | none => exact emits_one .dlClose (by simp [rucommon, ha, halt, emit]) rfl
    | some a =>
      refine ⟨[.adjDown a, .dlClose], by simp [rucommon, ha, halt, adjDown, emit], .plain _ ?_⟩
      intro o ho
      rcases List.mem_cons.1 ho with rfl | ho
      · rfl
      · rw [List.mem_singleton.1 ho]; rfl
  | _ => exact emits_none rfl

theorem rvcommon_emits {c : Cfg} {s : St} {w : Work} : ∃ d, (rvcommon c s w).log = s.log ++ d ∧ Emits c s w d := by
  cases w with
  | timeout => exact emits_restart' rfl
  | dlDown => exact emits_restart' rfl
  | circuitDown => exact emits_restart' rfl
  | stop => exact emits_one .dlClose (by simp [rvcommon, halt, emit]) rfl
  | _ => exact emits_none rfl

theorem action_emits {c : Cfg} {h : List Item} {s s' : St} {w : Work} (hi : Inv c h s)
    (hs : action c s w = some s') : ∃ d, s'.log = s.log ++ d ∧ Emits c s w d := by
  have hruu : s.state.isRu = true → s.state ≠ .ru2 → ru c s w = some s' →
      ∃ d, s'.log = s.log ++ d ∧ Emits c s w d := by
    intro hru h2 hs
    cases w with
    | pkt p =>
      obtain ⟨ha, ⟨n, hn⟩, -⟩ := hi.run hru
      simp only [ru, hn, ha] at hs
      rw [← ha] at hs
      generalize hl : (if s.ntype = .phase2 then s.listen else s.adj) = li at hs
      by_cases hc : p.isCtl = true ∧ srcOk { s with nrec := some (n + 1), listen := li } p = false
      · rw [if_pos hc] at hs
        cases hs
        exact emits_restart' rfl
      · rw [if_neg hc] at hs
        split at hs
        · split at hs
          · cases hs; exact emits_none rfl
          · cases hs; exact emits_restart' rfl
        · cases hs
          refine ⟨[.toRouting p], rfl, .passed p _ hru rfl (Or.inr ⟨h2, rfl, ?_⟩)⟩
          intro hctl
          have : srcOk { s with nrec := some (n + 1), listen := li } p = true := by
            cases hk : srcOk { s with nrec := some (n + 1), listen := li } p
            · exact absurd ⟨hctl, hk⟩ hc
            · rfl
          unfold srcOk checksrc at this
          split at this
          · rename_i src hsrc
            rw [hsrc, of_decide_eq_true this]
          · cases this
    | _ => cases hs; exact rucommon_emits
  unfold action at hs
  cases hst : s.state with
  | ha =>
    rw [hst] at hs
    cases w with
    | start => cases hs; exact emits_one .dlOpen rfl rfl
    | timeout => cases hs; exact emits_one .dlOpen rfl rfl
    | _ => cases hs; exact emits_none rfl
  | ds =>
    rw [hst] at hs
    cases w with
    | dlUp => cases hs; exact emits_one (.sendInit c.phase c.verify) rfl rfl
    | dlDown => cases hs; exact emits_restart' rfl
    | circuitDown => cases hs; exact emits_restart' rfl
    | stop => cases hs; exact emits_one .dlClose rfl rfl
    | _ => cases hs; exact emits_none rfl
  | ri =>
    rw [hst] at hs
    cases w with
    | timeout => cases hs; exact emits_restart' rfl
    | dlDown => cases hs; exact emits_restart' rfl
    | circuitDown => cases hs; exact emits_restart' rfl
    | stop => cases hs; exact emits_one .dlClose rfl rfl
    | pkt p =>
      cases riPkt_out hs with
      | ignored => exact emits_none rfl
      | refused s1 e1 e2 e3 e4 =>
        rcases e4 with e4 | e4
        · exact emits_restart' e4
        · exact emits_restart _ e4 (by intro o ho; rw [List.mem_singleton.1 ho]; rfl)
      | wait ph id nt blk li hok hv =>
        refine ⟨_, ?_, .accept p ph id nt blk hst rfl hok⟩
        simp [hv, accepted]
      | up ph id nt blk li hok hv =>
        refine ⟨_, ?_, .accept p ph id nt blk hst rfl hok⟩
        simp only [hv]
        rw [up_log rfl]
        simp [accepted]
    | _ => cases hs; exact emits_none rfl
  | rv =>
    rw [hst] at hs
    cases w with
    | pkt p =>
      simp only [rv] at hs
      split at hs
      · cases hs
      · rename_i src hsrc
        split at hs
        · cases hs; exact emits_restart' rfl
        · rename_i hchk
          split at hs
          · rename_i src' f
            have hsrc' : src = src' := (Option.some.inj hsrc).symm
            split at hs
            · cases hs; exact emits_restart' rfl
            · rename_i hf
              cases hs
              obtain ⟨a, b, d, pre, j, p, mid, e, -, g, k⟩ := hi.wait (Or.inl hst)
              refine ⟨_, up_log b, .verified _ (Or.inl hst) rfl ?_⟩
              subst hsrc'
              have hf' : c.iverif s.id = some f := by
                rw [← d]
                by_cases hh : some f = s.verif
                · exact hh.symm
                · exact absurd hh hf
              have hsr : src = if s.rphase = 4 then s.id else s.id % 1024 := by
                simpa [checksrc] using hchk
              rcases hi.rv hst with h3 | h3
              · rw [if_neg (by omega)] at hsr
                subst hsr
                exact .phase3 h3 hf'
              · rw [if_pos h3] at hsr
                subst hsr
                exact .phase4 h3 hf'
          · cases hs
    | _ => cases hs; exact rvcommon_emits
  | rv2 =>
    rw [hst] at hs
    cases w with
    | pkt p =>
      simp only [rv2] at hs
      split at hs
      · rename_i v pw hv
        split at hs
        · cases hs; exact emits_restart' rfl
        · rename_i hf
          cases hs
          obtain ⟨a, b, d, -⟩ := hi.wait (Or.inr hst)
          refine ⟨_, up_log b, .verified _ (Or.inr hst) rfl ?_⟩
          have hpw : pw = pad8 v := by
            by_cases hh : pw = pad8 v
            · exact hh
            · exact absurd hh hf
          subst hpw
          exact .phase2 (hi.rv2 hst).1 (by rw [← d, hv]) (pad8_spec v).1 (pad8_spec v).2
      · cases hs
    | _ => cases hs; exact rvcommon_emits
  | ru2 =>
    rw [hst] at hs
    have hru : s.state.isRu = true := by rw [hst]; rfl
    cases w with
    | pkt p =>
      obtain ⟨ha, ⟨n, hn⟩, -⟩ := hi.run hru
      simp only [ru2, hn] at hs
      split at hs
      · cases hs; exact emits_none rfl
      · cases hs; exact ⟨_, rfl, .passed p _ hru rfl (Or.inl ⟨hst, rfl⟩)⟩
    | _ => cases hs; exact rucommon_emits
  | _ => rw [hst] at hs; exact hruu (by rw [hst]; rfl) (by rw [hst]; simp) hs

/-- What one item emits.  Packets mentioned come with the item. -/
theorem step_emits {c : Cfg} {h : List Item} {s s' : St} {i : Item} (hi : Inv c h s) (hv : Valid s i)
    (hs : step c s i = some s') : ∃ d w, s'.log = s.log ++ d ∧ Emits c s w d ∧
      ∀ p, w = .pkt p → (∃ pd, i = .recv pd (.pkt p) ∧ s.state.accepts p = true) ∨ (i = .again p ∧ p.isInit = true) := by
  have hemp : s'.log = s.log → ∃ d w, s'.log = s.log ++ d ∧ Emits c s w d ∧
      ∀ p, w = .pkt p → (∃ pd, i = .recv pd (.pkt p) ∧ s.state.accepts p = true) ∨ (i = .again p ∧ p.isInit = true) :=
    fun h => ⟨[], .start, by simpa using h, .plain _ (by simp), by simp⟩
  have hact : ∀ w, (∀ p, w ≠ .pkt p) → action c s w = some s' → ∃ d w, s'.log = s.log ++ d ∧ Emits c s w d ∧
      ∀ p, w = .pkt p → (∃ pd, i = .recv pd (.pkt p) ∧ s.state.accepts p = true) ∨ (i = .again p ∧ p.isInit = true) := by
    intro w hw h
    obtain ⟨d, h1, h2⟩ := action_emits hi h
    exact ⟨d, w, h1, h2, fun p hp => absurd hp (hw p)⟩
  cases i with
  | start => exact hact .start (by simp) hs
  | stop => exact hact .stop (by simp) hs
  | dlUp => exact hact .dlUp (by simp) hs
  | dlDown => exact hact .dlDown (by simp) hs
  | timeout =>
    have key : ∃ d, s'.log = s.log ++ d ∧ ∀ o ∈ d, o.plain = true := by
      have hre : ∀ s1 : St, s1.log = s.log → s' = restart c s1 → ∃ d, s'.log = s.log ++ d ∧ ∀ o ∈ d, o.plain = true := by
        intro s1 h1 h2
        subst h2
        obtain ⟨d, h3, h4⟩ := restart_log c s1
        exact ⟨d, by rw [h3, h1], h4⟩
      dsimp only [step, action] at hs
      cases hst : s.state with
      | ha => simp only [hst] at hs; cases hs; exact ⟨[.dlOpen], rfl, by simp [Out.plain]⟩
      | ds => simp only [hst] at hs; cases hs; exact ⟨[], by simp [ds, rNeigh], by simp⟩
      | ri => simp only [hst] at hs; cases hs; exact hre { s with timer := false, state := .ri } rfl rfl
      | rv => simp only [hst] at hs; cases hs; exact hre { s with timer := false, state := .rv } rfl rfl
      | rv2 => simp only [hst] at hs; cases hs; exact hre { s with timer := false, state := .rv2 } rfl rfl
      | _ => simp only [hst] at hs; cases hs; exact ⟨[.sendHello], rfl, by simp [Out.plain]⟩
    obtain ⟨d, h1, h2⟩ := key
    exact ⟨d, .timeout, h1, .plain d h2, by simp⟩
  | listen =>
    cases hs
    cases hl : s.listen with
    | none => exact absurd hl hv
    | some a =>
      refine ⟨[.adjDown a, if c.startWorks then .dlRestart else .selfUp], .start, ?_, .plain _ ?_, by simp⟩
      · have e : adjTimeout c s = { emit (if c.startWorks then .dlRestart else .selfUp)
            { adjDown a s with adj := none } with state := .ds } := by
          simp [adjTimeout, hl, restart0]
        rw [e]
        simp [emit, adjDown]
      · intro o ho
        rcases List.mem_cons.1 ho with rfl | ho
        · rfl
        · rw [List.mem_singleton.1 ho]; exact plain_rs c
  | again p =>
    have hreq : ∀ q ∈ s.requeued.erase p, q.isInit = true := fun q hq => hi.req q (List.mem_of_mem_erase hq)
    have hi' : Inv c h { s with requeued := s.requeued.erase p } :=
      ⟨hi.told, hi.run, hi.nolisten, hi.wait, hi.rv, hi.rv2, hi.ph, hi.timer, hi.dsreq, hreq⟩
    obtain ⟨d, h1, h2⟩ := action_emits hi' hs
    refine ⟨d, .pkt p, h1, ?_, ?_⟩
    · cases h2 with
      | plain _ a => exact .plain _ a
      | accept p ph id nt blk a b e => exact .accept p ph id nt blk a b e
      | verified p a b e => exact .verified p a b e
      | passed p o a b e => exact .passed p o a b e
    · intro q hq
      cases hq
      exact Or.inr ⟨rfl, hi.req p hv⟩
  | recv pd b =>
    have hval := validate_val c s pd b
    dsimp only [step] at hs
    generalize validate c s pd b = r at hs hval
    cases hval with
    | null h1 => cases hs; exact hemp rfl
    | padded h1 h2 => cases hs; exact hemp rfl
    | pkt p h1 h2 =>
      obtain ⟨d, h3, h4⟩ := action_emits hi hs
      refine ⟨d, .pkt p, h3, h4, ?_⟩
      intro q hq
      cases hq
      exact Or.inl ⟨pd, by rw [h1], h2⟩
    | dup p h1 h2 h3 h4 h5 => cases hs; exact hemp rfl
    | again p h1 h2 h3 h4 =>
      cases hs
      obtain ⟨d, h5, h6⟩ := restart_log c s
      exact ⟨d, .start, h5, .plain d h6, by simp⟩
    | down h1 => exact hact .circuitDown (by simp) hs
    | exc => cases hs

end Verif.Ptp
