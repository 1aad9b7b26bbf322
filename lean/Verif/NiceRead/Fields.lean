import Verif.NiceRead.Plural

/-!
# The fields of the records
-/

namespace Verif.NiceRead

variable {w : World} {db0 : Db} {α : Type}

def proj (φ : Rec → α) (d : α) (x : Option Rec) : α := (x.map φ).getD d

theorem set_keep (φ : Rec → α) (d : α) {k : Nat} {f : Rec → Rec} (h0 : φ (fresh db0 k) = d)
    (hf : ∀ r, φ (f r) = φ r) (x : Option Rec) : proj φ d ((setAct db0 k f).2 x) = proj φ d x := by
  cases x with
  | none => simp [proj, setAct, hf, h0]
  | some v => simp [proj, setAct, hf]

theorem nsp_keep (φ : Rec → α) (d : α) {q : Req} {k : Nat} (h0 : φ (fresh db0 k) = d)
    (hf : ∀ n r, φ (w.eclSet q n r) = φ r) (x : Option Rec) :
    proj φ d ((nspActs w db0 q).foldl (Act.on k) x) = proj φ d x := by
  apply fold_keep (k := k)
  intro a ha hk y
  unfold nspActs at ha
  split at ha
  · simp at ha
  · obtain ⟨n, _, rfl⟩ := List.mem_map.1 ha
    change n.addr = k at hk
    subst hk
    exact set_keep φ d h0 (hf n) y

/-- The actions of the circuits. -/
def circsActs (w : World) (db0 : Db) (q : Req) (p : Option Str) : List Act :=
  (chosen p w.circuits).flatMap fun c => circActs db0 q c.1 c.2

theorem circ_keep (φ : Rec → α) (d : α) {q : Req} {k : Nat} {p : Option Str} (h0 : φ (fresh db0 k) = d)
    (hp : ∀ n id ph ty r, φ (ptpSet n id ph ty q r) = φ r) (hl : ∀ n c a r, φ (lanSet n c a q r) = φ r)
    (x : Option Rec) : proj φ d ((circsActs w db0 q p).foldl (Act.on k) x) = proj φ d x := by
  apply fold_keep (k := k)
  intro a ha hk y
  obtain ⟨c, _, hc⟩ := List.mem_flatMap.1 ha
  unfold circActs at hc
  split at hc
  · split at hc
    · rw [List.mem_singleton] at hc
      subst hc
      simp only [setAct] at hk
      subst hk
      exact set_keep φ d h0 (hp _ _ _ _) y
    · simp at hc
  · obtain ⟨n, _, rfl⟩ := List.mem_map.1 hc
    simp only [setAct] at hk
    subst hk
    exact set_keep φ d h0 (hl _ _ _) y

theorem reachActs_at {q : Req} {p : Option Str} {i : Nat} : ∀ a ∈ reachActs w db0 q p i, a.1 = w.at i := by
  intro a ha
  unfold reachActs at ha
  split at ha
  · simp at ha
  · split at ha
    · simp at ha
    · rw [List.mem_singleton.1 ha]; rfl
  · rw [List.mem_singleton.1 ha]

theorem table_at (hr : w.Router) {q : Req} {p : Option Str} {k : Nat} (h1 : k / 1024 = w.exec / 1024)
    (h2 : 1 ≤ k % 1024) (h3 : k % 1024 ≤ w.maxnodes) (x : Option Rec) :
    (tableActs w db0 q p).foldl (Act.on k) x = (reachActs w db0 q p (k % 1024)).foldl (Act.on k) x := by
  unfold tableActs
  rw [if_pos hr]
  apply fold_at
  · exact List.nodup_range'
  · exact List.mem_range'_1.2 ⟨h2, by omega⟩
  · intro j hj hne a ha
    rw [reachActs_at a ha]
    unfold World.at
    omega

theorem table_off {q : Req} {p : Option Str} {k : Nat} (hs : w.maxnodes ≤ 1023)
    (h : ¬(w.Router ∧ k / 1024 = w.exec / 1024 ∧ 1 ≤ k % 1024 ∧ k % 1024 ≤ w.maxnodes)) (x : Option Rec) :
    (tableActs w db0 q p).foldl (Act.on k) x = x := by
  apply fold_none
  intro a ha hk
  unfold tableActs at ha
  split at ha
  · rename_i hr
    obtain ⟨i, hi, hia⟩ := List.mem_flatMap.1 ha
    rw [reachActs_at a hia] at hk
    have := List.mem_range'_1.1 hi
    unfold World.at at hk
    apply h
    refine ⟨hr, ?_, ?_, ?_⟩ <;> omega
  · simp at ha

/-- The record of `k` at the end. -/
noncomputable def final (w : World) (db0 : Db) (q : Req) (k : Nat) : Option Rec :=
  (acts w db0 q).foldl (Act.on k) none

theorem final_none {q : Req} (hp : q.pick = none) (k : Nat) :
    final w db0 q k = Act.on k ((nspActs w db0 q).foldl (Act.on k) none) (endAct w q) := by
  unfold final acts routActs
  rw [hp]
  simp

theorem final_some {q : Req} {p : Option Str} (hp : q.pick = some p) (k : Nat) :
    final w db0 q k = Act.on k
      ((if q.adj || q.loop then [] else tableActs w db0 q p).foldl (Act.on k)
        ((if q.loop then [] else circsActs w db0 q p).foldl (Act.on k)
          ((nspActs w db0 q).foldl (Act.on k) none))) (endAct w q) := by
  unfold final acts routActs
  rw [hp]
  simp [List.foldl_append, circsActs]

/-- The executor has its flag and state. -/
theorem final_exec {q : Req} (hs : q.sumstat = true) {r : Rec} (h : final w db0 q w.exec = some r) :
    r.executor = true ∧ r.state = some 0 := by
  have : ∃ x, final w db0 q w.exec = Act.on w.exec x (endAct w q) := by
    unfold final acts
    rw [List.foldl_append]
    exact ⟨_, rfl⟩
  obtain ⟨x, hx⟩ := this
  rw [hx] at h
  simp only [Act.on, endAct, ↓reduceIte, Option.map_eq_some_iff] at h
  obtain ⟨y, _, rfl⟩ := h
  simp [execSet, hs]

/-- Fields that only depend on the actions before the table. -/
theorem final_keep (φ : Rec → α) (d : α) {q : Req} {k : Nat} (hk : k ≠ w.exec) (h0 : φ (fresh db0 k) = d)
    (hn : ∀ n r, φ (w.eclSet q n r) = φ r)
    (hp : ∀ n id ph ty r, φ (ptpSet n id ph ty q r) = φ r) (hl : ∀ n c a r, φ (lanSet n c a q r) = φ r)
    (ht : ∀ p, q.pick = some p → ∀ x, proj φ d x = d → q.code ≠ -3 → q.code ≠ -4 →
      proj φ d ((tableActs w db0 q p).foldl (Act.on k) x) = d) :
    proj φ d (final w db0 q k) = d := by
  have hloop : q.loop = true ↔ q.code = -3 := by simp [Req.loop]
  have hadj : q.adj = true ↔ q.code = -4 := by simp [Req.adj]
  have hend : ∀ x, Act.on k x (endAct w q) = x := by
    intro x
    simp [Act.on, endAct, Ne.symm hk]
  have h1 : proj φ d ((nspActs w db0 q).foldl (Act.on k) none) = d := by
    rw [nsp_keep φ d h0 hn]; rfl
  cases hpk : q.pick with
  | none => rw [final_none hpk, hend]; exact h1
  | some p =>
    rw [final_some hpk, hend]
    have h2 : proj φ d ((if q.loop then [] else circsActs w db0 q p).foldl (Act.on k)
        ((nspActs w db0 q).foldl (Act.on k) none)) = d := by
      split
      · exact h1
      · rw [circ_keep φ d h0 hp hl]; exact h1
    revert h2
    generalize (if q.loop then [] else circsActs w db0 q p).foldl (Act.on k)
        ((nspActs w db0 q).foldl (Act.on k) none) = y
    intro h2
    split
    · exact h2
    · rename_i hne
      simp only [Bool.or_eq_true, not_or] at hne
      exact ht p hpk _ h2 (fun e => hne.2 (hloop.2 e)) (fun e => hne.1 (hadj.2 e))

theorem reach_keep (φ : Rec → α) (d : α) {q : Req} {k : Nat} {p : Option Str} (h0 : φ (fresh db0 k) = d)
    (hr : ∀ i a r, φ (w.reachSet q i a r) = φ r) (h5 : ∀ r : Rec, φ { r with state := some 5 } = φ r)
    (x : Option Rec) : proj φ d ((tableActs w db0 q p).foldl (Act.on k) x) = proj φ d x := by
  apply fold_keep (k := k)
  intro a ha hk y
  unfold tableActs at ha
  split at ha
  · obtain ⟨i, _, hi⟩ := List.mem_flatMap.1 ha
    have hat := reachActs_at a hi
    unfold reachActs at hi
    split at hi
    · simp at hi
    · split at hi
      · simp at hi
      · rw [List.mem_singleton] at hi
        subst hi
        simp only [setAct] at hk
        subst hk
        exact set_keep φ d h0 (hr _ _) y
    · rw [List.mem_singleton] at hi
      subst hi
      simp only at hk
      subst hk
      simp only
      cases y with
      | none =>
        by_cases hc : q.code = -1
        · simp [hc, proj, h5, h0]
        · simp [hc]
      | some v => simp [proj, h5]
  · simp at ha

theorem fold_inv {k : Nat} (P : Option Rec → Prop) : ∀ (as : List Act) (r : Option Rec),
    (∀ a ∈ as, a.1 = k → ∀ x, P x → P (a.2 x)) → P r → P (as.foldl (Act.on k) r)
  | [], _, _, hr => hr
  | a :: as, r, h, hr => by
    rw [List.foldl_cons]
    apply fold_inv P as _ (fun b hb => h b (by simp [hb]))
    unfold Act.on
    by_cases hk : a.1 = k
    · rw [if_pos hk]; exact h a (by simp) hk r hr
    · rw [if_neg hk]; exact hr

/-- Every action is one of these. -/
theorem acts_cases {q : Req} {a : Act} (ha : a ∈ acts w db0 q) :
    (∃ n ∈ db0.byid, Shown w q.code q.info n ∧ a = setAct db0 n.addr (w.eclSet q n)) ∨
    (∃ name id ph ty, (name, Circ.ptp true id ph ty) ∈ w.circuits ∧ Admits q.qual name ∧
      a = setAct db0 id (ptpSet name id ph ty q)) ∨
    (∃ name adjs cost x, (name, Circ.lan adjs cost) ∈ w.circuits ∧ Admits q.qual name ∧ x ∈ adjs ∧ x.up = true ∧
      a = setAct db0 x.node (lanSet name cost x q)) ∨
    (∃ i b, 1 ≤ i ∧ i ≤ w.maxnodes ∧ w.oadj i = some (.via b) ∧ a = setAct db0 (w.at i) (w.reachSet q i b)) ∨
    (∃ i, 1 ≤ i ∧ i ≤ w.maxnodes ∧ w.oadj i = none ∧ a = (w.at i, fun r =>
      if q.code == -1 || r.isSome then some { r.getD (fresh db0 (w.at i)) with state := some 5 } else none)) ∨
    a = endAct w q := by
  unfold acts at ha
  simp only [List.mem_append, List.mem_singleton] at ha
  rcases ha with (ha | ha) | ha
  · left
    unfold nspActs at ha
    split at ha
    · simp at ha
    · rename_i hadj
      obtain ⟨n, hn, rfl⟩ := List.mem_map.1 ha
      rw [List.mem_filter] at hn
      exact ⟨n, hn.1, (eclWants_iff (by simpa using hadj)).1 hn.2, rfl⟩
  · right
    unfold routActs at ha
    split at ha
    · simp at ha
    · rename_i p hp
      rcases List.mem_append.1 ha with ha | ha
      · split at ha
        · simp at ha
        · obtain ⟨⟨name, c⟩, hc, hca⟩ := List.mem_flatMap.1 ha
          simp only [chosen, List.mem_filter, Bool.or_eq_true, Option.isNone_iff_eq_none, beq_iff_eq] at hc
          have hadm := (pick_some hp name).2 hc.2
          cases c with
          | ptp running id ph ty =>
            left
            simp only [circActs] at hca
            split at hca
            · rename_i hrun
              subst hrun
              exact ⟨name, id, ph, ty, hc.1, hadm, List.mem_singleton.1 hca⟩
            · simp at hca
          | lan adjs cost =>
            right; left
            obtain ⟨x, hx, rfl⟩ := List.mem_map.1 hca
            rw [List.mem_filter, List.mem_mergeSort] at hx
            exact ⟨name, adjs, cost, x, hc.1, hadm, hx.1, hx.2, rfl⟩
      · right; right
        split at ha
        · simp at ha
        · unfold tableActs at ha
          split at ha
          · obtain ⟨i, hi, hia⟩ := List.mem_flatMap.1 ha
            have hi' := List.mem_range'_1.1 hi
            unfold reachActs at hia
            split at hia
            · simp at hia
            · rename_i b hb
              left
              split at hia
              · simp at hia
              · exact ⟨i, b, hi'.1, by omega, hb, List.mem_singleton.1 hia⟩
            · rename_i hb
              right; left
              exact ⟨i, hi'.1, by omega, hb, List.mem_singleton.1 hia⟩
          · simp at ha
  · exact .inr (.inr (.inr (.inr (.inr ha))))

/-- An invariant of the record of `k`. -/
theorem final_inv {q : Req} {k : Nat} (P : Rec → Prop) (h0 : P (fresh db0 k))
    (hn : ∀ n ∈ db0.byid, n.addr = k → Shown w q.code q.info n → ∀ r, P r → P (w.eclSet q n r))
    (hp : ∀ n id ph ty r, P r → P (ptpSet n id ph ty q r)) (hl : ∀ n c a r, P r → P (lanSet n c a q r))
    (hr : ∀ i a r, P r → P (w.reachSet q i a r)) (h5 : ∀ r : Rec, P r → P { r with state := some 5 })
    (he : k = w.exec → ∀ r, P r → P (execSet w q r)) {r : Rec} (h : final w db0 q k = some r) : P r := by
  have key : ∀ v, final w db0 q k = some v → P v := by
    refine fold_inv (k := k) (fun x => ∀ v, x = some v → P v) _ _ ?_ (by simp)
    intro a ha hk x hx v hv
    have hset : ∀ f : Rec → Rec, (∀ r, P r → P (f r)) → (setAct db0 k f).2 x = some v → P v := by
      intro f hf e
      simp only [setAct, Option.some.injEq] at e
      subst e
      apply hf
      cases x with
      | none => exact h0
      | some u => exact hx u rfl
    rcases acts_cases ha with ⟨n, hn1, hn2, rfl⟩ | ⟨name, id, ph, ty, _, _, rfl⟩ | ⟨name, adjs, cost, y, _, _, _, _, rfl⟩ |
      ⟨i, b, _, _, _, rfl⟩ | ⟨i, _, _, _, rfl⟩ | rfl
    · change n.addr = k at hk
      subst hk
      exact hset _ (hn n hn1 rfl hn2) hv
    · change id = k at hk
      subst hk
      exact hset _ (hp _ _ _ _) hv
    · change y.node = k at hk
      subst hk
      exact hset _ (hl _ _ _) hv
    · change w.at i = k at hk
      subst hk
      exact hset _ (hr _ _) hv
    · change w.at i = k at hk
      subst hk
      simp only at hv
      split at hv
      · simp only [Option.some.injEq] at hv
        subst hv
        apply h5
        cases x with
        | none => exact h0
        | some u => exact hx u rfl
      · simp at hv
    · change w.exec = k at hk
      simp only [endAct, Option.map_eq_some_iff] at hv
      obtain ⟨u, hu, rfl⟩ := hv
      exact he hk.symm u (hx u hu)
  exact key r h

/-- An invariant of the record of `k`. -/
theorem final_inv_at {q : Req} {k : Nat} (P : Rec → Prop) (h0 : P (fresh db0 k))
    (hn : ∀ n ∈ db0.byid, n.addr = k → Shown w q.code q.info n → ∀ r, P r → P (w.eclSet q n r))
    (hp : ∀ name id ph ty, (name, Circ.ptp true id ph ty) ∈ w.circuits → Admits q.qual name → id = k →
      ∀ r, P r → P (ptpSet name id ph ty q r))
    (hl : ∀ name adjs cost x, (name, Circ.lan adjs cost) ∈ w.circuits → Admits q.qual name → x ∈ adjs → x.up = true →
      x.node = k → ∀ r, P r → P (lanSet name cost x q r))
    (hr : ∀ i a r, P r → P (w.reachSet q i a r)) (h5 : ∀ r : Rec, P r → P { r with state := some 5 })
    (he : k = w.exec → ∀ r, P r → P (execSet w q r)) {r : Rec} (h : final w db0 q k = some r) : P r := by
  have key : ∀ v, final w db0 q k = some v → P v := by
    refine fold_inv (k := k) (fun x => ∀ v, x = some v → P v) _ _ ?_ (by simp)
    intro a ha hk x hx v hv
    have hset : ∀ f : Rec → Rec, (∀ r, P r → P (f r)) → (setAct db0 k f).2 x = some v → P v := by
      intro f hf e
      simp only [setAct, Option.some.injEq] at e
      subst e
      apply hf
      cases x with
      | none => exact h0
      | some u => exact hx u rfl
    rcases acts_cases ha with ⟨n, hn1, hn2, rfl⟩ | ⟨name, id, ph, ty, c1, c2, rfl⟩ |
        ⟨name, adjs, cost, y, c1, c2, c3, c4, rfl⟩ |
      ⟨i, b, _, _, _, rfl⟩ | ⟨i, _, _, _, rfl⟩ | rfl
    · change n.addr = k at hk
      subst hk
      exact hset _ (hn n hn1 rfl hn2) hv
    · change id = k at hk
      subst hk
      exact hset _ (hp _ _ _ _ c1 c2 rfl) hv
    · change y.node = k at hk
      subst hk
      exact hset _ (hl _ _ _ _ c1 c2 c3 c4 rfl) hv
    · change w.at i = k at hk
      subst hk
      exact hset _ (hr _ _) hv
    · change w.at i = k at hk
      subst hk
      simp only at hv
      split at hv
      · simp only [Option.some.injEq] at hv
        subst hv
        apply h5
        cases x with
        | none => exact h0
        | some u => exact hx u rfl
      · simp at hv
    · change w.exec = k at hk
      simp only [endAct, Option.map_eq_some_iff] at hv
      obtain ⟨u, hu, rfl⟩ := hv
      exact he hk.symm u (hx u hu)
  exact key r h

end Verif.NiceRead
