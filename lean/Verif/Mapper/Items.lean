import Verif.Mapper.Spec

/-!
# C114: what an item of the map says

Histories of reports on one item.
-/

namespace Verif.Mapper

/-- A history of updates (mapper.py:539-561). -/
def Item.hist (i : Item) (us : List (Bool × Nat)) : Item :=
  us.foldl (fun i u => (i.update u.1 u.2).1) i

theorem hist_spec (us : List (Bool × Nat)) : ∀ (i : Item) (t : Nat),
    Rising t us → i.up ≤ t → i.down ≤ t → i.up ≠ i.down ∨ (i.up = 0 ∧ i.down = 0) →
    let was := decide (i.up > i.down)
    let j := i.hist us
    (j.up > j.down ↔ (if us = [] then was = true else lastUp us = true)) ∧
    j.up = upSince was i.up us ∧ j.down = downSince was i.down us := by
  induction us with
  | nil => intro i t _ _ _ _; simp [Item.hist, upSince, downSince]
  | cons u r ih =>
    intro i t hr hu hd hne
    obtain ⟨b, ts⟩ := u
    obtain ⟨ht, hr⟩ := hr
    simp only [Item.hist, List.foldl_cons]
    cases b
    · -- down
      by_cases hup : i.up > i.down
      · have e : i.update false ts = ({ i with down := ts }, false) := by
          simp [Item.update, hup]
        have := ih { i with down := ts } ts hr (by simp only; omega) (by simp only; omega)
          (Or.inl (by simp only; omega))
        rw [e]
        simp only [Item.hist] at this
        have hw : decide (i.up > ts) = false := by simp; omega
        simp only [hw] at this
        simp only [upSince, downSince, hup, decide_true, if_true]
        refine ⟨?_, this.2⟩
        rw [this.1]
        cases r <;> simp [lastUp]
      · have e : i.update false ts = (i, false) := by simp [Item.update, hup]
        have := ih i ts hr (by omega) (by omega) hne
        rw [e]
        simp only [Item.hist] at this
        have hw : decide (i.up > i.down) = false := by simpa using hup
        simp only [hw] at this ⊢
        simp only [upSince, downSince]
        refine ⟨?_, this.2⟩
        rw [this.1]
        cases r <;> simp [lastUp]
    · -- up
      by_cases hup : i.up ≤ i.down
      · have e : i.update true ts = ({ i with seen := ts, up := ts }, true) := by
          simp [Item.update, hup]
        have := ih { i with seen := ts, up := ts } ts hr (by simp) (by simp only; omega)
          (Or.inl (by simp only; omega))
        rw [e]
        simp only [Item.hist] at this
        have hw : decide (ts > i.down) = true := by simp; omega
        simp only [hw] at this
        have hw2 : decide (i.up > i.down) = false := by simp; omega
        simp only [hw2, upSince, downSince, if_true]
        refine ⟨?_, this.2⟩
        rw [this.1]
        cases r <;> simp [lastUp]
      · have e : i.update true ts = ({ i with seen := ts }, false) := by
          simp [Item.update, hup]
        have := ih { i with seen := ts } ts hr (by simp only; omega) (by simp only; omega) hne
        rw [e]
        simp only [Item.hist] at this
        have hw : decide (i.up > i.down) = true := by simp; omega
        simp only [hw] at this ⊢
        simp only [upSince, downSince, if_true]
        refine ⟨?_, this.2⟩
        rw [this.1]
        cases r <;> simp [lastUp]

/-- C114.  After any history of reports at rising times an item is shown as up
exactly if the last report said so; the time it came up is that of the first
report of the latest run of reports that it is up, and the time it went down
that of the first report that said so after it had been up. -/
theorem item_shows (us : List (Bool × Nat)) (hr : Rising 0 us) (scan : Nat) :
    ((({} : Item).hist us).health scan = .up ↔ lastUp us = true) ∧
    (({} : Item).hist us).up = upSince false 0 us ∧
    (({} : Item).hist us).down = downSince false 0 us := by
  have h := hist_spec us {} 0 hr (by simp) (by simp) (Or.inr (by simp))
  simp only [show decide (({} : Item).up > ({} : Item).down) = false from rfl] at h
  refine ⟨?_, h.2⟩
  have h1 : (({} : Item).hist us).health scan = .up ↔
      (({} : Item).hist us).up > (({} : Item).hist us).down := by
    unfold Item.health
    by_cases hh : (({} : Item).hist us).up > (({} : Item).hist us).down
    · simp [hh]
    · rw [if_neg hh]
      refine iff_of_false ?_ hh
      simp only
      split
      · simp
      · split <;> simp
  rw [h1, h.1]
  cases us <;> simp [lastUp]

example : Rising 0 [(true, 5), (true, 7), (false, 9), (false, 11), (true, 20)] ∧
    ({} : Item).hist [(true, 5), (true, 7), (false, 9), (false, 11), (true, 20)] =
      { seen := 20, down := 9, up := 20 } := by
  refine ⟨by simp [Rising], by decide⟩

/-- C114.  How old an item that is down is shown: gone after 60 days, fading
after 14 (counted at the latest full scan). -/
theorem down_shown (i : Item) (scan : Nat) (h : ¬ i.up > i.down) :
    (i.health scan = .gone ↔ i.down + 60 * 86400 < scan) ∧
    (i.health scan = .fade ↔ i.down + 14 * 86400 < scan ∧ scan ≤ i.down + 60 * 86400) ∧
    (i.health scan = .down ↔ scan ≤ i.down + 14 * 86400) := by
  unfold Item.health
  simp only [if_neg h]
  by_cases h1 : (scan : Int) - (i.down : Int) > 60 * 86400
  · simp only [if_pos h1]
    refine ⟨⟨fun _ => by omega, fun _ => trivial⟩, ⟨fun h => by simp at h, fun h => by omega⟩,
      ⟨fun h => by simp at h, fun h => by omega⟩⟩
  · simp only [if_neg h1]
    by_cases h2 : (scan : Int) - (i.down : Int) > 14 * 86400
    · simp only [if_pos h2]
      refine ⟨⟨fun h => by simp at h, fun h => by omega⟩, ⟨fun _ => by omega, fun _ => trivial⟩,
        ⟨fun h => by simp at h, fun h => by omega⟩⟩
    · simp only [if_neg h2]
      refine ⟨⟨fun h => by simp at h, fun h => by omega⟩, ⟨fun h => by simp at h, fun h => by omega⟩,
        ⟨fun _ => by omega, fun _ => trivial⟩⟩

example : ({ seen := 10, down := 20, up := 10 } : Item).health (20 + 15 * 86400) = .fade := by
  decide

/-- C114 (the negation, for reports within one second).  An item that is
reported up in the same second in which it was reported down is shown as down,
for ever if nothing else is reported. -/
theorem same_second_down (t : Nat) (ht : 1 < t) :
    let i := ({} : Item).hist [(true, 1), (false, t), (true, t)]
    ∀ scan, i.health scan ≠ .up := by
  intro i scan
  have hi : i = { seen := t, down := t, up := t } := by
    simp only [i, Item.hist, List.foldl_cons, List.foldl_nil, Item.update]
    simp
    split <;> simp_all
  rw [hi]
  unfold Item.health
  simp only [gt_iff_lt, Nat.lt_irrefl, if_false]
  split
  · simp
  · split <;> simp

/-- C114 (the negation, for times that go back).  A poll stamps what it finds
with the time the scan began: a circuit that failed since then and is found up
again by the poll is shown as down. -/
theorem stale_stamp_down (start fail : Nat) (h2 : start < fail) :
    ∀ scan, (({} : Item).hist [(true, 1), (false, fail), (true, start)]).health scan ≠ .up := by
  intro scan
  have hi : ({} : Item).hist [(true, 1), (false, fail), (true, start)] =
      { seen := start, down := fail, up := start } := by
    simp only [Item.hist, List.foldl_cons, List.foldl_nil, Item.update]
    have : 1 > 0 := by omega
    simp
    split <;> simp_all <;> omega
  rw [hi]
  unfold Item.health
  have : ¬ start > fail := by omega
  simp only [if_neg this]
  split
  · simp
  · split <;> simp

end Verif.Mapper
