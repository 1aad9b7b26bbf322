import Verif.NspDelay.Lemmas
import Mathlib.Algebra.Order.Archimedean.Basic

/-!
# C107: retransmission timeouts
-/

namespace Verif.NspDelay

/-- After every history the estimate for a node is the weighted average of the measurements for that node, in order, and
of nothing else. -/
theorem estimate_exact (c : Cfg) {h : List Ev} (ht : Timed h) (n : Nat) :
    (run c h).delay n = estimate c.weight (samples c n h.reverse) := by
  have := (run_state c h.reverse (fun e he => ht e (by simpa using he))).2.2 n
  rw [List.reverse_reverse] at this
  exact this

/-- There is no estimate before the first measurement; from then on it is between one and five seconds. -/
theorem estimate_bounds (c : Cfg) {h : List Ev} (ht : Timed h) (n : Nat) :
    (samples c n h.reverse = [] ∧ (run c h).delay n = 0) ∨
    (samples c n h.reverse ≠ [] ∧ 1 ≤ (run c h).delay n ∧ (run c h).delay n ≤ 5) := by
  rw [estimate_exact c ht]
  by_cases hs : samples c n h.reverse = []
  · exact .inl ⟨hs, by rw [hs]; rfl⟩
  · exact .inr ⟨hs, estimate_range c.weight _ (samples_ge c n _) hs⟩

/-- With a factor in its documented range, every timeout is from one second to eighty, and the timer can be started. -/
theorem timeout_bounds (c : Cfg) (h1 : 1 ≤ c.factor) (h2 : c.factor < 16) {h : List Ev} (ht : Timed h) (n : Nat) :
    1 ≤ acktimeout c (run c h) n ∧ acktimeout c (run c h) n < 80 ∧ startable (acktimeout c (run c h) n) := by
  have key : 1 ≤ acktimeout c (run c h) n ∧ acktimeout c (run c h) n < 80 := by
    unfold acktimeout
    rcases estimate_bounds c ht n with ⟨-, h0⟩ | ⟨-, h3, h4⟩
    · rw [h0]; norm_num
    · have hne : (run c h).delay n ≠ 0 := by intro h; rw [h] at h3; norm_num at h3
      rw [if_pos hne]
      constructor <;> nlinarith
  refine ⟨key.1, key.2, ?_⟩
  have : ⌊acktimeout c (run c h) n * 10⌋ < 800 := by
    rw [Int.floor_lt]
    push_cast
    linarith [key.2]
  unfold startable ticks
  split <;> omega

/-- The factor is not checked: with 3601 or more, no packet can be sent any more to a node for which there is a
measurement. -/
theorem factor_unchecked (c : Cfg) (hf : 3601 ≤ c.factor) {h : List Ev} (ht : Timed h) (n : Nat)
    (hs : samples c n h.reverse ≠ []) : ¬ startable (acktimeout c (run c h) n) := by
  rcases estimate_bounds c ht n with ⟨h0, -⟩ | ⟨-, h3, -⟩
  · exact absurd h0 hs
  · have hne : (run c h).delay n ≠ 0 := by intro h; rw [h] at h3; norm_num at h3
    unfold acktimeout
    rw [if_pos hne]
    have : (36010 : Int) ≤ ⌊(run c h).delay n * c.factor * 10⌋ := by
      rw [Int.le_floor]
      push_cast
      nlinarith
    unfold startable ticks
    split <;> omega

/-- An average is between the estimate and the measurement, as far as it is not cut at five seconds. -/
theorem estimate_between (w : Nat) {x : Rat} {l : List Rat} (hx : x ≤ 5) (hl : ∀ y ∈ l, 1 ≤ y) (hne : l ≠ []) :
    min (estimate w l) x ≤ estimate w (x :: l) ∧ estimate w (x :: l) ≤ max (estimate w l) x := by
  have h5 := (estimate_range w l hl hne).2
  obtain ⟨h1, h2⟩ := avg_bounds w (min_le_left (estimate w l) x) (le_max_left _ _) (min_le_right (estimate w l) x)
    (le_max_right (estimate w l) x)
  rw [estimate_cons hne, min_eq_right (h2.trans (max_le h5 hx))]
  exact ⟨h1, h2⟩

/-- With a constant round trip time, each measurement reduces the error by the same factor. -/
theorem converges (w : Nat) {r : Rat} (h1 : 1 ≤ r) (h5 : r ≤ 5) {l : List Rat} (hl : ∀ y ∈ l, 1 ≤ y) (hne : l ≠ []) :
    ∀ k, estimate w (List.replicate k r ++ l) - r = ((w : Rat) / (w + 1)) ^ k * (estimate w l - r)
  | 0 => by simp
  | k + 1 => by
    have ih := converges w h1 h5 hl hne k
    have hne' : List.replicate k r ++ l ≠ [] := by simp [hne]
    have hge : ∀ y ∈ List.replicate k r ++ l, 1 ≤ y := by
      intro y hy
      rcases List.mem_append.1 hy with hy | hy
      · rw [List.eq_of_mem_replicate hy]; exact h1
      · exact hl y hy
    obtain ⟨e1, e2⟩ := estimate_range w _ hge hne'
    rw [List.replicate_succ, List.cons_append, estimate_cons hne',
      min_eq_right (avg_bounds w e1 e2 h1 h5).2, pow_succ, mul_assoc]
    have hw := den_pos w
    have : ((w : Rat) / (w + 1)) ^ k * ((w : Rat) / (w + 1) * (estimate w l - r)) =
        (w : Rat) / (w + 1) * (estimate w (List.replicate k r ++ l) - r) := by
      rw [ih]; ring
    rw [this]
    field_simp
    ring

/-- With a constant round trip time up to five seconds and a factor above one, there is a number of measurements after
which no timeout comes too early. -/
theorem no_early_timeout (c : Cfg) (hf : 1 < c.factor) {r : Rat} (h1 : 1 ≤ r) (h5 : r ≤ 5) {l : List Rat}
    (hl : ∀ y ∈ l, 1 ≤ y) (hne : l ≠ []) :
    ∃ k0, ∀ k, k0 ≤ k → ∀ (h : List Ev) (n : Nat), Timed h → samples c n h.reverse = List.replicate k r ++ l →
      r < acktimeout c (run c h) n := by
  have hw0 : (0 : Rat) ≤ c.weight := Nat.cast_nonneg _
  have hw := den_pos c.weight
  have hq0 : 0 ≤ (c.weight : Rat) / (c.weight + 1) := by positivity
  have hq1 : (c.weight : Rat) / (c.weight + 1) < 1 := by rw [div_lt_one hw]; linarith
  have hf0 : (0 : Rat) < c.factor := by linarith
  obtain ⟨k0, hk0⟩ := exists_pow_lt_of_lt_one (show (0 : Rat) < (r - r / c.factor) / 4 by
    have : r / c.factor < r := by rw [div_lt_iff₀ hf0]; nlinarith
    linarith) hq1
  refine ⟨k0, fun k hk h n ht hs => ?_⟩
  have hpow : ((c.weight : Rat) / (c.weight + 1)) ^ k ≤ ((c.weight : Rat) / (c.weight + 1)) ^ k0 :=
    pow_le_pow_of_le_one hq0 hq1.le hk
  have hpos : 0 ≤ ((c.weight : Rat) / (c.weight + 1)) ^ k := pow_nonneg hq0 k
  have hc := converges c.weight h1 h5 hl hne k
  obtain ⟨e1, e2⟩ := estimate_range c.weight l hl hne
  rcases estimate_bounds c ht n with ⟨h0, -⟩ | ⟨-, h3, -⟩
  · rw [hs] at h0
    exact absurd h0 (by simp [hne])
  · have hne' : (run c h).delay n ≠ 0 := by intro h; rw [h] at h3; norm_num at h3
    unfold acktimeout
    rw [if_pos hne']
    rw [estimate_exact c ht, hs]
    have : r / c.factor < estimate c.weight (List.replicate k r ++ l) := by nlinarith
    rwa [div_lt_iff₀ hf0] at this

/-- A path on which the round trip takes longer than two seconds and more than five times the factor never gets a timeout
that is long enough, whatever is measured: every packet is sent again. -/
theorem slow_path_always_early (c : Cfg) (hf : 0 ≤ c.factor) {r : Rat} (h2 : 2 < r) (hr : 5 * c.factor < r) {h : List Ev}
    (ht : Timed h) (n : Nat) : acktimeout c (run c h) n < r := by
  unfold acktimeout
  rcases estimate_bounds c ht n with ⟨-, h0⟩ | ⟨-, h3, h4⟩
  · rw [h0]; simpa using h2
  · have hne : (run c h).delay n ≠ 0 := by intro h; rw [h] at h3; norm_num at h3
    rw [if_pos hne]
    nlinarith

/-- A packet is measured from its first transmission: if it has been sent again, any number of times, the time lost by
that counts as part of the round trip; and the end of its connection counts as its acknowledgment. -/
theorem measured_from_first (c : Cfg) (p : Nat) {past : List Ev} (hp : firstTimed p past = none) (t0 t : Rat)
    (again : List Ev) :
    samples c (c.dest p) (.done p t :: (again ++ .send p t0 false :: past)) =
      max 1 (t - t0) :: samples c (c.dest p) (again ++ .send p t0 false :: past) := by
  have hf : firstTimed p (again ++ .send p t0 false :: past) = some t0 := by
    induction again with
    | nil => simp [firstTimed, hp]
    | cons e again ih =>
      cases e with
      | done q now => exact ih
      | send q now dly =>
        cases dly with
        | true => exact ih
        | false =>
          rw [List.cons_append]
          simp only [firstTimed]
          rw [ih]
  simp only [samples]
  rw [hf]
  simp

/-- An ordinary packet, one that was lost once (two seconds until it was sent again, acknowledged a second after that),
and one whose connection was closed after a minute without answer. -/
example : samples ⟨3, 2, fun _ => 7⟩ 7 [.done 3 120, .send 3 60 false, .done 2 14, .send 2 13 false, .send 2 11 false,
    .done 1 3, .send 1 1 false] = [60, 3, 2] := by
  norm_num [samples, firstTimed]

example : (run ⟨3, 2, fun _ => 7⟩ [.send 1 1 false, .done 1 3, .send 2 11 false, .send 2 13 false, .done 2 14,
    .send 3 60 false, .done 3 120]).delay 7 = 5 := by
  rw [estimate_exact _ (by intro e he; simp at he; rcases he with rfl | rfl | rfl | rfl | rfl | rfl | rfl <;> norm_num)]
  norm_num [samples, firstTimed, estimate]

/-- A packet of which the acknowledgment may be delayed is not measured. -/
example : samples ⟨3, 2, fun _ => 7⟩ 7 [.done 1 3, .send 1 1 true] = [] := by
  norm_num [samples, firstTimed]

end Verif.NspDelay
