import Verif.MopId.Handler

/-!
# C121: console connections of applications
-/

namespace Verif.MopId

/-- Connections that wait for the first answer with the timer running, five attempts left and no number
for the answer. -/
def Waits (c : CConn) : Prop := c.state = .s0 ∧ c.retries = 5 ∧ c.timer = true ∧ c.rnum = none

theorem sendReq_new (dest : Bytes) :
    (sendReq { dest := dest, state := .s0, retries := 0, timer := false, rnum := none } 5).1 =
      { dest := dest, state := .s0, retries := 5, timer := true, rnum := none } := rfl

theorem s0Timeout_raises (c : CConn) (h : Waits c) : (s0Timeout c).2 = false := by
  unfold s0Timeout
  rw [h.2.1]
  rfl

theorem cstep_waits (s : CNode) (e : CEv) (h : s.stopped = false → ∀ c ∈ s.conns, Waits c) :
    (cstep s e).stopped = false → ∀ c ∈ (cstep s e).conns, Waits c := by
  intro hs c hc
  cases hst : s.stopped with
  | true =>
    exfalso
    cases e <;> simp only [cstep, hst, if_true] at hs <;> simp_all
  | false =>
    have h := h hst
    cases e with
    | connect dest =>
      simp only [cstep, hst, Bool.false_eq_true, if_false] at hc
      split at hc
      · exact h c hc
      · rcases List.mem_append.mp hc with hc | hc
        · exact h c hc
        · rw [sendReq_new] at hc
          simp only [List.mem_singleton] at hc
          subst hc
          exact ⟨rfl, rfl, rfl, rfl⟩
    | timeout dest =>
      simp only [cstep, hst, Bool.false_eq_true, if_false, upd, Bool.false_or] at hs hc
      rw [List.any_eq_false] at hs
      obtain ⟨x, hx, rfl⟩ := List.mem_map.mp hc
      have hw := h x hx
      by_cases hd : x.dest = dest
      · exfalso
        have := hs x hx
        simp only [hd, decide_true, Bool.true_and, hw.1, hw.2.2.1, and_self, if_true,
          s0Timeout_raises x hw] at this
        simp at this
      · rw [if_neg hd]; exact hw
    | response => exact h c hc
    | post => exact h c hc
    | answer r m =>
      simp only [cstep, hst, Bool.false_eq_true, if_false] at hc
      obtain ⟨x, hx, rfl⟩ := List.mem_map.mp hc
      have hw := h x hx
      rw [if_neg (by rw [hw.2.2.2]; simp)]
      exact hw

theorem crun_waits (es : List CEv) : (crun {} es).stopped = false → ∀ c ∈ (crun {} es).conns, Waits c := by
  have : ∀ (es : List CEv) (s : CNode), (s.stopped = false → ∀ c ∈ s.conns, Waits c) →
      ((crun s es).stopped = false → ∀ c ∈ (crun s es).conns, Waits c) := by
    intro es
    induction es with
    | nil => intro s h; exact h
    | cons e es ih => intro s h; exact ih _ (cstep_waits s e h)
  exact this es {} (by simp)

/-- In no history does a connection to a console get anywhere: as long as the node runs, every one still
waits for the answer to its first request, which was not sent. -/
theorem never_connects (es : List CEv) (h : (crun {} es).stopped = false) :
    ∀ c ∈ (crun {} es).conns, c.state = .s0 := fun c hc => (crun_waits es h c hc).1

theorem cstep_keeps (s : CNode) (e : CEv) (dest : Bytes) (h : dest ∈ s.conns.map (·.dest)) :
    dest ∈ (cstep s e).conns.map (·.dest) := by
  have hm : ∀ f : CConn → CConn, (∀ c, (f c).dest = c.dest) → (s.conns.map f).map (·.dest) = s.conns.map (·.dest) := by
    intro f hf
    rw [List.map_map]
    apply List.map_congr_left
    intro x _
    exact hf x
  have ht : ∀ c, (s0Timeout c).1.dest = c.dest := by
    intro c; unfold s0Timeout; split <;> rfl
  cases e with
  | connect d =>
    simp only [cstep]
    split
    · exact h
    · split
      · exact h
      · simp only [List.map_append, List.mem_append]; exact Or.inl h
  | timeout d =>
    simp only [cstep]
    split
    · exact h
    · simp only [upd]
      rw [hm]
      · exact h
      · intro c
        split
        · split
          · exact ht c
          · rfl
        · rfl
  | response => exact h
  | post => exact h
  | answer r m =>
    simp only [cstep]
    split
    · exact h
    · simp only
      rw [hm]
      · exact h
      · intro c
        split
        · split
          · split <;> rfl
          · rfl
        · rfl

theorem crun_append (s : CNode) (a b : List CEv) : crun s (a ++ b) = crun (crun s a) b := by
  induction a generalizing s with
  | nil => rfl
  | cons e a ih => exact ih _

theorem stopped_stays (s : CNode) (es : List CEv) (h : s.stopped = true) : (crun s es).stopped = true := by
  induction es generalizing s with
  | nil => exact h
  | cons e es ih =>
    apply ih
    cases e <;> simp [cstep, h]

theorem keeps (es : List CEv) (s : CNode) (dest : Bytes) (h : dest ∈ s.conns.map (·.dest)) :
    dest ∈ (crun s es).conns.map (·.dest) := by
  induction es generalizing s with
  | nil => exact h
  | cons e es ih => exact ih _ (cstep_keeps s e dest h)

/-- Finding: a request to connect to a console, of any application that may use the API, stops the node
as soon as the timer of the connection expires (a fifth of a second later), whatever happens before and
in between; the application cannot take it back. -/
theorem connect_stops (es es' : List CEv) (dest : Bytes) :
    (crun {} (es ++ [.connect dest] ++ es' ++ [.timeout dest])).stopped = true := by
  rw [crun_append, crun_append, crun_append]
  generalize hs : crun {} es = s
  have hd : s.stopped = true ∨ dest ∈ (crun s [.connect dest]).conns.map (·.dest) := by
    cases hst : s.stopped with
    | true => exact Or.inl rfl
    | false =>
      right
      simp only [crun, cstep, hst, Bool.false_eq_true, if_false]
      split
      · rename_i h; exact h
      · rw [sendReq_new]; simp
  cases hst : (crun (crun s [.connect dest]) es').stopped with
  | true => exact stopped_stays _ _ hst
  | false =>
    have hd' : dest ∈ (crun (crun s [.connect dest]) es').conns.map (·.dest) := by
      rcases hd with h | h
      · have := stopped_stays _ es' (stopped_stays s [.connect dest] h)
        rw [hst] at this; cases this
      · exact keeps es' _ dest h
    have hw : ∀ c ∈ (crun (crun s [.connect dest]) es').conns, Waits c := by
      have := crun_waits (es ++ [.connect dest] ++ es')
      rw [crun_append, crun_append, hs] at this
      exact this hst
    obtain ⟨x, hx, hxd⟩ := List.mem_map.mp hd'
    have w := hw x hx
    simp only [crun, cstep] at hst hx ⊢
    simp only [hst, Bool.false_eq_true, if_false, upd, Bool.false_or, List.any_eq_true]
    refine ⟨x, hx, ?_⟩
    simp only [hxd, decide_true, Bool.true_and, w.1, w.2.2.1, and_self, if_true, s0Timeout_raises x w]
    rfl

end Verif.MopId
