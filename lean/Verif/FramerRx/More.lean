import Verif.FramerRx.Props

/-!
# C144: control messages, frames without header, status
-/

namespace Verif.FramerRx

/-- A control message goes to the node, also if the framer says that it has bad data. -/
theorem control_passed (dec : Dec) (s : State) (f : Frame) (t : Nat) (ho : f.ours = true) (hs : f.stat = 0 ∨ f.stat = 2)
    (hp : f.payload ≠ []) (hd : f.payload.head? ≠ some 17) (hh : dec.hdr f.payload = some (.ctl t)) :
    receive dec s f = some (s, [.ctl t]) := by
  unfold receive
  rw [ho]
  cases hq : f.payload with
  | nil => exact absurd hq hp
  | cons c r =>
    rw [hq] at hd hh
    simp only [List.head?_cons, ne_eq, Option.some.injEq] at hd
    rcases hs with hs | hs <;> simp [hd, hs, hh]

/-- A good frame without a header that can be decoded is reported as a format error. -/
theorem no_header (dec : Dec) (s : State) (f : Frame) (hg : Good f) (hh : dec.hdr f.payload = none) :
    receive dec s f = some (s, [.err 17 none]) := by
  obtain ⟨h1, h2, h3, h4⟩ := hg
  unfold receive
  rw [h1]
  cases hq : f.payload with
  | nil => exact absurd hq h3
  | cons c r =>
    rw [hq] at h4 hh
    simp only [List.head?_cons, ne_eq, Option.some.injEq] at h4
    simp [h4, h2, hh]

/-- Frames for others change nothing; a status message is kept, if it can be decoded, and makes no work. -/
theorem no_work (dec : Dec) (s : State) (f : Frame) :
    (f.ours = false → receive dec s f = some (s, [])) ∧
    (f.ours = true → f.payload.head? = some 17 → receive dec s f =
      some (((dec.status f.payload).map fun on => ⟨on, true⟩).getD s, [])) := by
  unfold receive
  refine ⟨fun h => by rw [h]; rfl, ?_⟩
  intro h hd
  rw [h]
  cases hq : f.payload with
  | nil => rw [hq] at hd; simp at hd
  | cons c r =>
    rw [hq] at hd
    simp only [List.head?_cons, Option.some.injEq] at hd
    subst hd
    cases dec.status (17 :: r) <;> simp

/-- After the framer says that it is off nothing more is received. -/
theorem off_ends (dec : Dec) (s : State) (hs : s.known = true → s.on = true) (a : List Frame) (f : Frame) (b : List Frame)
    (hf : SaysOff dec f) (ha : ∀ g ∈ a, ¬ Raises dec g ∧ ¬ SaysOff dec g) :
    loop dec s (a ++ f :: b) = ((loop dec s a).1, .off) := by
  induction a generalizing s with
  | nil =>
    have := (no_work dec s f).2 hf.1 hf.2.1
    rw [hf.2.2] at this
    simp only [List.nil_append]
    unfold loop
    rw [this]
    simp
  | cons g a ih =>
    have hg := ha g (by simp)
    rw [List.cons_append]
    unfold loop
    cases hr : receive dec s g with
    | none => exact absurd ((raises_iff dec s g).1 hr) hg.1
    | some x =>
      obtain ⟨t, w⟩ := x
      have ht : t.known = true → t.on = true := by
        by_cases ho : g.ours = true
        · by_cases hd : g.payload.head? = some 17
          · rw [(no_work dec s g).2 ho hd] at hr
            cases hst : dec.status g.payload with
            | none =>
              rw [hst] at hr
              simp only [Option.map_none, Option.getD_none, Option.some.injEq, Prod.mk.injEq] at hr
              rw [← hr.1]; exact hs
            | some on =>
              rw [hst] at hr
              simp only [Option.map_some, Option.getD_some, Option.some.injEq, Prod.mk.injEq] at hr
              rw [← hr.1]
              intro _
              cases on with
              | true => rfl
              | false => exact absurd ⟨ho, hd, hst⟩ hg.2
          · have hts : t = s := by
              unfold receive at hr
              cases hq : g.payload with
              | nil => exact absurd ⟨ho, Or.inl hq⟩ hg.1
              | cons c r =>
                rw [hq] at hr hd
                simp only [List.head?_cons, Option.some.injEq] at hd
                rw [ho] at hr
                simp only [Bool.true_eq_false, if_false, if_neg hd] at hr
                repeat' split at hr
                all_goals first
                  | (cases hr; done)
                  | (injection hr with hr; injection hr with hr _; exact hr.symm)
            rw [hts]; exact hs
        · have ho : g.ours = false := by simpa using ho
          rw [(no_work dec s g).1 ho] at hr
          simp only [Option.some.injEq, Prod.mk.injEq] at hr
          rw [← hr.1]; exact hs
      have hn : ¬ (t.known = true ∧ t.on = false) := by
        rintro ⟨h1, h2⟩
        rw [ht h1] at h2
        cases h2
      simp only []
      rw [if_neg hn, if_neg hn, ih t ht (fun y hy => ha y (by simp [hy]))]

/-- A decoder for the example: status messages say off if their second byte is zero. -/
def ex2 : Dec := ⟨fun p => if p.head? = some 5 then some (.ctl 1) else none, fun p => some (p[1]? != some 0)⟩

example : loop ex2 {} [⟨true, 0, [5]⟩, ⟨true, 0, [9]⟩, ⟨true, 0, [17, 1]⟩, ⟨true, 2, [5]⟩, ⟨true, 0, [17, 0]⟩, ⟨true, 0, [5]⟩] =
    ([.ctl 1, .err 17 none, .ctl 1], .off) := by decide

end Verif.FramerRx
