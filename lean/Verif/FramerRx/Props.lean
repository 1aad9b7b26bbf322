import Verif.FramerRx.Model

/-!
# C144: frames of a framer
-/

namespace Verif.FramerRx

/-! ## Specification -/

/-- A message in a frame that the framer says is good: addressed to us, and no status message. -/
def Good (f : Frame) : Prop := f.ours = true ∧ f.stat = 0 ∧ f.payload ≠ [] ∧ f.payload.head? ≠ some 17

/-- The frame has all of a data message: eight bytes of header, `n` bytes of data, two more. -/
def Whole (f : Frame) (n : Nat) : Prop := 8 + n + 2 ≤ f.payload.length

/-- The data in the frame: the bytes after the first eight. -/
def Holds (f : Frame) (n : Nat) (d : Bytes) : Prop :=
  d.length = n ∧ ∃ h t, h.length = 8 ∧ f.payload = h ++ d ++ t

/-- A frame that raises: for us, and empty or said to have bad data without a header that can be decoded. -/
def Raises (dec : Dec) (f : Frame) : Prop :=
  f.ours = true ∧ (f.payload = [] ∨ f.payload.head? ≠ some 17 ∧ f.stat = 2 ∧ dec.hdr f.payload = none)

/-- A status message that says that the framer is off. -/
def SaysOff (dec : Dec) (f : Frame) : Prop :=
  f.ours = true ∧ f.payload.head? = some 17 ∧ dec.status f.payload = some false

/-! ## Lemmas -/

theorem raises_iff (dec : Dec) (s : State) (f : Frame) : receive dec s f = none ↔ Raises dec f := by
  unfold receive Raises
  cases ho : f.ours with
  | false => simp
  | true =>
    cases hp : f.payload with
    | nil => simp
    | cons c r =>
      simp only [Bool.true_eq_false, if_false, List.head?_cons, ne_eq, Option.some.injEq, true_and, reduceCtorEq, false_or]
      by_cases hc : c = 17
      · rw [if_pos hc]
        cases dec.status (c :: r) <;> simp [hc]
      · rw [if_neg hc]
        by_cases h0 : f.stat = 0
        · rw [if_pos h0]
          cases dec.hdr (c :: r) with
          | none => simp [h0]
          | some x => cases x <;> simp
        · rw [if_neg h0]
          by_cases h1 : f.stat = 1
          · rw [if_pos h1]; simp [h1]
          · rw [if_neg h1]
            by_cases h2 : f.stat = 2
            · rw [if_pos h2]
              cases dec.hdr (c :: r) with
              | none => simp [h2, hc]
              | some x => cases x <;> simp
            · rw [if_neg h2]
              by_cases h3 : f.stat = 3
              · rw [if_pos h3]; simp [h3]
              · rw [if_neg h3]
                by_cases h4 : f.stat = 4
                · rw [if_pos h4]; simp [h4]
                · rw [if_neg h4]; simp [h2]

theorem data_from {dec : Dec} {s t : State} {f : Frame} {w : List Work} {m : Bool} {d : Bytes}
    (h : receive dec s f = some (t, w)) (hd : .data m d ∈ w) :
    Good f ∧ ∃ n r, dec.hdr f.payload = some (.data m n r) ∧ d = body f.payload n := by
  unfold receive at h
  unfold Good
  cases ho : f.ours with
  | false => rw [ho] at h; simp at h; rw [h.2] at hd; cases hd
  | true =>
    rw [ho] at h
    cases hp : f.payload with
    | nil => rw [hp] at h; simp at h
    | cons c r =>
      rw [hp] at h
      simp only [Bool.true_eq_false, if_false] at h
      by_cases hc : c = 17
      · rw [if_pos hc] at h
        cases hs : dec.status (c :: r) <;> rw [hs] at h <;> simp at h <;> rw [h.2] at hd <;> cases hd
      · rw [if_neg hc] at h
        by_cases h0 : f.stat = 0
        · rw [if_pos h0] at h
          cases hh : dec.hdr (c :: r) with
          | none => rw [hh] at h; simp at h; rw [← h.2] at hd; simp at hd
          | some x =>
            rw [hh] at h
            cases x with
            | ctl => simp at h; rw [← h.2] at hd; simp at hd
            | data m' n r' =>
              simp at h
              rw [← h.2] at hd
              simp only [List.mem_singleton, Work.data.injEq] at hd
              obtain ⟨rfl, rfl⟩ := hd
              exact ⟨⟨rfl, h0, by simp, by simp [hc]⟩, n, r', rfl, rfl⟩
        · rw [if_neg h0] at h
          exfalso
          repeat' split at h
          all_goals first
            | (cases h; done)
            | (injection h with h; injection h with _ h; subst h; simp at hd)

theorem body_whole {f : Frame} {n : Nat} (h : Whole f n) : Holds f n (body f.payload n) := by
  unfold Whole at h
  unfold body
  rw [if_neg (by simp; omega)]
  refine ⟨by simp; omega, f.payload.take 8, f.payload.drop (8 + n), by simp; omega, ?_⟩
  have h1 : (f.payload.drop 8).take n ++ f.payload.drop (8 + n) = f.payload.drop 8 := by
    rw [← List.drop_drop, List.take_append_drop]
  rw [List.append_assoc, h1, List.take_append_drop]

theorem body_short {f : Frame} {n : Nat} (h : ¬ Whole f n) : body f.payload n = [] := by
  unfold Whole at h
  unfold body
  rw [if_pos (by simp; omega)]

/-! ## C144 -/

/-- Data go to the node only from frames that the framer says are good, and they are the data in the frame.  Partial: a
frame that ends too early is passed on as a message without data (`short_empty`). -/
theorem data_good_partial (dec : Dec) (s : State) (fs : List Frame) (m : Bool) (d : Bytes)
    (h : .data m d ∈ (loop dec s fs).1) :
    ∃ f ∈ fs, Good f ∧ ∃ n r, dec.hdr f.payload = some (.data m n r) ∧ (Whole f n → Holds f n d) ∧
      (¬ Whole f n → d = []) := by
  induction fs generalizing s with
  | nil => simp [loop] at h
  | cons f fs ih =>
    unfold loop at h
    cases hr : receive dec s f with
    | none => rw [hr] at h; simp at h
    | some x =>
      obtain ⟨t, w⟩ := x
      rw [hr] at h
      have hw : .data m d ∈ w → ∃ f' ∈ f :: fs, Good f' ∧ ∃ n r, dec.hdr f'.payload = some (.data m n r) ∧
          (Whole f' n → Holds f' n d) ∧ (¬ Whole f' n → d = []) := by
        intro hd
        obtain ⟨hg, n, r, hh, rfl⟩ := data_from hr hd
        exact ⟨f, by simp, hg, n, r, hh, body_whole, body_short⟩
      simp only [] at h
      split at h
      · exact hw h
      · rcases List.mem_append.1 h with h | h
        · exact hw h
        · obtain ⟨f', hf, h'⟩ := ih t h
          exact ⟨f', by simp [hf], h'⟩

/-- Every whole data message in a good frame goes to the node. -/
theorem good_delivered (dec : Dec) (s : State) (f : Frame) (n r : Nat) (m : Bool) (hg : Good f)
    (hh : dec.hdr f.payload = some (.data m n r)) (hw : Whole f n) :
    ∃ d, receive dec s f = some (s, [.data m d]) ∧ Holds f n d := by
  refine ⟨body f.payload n, ?_, body_whole hw⟩
  obtain ⟨h1, h2, h3, h4⟩ := hg
  unfold receive
  rw [h1]
  cases hp : f.payload with
  | nil => exact absurd hp h3
  | cons c t =>
    rw [hp] at h4 hh
    simp only [List.head?_cons, ne_eq, Option.some.injEq] at h4
    simp [h4, h2, hh]

/-- A message whose data are said to be bad is answered with that, and its acknowledgement acted on, unless it is a
maintenance message; never delivered. -/
theorem bad_data (dec : Dec) (s : State) (f : Frame) (n r : Nat) (m : Bool) (ho : f.ours = true) (hs : f.stat = 2)
    (hp : f.payload ≠ []) (hd : f.payload.head? ≠ some 17) (hh : dec.hdr f.payload = some (.data m n r)) :
    receive dec s f = some (s, [.err 2 (if m then none else some r)]) := by
  unfold receive
  rw [ho]
  cases hq : f.payload with
  | nil => exact absurd hq hp
  | cons c t =>
    rw [hq] at hd hh
    simp only [List.head?_cons, ne_eq, Option.some.injEq] at hd
    simp [hd, hs, hh]

/-- Other errors by what the framer says: a bad header and the loss of the carrier are a bad header, a frame that is too
long is a buffer that is too short. -/
theorem other_errors (dec : Dec) (s : State) (f : Frame) (ho : f.ours = true) (hp : f.payload ≠ [])
    (hd : f.payload.head? ≠ some 17) :
    (f.stat = 1 ∨ f.stat = 4 → receive dec s f = some (s, [.err 1 none])) ∧
    (f.stat = 3 → receive dec s f = some (s, [.err 16 none])) ∧ (4 < f.stat → receive dec s f = some (s, [])) := by
  unfold receive
  rw [ho]
  cases hq : f.payload with
  | nil => exact absurd hq hp
  | cons c t =>
    rw [hq] at hd
    simp only [List.head?_cons, ne_eq, Option.some.injEq] at hd
    refine ⟨?_, ?_, ?_⟩
    · rintro (h | h) <;> simp [hd, h]
    · intro h; simp [hd, h]
    · intro h
      simp only [Bool.true_eq_false, if_false, hd]
      rw [if_neg (by omega), if_neg (by omega), if_neg (by omega), if_neg (by omega), if_neg (by omega)]

/-- A good frame that is too short for its count is passed on as a message without data, instead of an error. -/
theorem short_empty (dec : Dec) (s : State) (f : Frame) (n r : Nat) (m : Bool) (hg : Good f)
    (hh : dec.hdr f.payload = some (.data m n r)) (hw : ¬ Whole f n) :
    receive dec s f = some (s, [.data m []]) := by
  have hb := body_short hw
  obtain ⟨h1, h2, h3, h4⟩ := hg
  unfold receive
  rw [h1]
  cases hp : f.payload with
  | nil => exact absurd hp h3
  | cons c t =>
    rw [hp] at h4 hh hb
    simp only [List.head?_cons, ne_eq, Option.some.injEq] at h4
    simp [h4, h2, hh, hb]

/-- The thread dies exactly at the first frame that raises, if the framer has not been off before. -/
theorem dies_iff (dec : Dec) (s : State) (hs : s.known = true → s.on = true) (fs : List Frame) :
    (loop dec s fs).2 = .died ↔ ∃ a f b, fs = a ++ f :: b ∧ Raises dec f ∧ ∀ g ∈ a, ¬ Raises dec g ∧ ¬ SaysOff dec g := by
  induction fs generalizing s with
  | nil => simp [loop]
  | cons f fs ih =>
    unfold loop
    cases hr : receive dec s f with
    | none =>
      simp only [true_iff]
      exact ⟨[], f, fs, rfl, (raises_iff dec s f).1 hr, by simp⟩
    | some x =>
      obtain ⟨t, w⟩ := x
      have hnr : ¬ Raises dec f := by
        intro h
        rw [(raises_iff dec s f).2 h] at hr
        cases hr
      have hoff : (t.known = true ∧ t.on = false) ↔ SaysOff dec f := by
        unfold SaysOff
        unfold receive at hr
        have hsame : ∀ ws : List Work, some (s, ws) = some (t, w) → ¬ (t.known = true ∧ t.on = false) := by
          intro ws h
          injection h with h
          injection h with h _
          subst h
          rintro ⟨h1, h2⟩
          rw [hs h1] at h2
          cases h2
        cases ho : f.ours with
        | false =>
          rw [ho] at hr
          have := hsame _ hr
          simp [this]
        | true =>
          rw [ho] at hr
          cases hp : f.payload with
          | nil => rw [hp] at hr; simp at hr
          | cons c r =>
            rw [hp] at hr
            simp only [Bool.true_eq_false, if_false] at hr
            by_cases hc : c = 17
            · rw [if_pos hc] at hr
              cases hst : dec.status (c :: r) with
              | none =>
                rw [hst] at hr
                have := hsame _ hr
                simp [this]
              | some on =>
                rw [hst] at hr
                simp only [Option.some.injEq, Prod.mk.injEq] at hr
                rw [← hr.1]
                simp [hc]
            · rw [if_neg hc] at hr
              have : ¬ (t.known = true ∧ t.on = false) := by
                repeat' split at hr
                all_goals first
                  | exact hsame _ hr
                  | cases hr
              simp [this, hc]
      simp only []
      by_cases ho : t.known = true ∧ t.on = false
      · rw [if_pos ho]
        simp only [reduceCtorEq, false_iff]
        rintro ⟨a, g, b, he, hg, ha⟩
        cases a with
        | nil =>
          injection he with he _
          subst he
          exact hnr hg
        | cons y a =>
          injection he with he _
          subst he
          exact (ha f (by simp)).2 (hoff.1 ho)
      · rw [if_neg ho]
        simp only []
        rw [ih t (by intro h; cases hon : t.on with
          | true => rfl
          | false => exact absurd ⟨h, hon⟩ ho)]
        constructor
        · rintro ⟨a, g, b, rfl, hg, ha⟩
          refine ⟨f :: a, g, b, rfl, hg, ?_⟩
          intro y hy
          rcases List.mem_cons.1 hy with rfl | hy
          · exact ⟨hnr, fun h => ho (hoff.2 h)⟩
          · exact ha y hy
        · rintro ⟨a, g, b, he, hg, ha⟩
          cases a with
          | nil =>
            injection he with he _
            subst he
            exact absurd hg hnr
          | cons y a =>
            injection he with he1 he2
            subst he1; subst he2
            exact ⟨a, g, b, rfl, hg, fun y hy => ha y (by simp [hy])⟩

/-- A decoder for the examples: data of three bytes. -/
def ex : Dec := ⟨fun p => if p.head? = some 129 then some (.data false 3 5) else none, fun _ => some true⟩

example : loop ex {} [⟨true, 0, [17, 1]⟩, ⟨true, 0, [129, 3, 0, 5, 1, 1, 0, 0, 7, 8, 9, 0, 0, 0]⟩,
    ⟨true, 2, [129, 3, 0, 5, 1, 1, 0, 0, 7, 8, 9, 0, 0, 0]⟩, ⟨false, 2, []⟩, ⟨true, 2, [1]⟩] =
    ([.data false [7, 8, 9], .err 2 (some 5)], .died) := by decide

example : Good ⟨true, 0, [129, 3, 0, 5]⟩ ∧ ¬ Whole ⟨true, 0, [129, 3, 0, 5]⟩ 3 :=
  ⟨⟨rfl, rfl, by simp, by simp⟩, by simp [Whole]⟩

end Verif.FramerRx
