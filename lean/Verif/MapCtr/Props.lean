import Verif.MapCtr.Model

/-!
# C141: error counters and their causes
-/

namespace Verif.MapCtr

/-! ## Specification -/

/-- What happened. -/
inductive Cause where
  | badHeader | badData | wrongRep
  | theirHeader | theirData | theirRep
  | noBuffer | smallBuffer
deriving DecidableEq, Repr

/-- The cause of an event, if it is an error that has a counter. -/
def cause : Ev → Option Cause
  | .header => some .badHeader
  | .frame .hcrc => some .badHeader
  | .frame .loc => some .badHeader
  | .data => some .badData
  | .frame .crc => some .badData
  | .rep false => some .wrongRep
  | .nak 1 => some .theirHeader
  | .nak 2 => some .theirData
  | .nak 3 => some .theirRep
  | .nak 8 => some .noBuffer
  | .nak 16 => some .smallBuffer
  | _ => none

/-- How often. -/
def times (es : List Ev) (c : Cause) : Nat := es.countP fun e => cause e = some c

def isRep : Ev → Bool
  | .rep _ => true
  | _ => false

/-- A counter stands for the numbers of its causes, by bit: the value is the sum, a bit is set if its cause came up. -/
structure Stands (c : Ctr) (n : Nat → Nat) : Prop where
  len : c.cmap.length = 16
  each : ∀ b, b < 16 → c.cmap[b]? = some (n b)
  total : c.val = n 0 + n 1 + n 2
  bits : ∀ b, c.map.testBit b = true ↔ n b ≠ 0
  none : ∀ b, 3 ≤ b → n b = 0

/-- Numbers by bit. -/
def by3 (x y z : Nat) : Nat → Nat
  | 0 => x
  | 1 => y
  | 2 => z
  | _ => 0

structure Counted (s : Counters) (es : List Ev) : Prop where
  inbound : Stands s.inbound (by3 (times es .badHeader) (times es .badData) (times es .wrongRep))
  outbound : Stands s.outbound (by3 (times es .theirHeader) (times es .theirData) (times es .theirRep))
  buffer : Stands s.buffer (by3 (times es .noBuffer) (times es .smallBuffer) 0)
  reps : s.reps = es.countP isRep

/-! ## Lemmas -/

theorem stands_new : Stands .new (by3 0 0 0) := by
  have hz : ∀ b, by3 0 0 0 b = 0 := by
    intro b; unfold by3; split <;> rfl
  refine ⟨rfl, ?_, rfl, ?_, fun b _ => hz b⟩
  · intro b hb; rw [hz]; show (List.replicate 16 0)[b]? = some 0; rw [List.getElem?_replicate, if_pos hb]
  · intro b; rw [hz]; simp [Ctr.new]

theorem stands_add {c : Ctr} {n m : Nat → Nat} (h : Stands c n) (b : Nat) (hb : b < 3)
    (hm : ∀ i, m i = n i + if i = b then 1 else 0) : ∃ c', c.add 1 b = some c' ∧ Stands c' m := by
  unfold Ctr.add
  rw [h.each b (by omega)]
  refine ⟨_, rfl, ?_, ?_, ?_, ?_, ?_⟩
  · simp [h.len]
  · intro i hi
    rw [hm]
    by_cases hib : b = i
    · subst hib
      simp [h.len, hi]
    · simp only [List.getElem?_set, hib, if_false, h.each i hi]
      rw [if_neg fun e => hib e.symm]
      rfl
  · show c.val + 1 = _
    rw [hm, hm, hm, h.total]
    have : b = 0 ∨ b = 1 ∨ b = 2 := by omega
    rcases this with rfl | rfl | rfl <;> simp <;> omega
  · intro i
    show (c.map ||| 1 <<< b).testBit i = true ↔ _
    rw [hm, Nat.testBit_or, Bool.or_eq_true, h.bits, Nat.one_shiftLeft, Nat.testBit_two_pow]
    by_cases hib : i = b
    · subst hib; simp
    · rw [if_neg hib]
      have : ¬ b = i := fun e => hib e.symm
      simp [this]
  · intro i hi
    rw [hm, h.none i hi, if_neg (by omega)]

theorem times_snoc (es : List Ev) (e : Ev) (c : Cause) :
    times (es ++ [e]) c = times es c + if cause e = some c then 1 else 0 := by
  unfold times
  rw [List.countP_append]
  simp [List.countP_cons]

theorem by3_add {x y z x' y' z' b : Nat} (h : by3 x' y' z' 0 = x + if 0 = b then 1 else 0)
    (h1 : y' = y + if 1 = b then 1 else 0) (h2 : z' = z + if 2 = b then 1 else 0) (hb : b < 3) :
    ∀ i, by3 x' y' z' i = by3 x y z i + if i = b then 1 else 0 := by
  intro i
  match i with
  | 0 => exact h
  | 1 => exact h1
  | 2 => exact h2
  | i + 3 => simp only [by3]; rw [if_neg (by omega)]

/-- No cause: all as before. -/
theorem counted_same {s : Counters} {es : List Ev} {e : Ev} (h : Counted s es) (hc : cause e = none) (k : Nat)
    (hk : s.reps + k = (es ++ [e]).countP isRep) : Counted { s with reps := s.reps + k } (es ++ [e]) := by
  have ht : ∀ c, times (es ++ [e]) c = times es c := by intro c; rw [times_snoc, hc]; simp
  refine ⟨?_, ?_, ?_, hk⟩ <;> simp only [ht]
  · exact h.inbound
  · exact h.outbound
  · exact h.buffer

theorem reps_snoc (es : List Ev) (e : Ev) : (es ++ [e]).countP isRep = es.countP isRep + if isRep e then 1 else 0 := by
  rw [List.countP_append]; simp [List.countP_cons]

/-- A cause on our side. -/
theorem counted_in {s : Counters} {es : List Ev} {e : Ev} (h : Counted s es) (b k : Nat) (hb : b < 3)
    (hc : cause e = some (if b = 0 then .badHeader else if b = 1 then .badData else .wrongRep))
    (hk : s.reps + k = (es ++ [e]).countP isRep) :
    ∃ c, s.inbound.add 1 b = some c ∧ Counted { s with inbound := c, reps := s.reps + k } (es ++ [e]) := by
  have hb' : b = 0 ∨ b = 1 ∨ b = 2 := by omega
  obtain ⟨c, h1, h2⟩ := stands_add h.inbound b hb
    (m := by3 (times (es ++ [e]) .badHeader) (times (es ++ [e]) .badData) (times (es ++ [e]) .wrongRep)) (by
      apply by3_add _ _ _ hb <;> simp only [by3, times_snoc, hc] <;> rcases hb' with rfl | rfl | rfl <;> simp)
  have ho : times (es ++ [e]) .theirHeader = times es .theirHeader ∧ times (es ++ [e]) .theirData = times es .theirData ∧
      times (es ++ [e]) .theirRep = times es .theirRep ∧ times (es ++ [e]) .noBuffer = times es .noBuffer ∧
      times (es ++ [e]) .smallBuffer = times es .smallBuffer := by
    simp only [times_snoc, hc]
    rcases hb' with rfl | rfl | rfl <;> simp
  refine ⟨c, h1, h2, ?_, ?_, hk⟩
  · rw [ho.1, ho.2.1, ho.2.2.1]; exact h.outbound
  · rw [ho.2.2.2.1, ho.2.2.2.2]; exact h.buffer

/-- A cause on the other side: a data error. -/
theorem counted_out {s : Counters} {es : List Ev} {e : Ev} (h : Counted s es) (b : Nat) (hb : b < 3)
    (hc : cause e = some (if b = 0 then .theirHeader else if b = 1 then .theirData else .theirRep))
    (hk : isRep e = false) :
    ∃ c, s.outbound.add 1 b = some c ∧ Counted { s with outbound := c } (es ++ [e]) := by
  have hb' : b = 0 ∨ b = 1 ∨ b = 2 := by omega
  obtain ⟨c, h1, h2⟩ := stands_add h.outbound b hb
    (m := by3 (times (es ++ [e]) .theirHeader) (times (es ++ [e]) .theirData) (times (es ++ [e]) .theirRep)) (by
      apply by3_add _ _ _ hb <;> simp only [by3, times_snoc, hc] <;> rcases hb' with rfl | rfl | rfl <;> simp)
  have ho : times (es ++ [e]) .badHeader = times es .badHeader ∧ times (es ++ [e]) .badData = times es .badData ∧
      times (es ++ [e]) .wrongRep = times es .wrongRep ∧ times (es ++ [e]) .noBuffer = times es .noBuffer ∧
      times (es ++ [e]) .smallBuffer = times es .smallBuffer := by
    simp only [times_snoc, hc]
    rcases hb' with rfl | rfl | rfl <;> simp
  refine ⟨c, h1, ?_, h2, ?_, ?_⟩
  · rw [ho.1, ho.2.1, ho.2.2.1]; exact h.inbound
  · rw [ho.2.2.2.1, ho.2.2.2.2]; exact h.buffer
  · rw [reps_snoc, hk]; exact h.reps

/-- A cause on the other side: buffers. -/
theorem counted_buf {s : Counters} {es : List Ev} {e : Ev} (h : Counted s es) (b : Nat) (hb : b < 2)
    (hc : cause e = some (if b = 0 then .noBuffer else .smallBuffer)) (hk : isRep e = false) :
    ∃ c, s.buffer.add 1 b = some c ∧ Counted { s with buffer := c } (es ++ [e]) := by
  have hb' : b = 0 ∨ b = 1 := by omega
  obtain ⟨c, h1, h2⟩ := stands_add h.buffer b (by omega)
    (m := by3 (times (es ++ [e]) .noBuffer) (times (es ++ [e]) .smallBuffer) 0) (by
      apply by3_add _ _ _ (by omega) <;> rcases hb' with rfl | rfl <;> simp [by3, times_snoc, hc])
  have ho : times (es ++ [e]) .badHeader = times es .badHeader ∧ times (es ++ [e]) .badData = times es .badData ∧
      times (es ++ [e]) .wrongRep = times es .wrongRep ∧ times (es ++ [e]) .theirHeader = times es .theirHeader ∧
      times (es ++ [e]) .theirData = times es .theirData ∧ times (es ++ [e]) .theirRep = times es .theirRep := by
    simp only [times_snoc, hc]
    rcases hb' with rfl | rfl <;> simp
  refine ⟨c, h1, ?_, ?_, h2, ?_⟩
  · rw [ho.1, ho.2.1, ho.2.2.1]; exact h.inbound
  · rw [ho.2.2.2.1, ho.2.2.2.2.1, ho.2.2.2.2.2]; exact h.outbound
  · rw [reps_snoc, hk]; exact h.reps

theorem cause_nak_none {r : Nat} (h1 : r ≠ 1) (h2 : r ≠ 2) (h3 : r ≠ 3) (h8 : r ≠ 8) (h16 : r ≠ 16) :
    cause (.nak r) = none := by
  unfold cause
  split <;> first | rfl | (rename_i h; injection h with h; omega) | contradiction

theorem step_counted {s : Counters} {es : List Ev} (h : Counted s es) (e : Ev) :
    ∃ t, step s e = some t ∧ Counted t (es ++ [e]) := by
  have hr0 : isRep e = false → s.reps + 0 = (es ++ [e]).countP isRep := by
    intro hk; rw [reps_snoc, hk]; exact h.reps
  have hr1 : isRep e = true → s.reps + 1 = (es ++ [e]).countP isRep := by
    intro hk; rw [reps_snoc, hk, h.reps]; rfl
  have hin : ∀ b, b < 3 → isRep e = false →
      cause e = some (if b = 0 then .badHeader else if b = 1 then .badData else .wrongRep) →
      ∃ t, ((s.inbound.add 1 b).map fun c => { s with inbound := c }) = some t ∧ Counted t (es ++ [e]) := by
    intro b hb hk hc
    obtain ⟨c, h1, h2⟩ := counted_in h b 0 hb hc (hr0 hk)
    exact ⟨_, by rw [h1]; rfl, h2⟩
  have hsame : isRep e = false → cause e = none → ∃ t, some s = some t ∧ Counted t (es ++ [e]) :=
    fun hk hc => ⟨s, rfl, counted_same h hc 0 (hr0 hk)⟩
  cases e with
  | header => exact hin 0 (by omega) rfl rfl
  | data => exact hin 1 (by omega) rfl rfl
  | rep g =>
    cases g with
    | true => exact ⟨_, rfl, counted_same h rfl 1 (hr1 rfl)⟩
    | false =>
      obtain ⟨c, h1, h2⟩ := counted_in h 2 1 (by omega) rfl (hr1 rfl)
      exact ⟨_, by simp only [step]; rw [h1]; rfl, h2⟩
  | frame st =>
    cases st with
    | hcrc => exact hin 0 (by omega) rfl rfl
    | crc => exact hin 1 (by omega) rfl rfl
    | loc => exact hin 0 (by omega) rfl rfl
    | ok => exact hsame rfl rfl
    | len => exact hsame rfl rfl
    | other => exact hsame rfl rfl
  | nak r =>
    have hout : ∀ b, b < 3 → nakMap r = some (true, b) →
        cause (.nak r) = some (if b = 0 then .theirHeader else if b = 1 then .theirData else .theirRep) →
        ∃ t, step s (.nak r) = some t ∧ Counted t (es ++ [.nak r]) := by
      intro b hb hn hc
      obtain ⟨c, h1, h2⟩ := counted_out h b hb hc rfl
      exact ⟨_, by simp only [step]; rw [hn]; simp only []; rw [h1]; rfl, h2⟩
    have hbuf : ∀ b, b < 2 → nakMap r = some (false, b) →
        cause (.nak r) = some (if b = 0 then .noBuffer else .smallBuffer) →
        ∃ t, step s (.nak r) = some t ∧ Counted t (es ++ [.nak r]) := by
      intro b hb hn hc
      obtain ⟨c, h1, h2⟩ := counted_buf h b hb hc rfl
      exact ⟨_, by simp only [step]; rw [hn]; simp only []; rw [h1]; rfl, h2⟩
    by_cases h1 : r = 1
    · subst h1; exact hout 0 (by omega) rfl rfl
    by_cases h2 : r = 2
    · subst h2; exact hout 1 (by omega) rfl rfl
    by_cases h3 : r = 3
    · subst h3; exact hout 2 (by omega) rfl rfl
    by_cases h8 : r = 8
    · subst h8; exact hbuf 0 (by omega) rfl rfl
    by_cases h16 : r = 16
    · subst h16; exact hbuf 1 (by omega) rfl rfl
    have hn : nakMap r = none := by simp [nakMap, h1, h2, h3, h8, h16]
    obtain ⟨t, ht, hc⟩ := hsame rfl (cause_nak_none h1 h2 h3 h8 h16)
    exact ⟨t, by simp only [step]; rw [hn]; exact ht, hc⟩

theorem run_counted {s : Counters} {es : List Ev} (h : Counted s es) (fs : List Ev) :
    ∃ t, run s fs = some t ∧ Counted t (es ++ fs) := by
  induction fs generalizing s es with
  | nil => exact ⟨s, rfl, by simpa using h⟩
  | cons f fs ih =>
    obtain ⟨t, h1, h2⟩ := step_counted h f
    obtain ⟨u, h3, h4⟩ := ih h2
    exact ⟨u, by simp only [run]; rw [h1]; exact h3, by simpa using h4⟩

theorem quals_eq (lab : Nat → String) (f b bits : Nat) :
    quals lab f b bits = ((List.range f).filter fun i => bits.testBit i).map fun i => lab (b + i) := by
  induction f generalizing b bits with
  | zero => rfl
  | succ f ih =>
    unfold quals
    by_cases hz : bits = 0
    · subst hz; simp
    · rw [if_neg hz, ih, List.range_succ_eq_map, List.filter_cons, List.filter_map]
      have he : ((fun i => bits.testBit i) ∘ Nat.succ) = fun i => (bits / 2).testBit i := by
        funext i; simp [Nat.testBit_succ]
      rw [he]
      have hl : (fun i => lab (b + 1 + i)) = (fun i => lab (b + i)) ∘ Nat.succ := by
        funext i; simp only [Function.comp]; congr 1; omega
      have h0 : bits.testBit 0 = decide (bits % 2 = 1) := by simp [Nat.testBit_zero]
      rw [hl]
      by_cases h1 : bits % 2 = 1
      · rw [if_pos h1, if_pos (by rw [h0]; simp [h1])]; simp
      · rw [if_neg h1, if_neg (by rw [h0]; simp [h1])]; simp

/-! ## C141 -/

/-- Whatever comes in, in any order, nothing fails, and every counter is the number of the errors it is for, by cause.
Partial: one addition ends before the next begins; see `Race` for additions of two threads at once. -/
theorem counted_partial (es : List Ev) : ∃ s, run {} es = some s ∧ Counted s es :=
  run_counted (es := []) ⟨stands_new, stands_new, stands_new, rfl⟩ es

/-- The page shows the number of errors, then the causes that came up, with their numbers; these add up.
Partial as above. -/
theorem page_partial (es : List Ev) (s : Counters) (h : run {} es = some s) :
    shown s.inbound "in" deMap = some (("in", times es .badHeader + times es .badData + times es .wrongRep) ::
      [("Header block check errors", times es .badHeader), ("Data field block check errors", times es .badData),
        ("REP responses", times es .wrongRep)].filter fun x => x.2 ≠ 0) ∧
    shown s.outbound "out" deMap = some (("out", times es .theirHeader + times es .theirData + times es .theirRep) ::
      [("Header block check errors", times es .theirHeader), ("Data field block check errors", times es .theirData),
        ("REP responses", times es .theirRep)].filter fun x => x.2 ≠ 0) ∧
    shown s.buffer "buf" beMap = some (("buf", times es .noBuffer + times es .smallBuffer) ::
      [("Buffers unavailable", times es .noBuffer), ("Buffers too small", times es .smallBuffer)].filter
        fun x => x.2 ≠ 0) := by
  obtain ⟨t, ht, hc⟩ := counted_partial es
  rw [h] at ht
  injection ht with ht
  subst ht
  have key : ∀ (c : Ctr) (x y z : Nat) (l : String), Stands c (by3 x y z) →
      shown c l deMap = some ((l, x + y + z) :: [("Header block check errors", x), ("Data field block check errors", y),
        ("REP responses", z)].filter fun x => x.2 ≠ 0) := by
    intro c x y z l hs
    have e0 := hs.each 0 (by omega)
    have e1 := hs.each 1 (by omega)
    have e2 := hs.each 2 (by omega)
    have ev := hs.total
    simp only [by3] at e0 e1 e2 ev
    simp only [shown, deMap, e0, e1, e2, ev]
    by_cases hx : x = 0 <;> by_cases hy : y = 0 <;> by_cases hz : z = 0 <;> simp [hx, hy, hz]
  refine ⟨key _ _ _ _ _ hc.inbound, key _ _ _ _ _ hc.outbound, ?_⟩
  have e0 := hc.buffer.each 0 (by omega)
  have e1 := hc.buffer.each 1 (by omega)
  have ev := hc.buffer.total
  simp only [by3] at e0 e1 ev
  simp only [shown, beMap, e0, e1, ev]
  by_cases hx : times es .noBuffer = 0 <;> by_cases hy : times es .smallBuffer = 0 <;> simp [hx, hy]

/-- The names listed with a counter are those of the bits set among the first 16, in order. -/
theorem names_listed (lab : Nat → String) (bits : Nat) :
    formatQual lab bits = ((List.range 16).filter fun i => bits.testBit i).map lab := by
  unfold formatQual
  rw [quals_eq]
  simp

/-- An addition without a cause would lose the numbers of the causes: the bits remain, but the page shows none. -/
theorem plain_loses (c : Ctr) (n b : Nat) (hb : b < 16) :
    (c.addPlain n).map = c.map ∧ (c.addPlain n).val = c.val + n ∧ (c.addPlain n).cmap[b]? = some 0 := by
  refine ⟨rfl, rfl, ?_⟩
  show (List.replicate 16 0)[b]? = some 0
  rw [List.getElem?_replicate, if_pos hb]

example : (run {} [.header, .nak 3, .nak 9, .frame .loc, .rep true, .rep false, .nak 16, .frame .crc]).bind
    (fun s => shown s.inbound "Data errors inbound" deMap) = some [("Data errors inbound", 4),
      ("Header block check errors", 2), ("Data field block check errors", 1), ("REP responses", 1)] := by decide

example : formatQual (fun b => if b = 0 then "Header" else "other") 5 = ["Header", "other"] := by decide

end Verif.MapCtr
