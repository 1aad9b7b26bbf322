import Verif.MapCtr.Props

/-!
# C141: two threads

The inbound counter is changed by the thread that receives (bad header, bad data: ddcmp.py:493, 527, 1286, 1591, 1604) and
by the thread of the node (REP: ddcmp.py:692), without a lock.  Here the steps of `+=` are apart: the object is taken,
the number of the cause is taken and put back in the list that all objects share, the new object is stored.
-/

namespace Verif.MapCtr.Race

/-- A thread within `c += (1, b)`, nice_coding.py:458-469: the object taken has value `v` and bits `m`; `got` has the number
of the cause as well; `put` has stored it. -/
inductive Local where
  | idle
  | loaded (b v m : Nat)
  | got (b v m x : Nat)
  | put (b v m : Nat)
deriving DecidableEq, Repr

structure State where
  val : Nat
  map : Nat
  cmap : Nat → Nat
  loc : Bool → Local

def State.init : State := ⟨0, 0, fun _ => 0, fun _ => .idle⟩

/-- The causes that a thread counts: the receiver (`true`) headers and data, the node the REP messages. -/
def may (t : Bool) (b : Nat) : Prop := if t then b = 0 ∨ b = 1 else b = 2

def set (f : Bool → Local) (t : Bool) (l : Local) : Bool → Local := fun u => if u = t then l else f u

/-- All schedules: `h` is what has happened, in order, by the bits of the causes. -/
inductive Reach : List Nat → State → Prop where
  | init : Reach [] .init
  | load {h s} (t : Bool) (b : Nat) (hr : Reach h s) (hb : may t b) (hi : s.loc t = .idle) :
      Reach (h ++ [b]) { s with loc := set s.loc t (.loaded b s.val s.map) }
  | get {h s} (t : Bool) {b v m : Nat} (hr : Reach h s) (hl : s.loc t = .loaded b v m) :
      Reach h { s with loc := set s.loc t (.got b v m (s.cmap b)) }
  | put {h s} (t : Bool) {b v m x : Nat} (hr : Reach h s) (hl : s.loc t = .got b v m x) :
      Reach h { s with cmap := fun i => if i = b then x + 1 else s.cmap i, loc := set s.loc t (.put b v m) }
  | store {h s} (t : Bool) {b v m : Nat} (hr : Reach h s) (hl : s.loc t = .put b v m) :
      Reach h { s with val := v + 1, map := m ||| 1 <<< b, loc := set s.loc t .idle }

/-! ## Lemmas -/

/-- Begun but not yet in the list. -/
def pend (l : Local) (i : Nat) : Nat :=
  match l with
  | .loaded b _ _ => if i = b then 1 else 0
  | .got b _ _ _ => if i = b then 1 else 0
  | _ => 0

/-- What a thread holds is right. -/
def Holds (h : List Nat) (c : Nat → Nat) (t : Bool) : Local → Prop
  | .idle => True
  | .loaded b v m => may t b ∧ v + 1 ≤ h.length ∧ b ∈ h ∧ ∀ i, m.testBit i = true → i ∈ h
  | .got b v m x => may t b ∧ v + 1 ≤ h.length ∧ b ∈ h ∧ (∀ i, m.testBit i = true → i ∈ h) ∧ x = c b
  | .put b v m => may t b ∧ v + 1 ≤ h.length ∧ b ∈ h ∧ ∀ i, m.testBit i = true → i ∈ h

structure Inv (h : List Nat) (s : State) : Prop where
  each : ∀ i, s.cmap i + pend (s.loc true) i + pend (s.loc false) i = h.count i
  val : s.val ≤ h.length
  bits : ∀ i, s.map.testBit i = true → i ∈ h
  holds : ∀ t, Holds h s.cmap t (s.loc t)

theorem may_ne {t u : Bool} {b i : Nat} (h : may t b) (hu : may u i) (hne : u ≠ t) : i ≠ b := by
  cases t <;> cases u <;> simp_all [may] <;> omega

theorem holds_mono {h : List Nat} {c : Nat → Nat} {t : Bool} {l : Local} (b : Nat) (hl : Holds h c t l) :
    Holds (h ++ [b]) c t l := by
  cases l with
  | idle => trivial
  | loaded => exact ⟨hl.1, by have := hl.2.1; simp; omega, by simp [hl.2.2.1], fun i hi => by simp [hl.2.2.2 i hi]⟩
  | got =>
    exact ⟨hl.1, by have := hl.2.1; simp; omega, by simp [hl.2.2.1], fun i hi => by simp [hl.2.2.2.1 i hi], hl.2.2.2.2⟩
  | put => exact ⟨hl.1, by have := hl.2.1; simp; omega, by simp [hl.2.2.1], fun i hi => by simp [hl.2.2.2 i hi]⟩

theorem holds_put {h : List Nat} {c : Nat → Nat} {t u : Bool} {b x : Nat} {l : Local} (hl : Holds h c u l)
    (hb : may t b) (hne : u ≠ t) : Holds h (fun i => if i = b then x else c i) u l := by
  cases l with
  | idle => trivial
  | loaded => exact hl
  | got =>
    refine ⟨hl.1, hl.2.1, hl.2.2.1, hl.2.2.2.1, ?_⟩
    show _ = if _ = b then x else _
    rw [if_neg (may_ne hb hl.1 hne)]
    exact hl.2.2.2.2
  | put => exact hl

theorem pend_idle (i : Nat) : pend .idle i = 0 := rfl
theorem pend_loaded (b v m i : Nat) : pend (.loaded b v m) i = if i = b then 1 else 0 := rfl
theorem pend_got (b v m x i : Nat) : pend (.got b v m x) i = if i = b then 1 else 0 := rfl
theorem pend_put (b v m i : Nat) : pend (.put b v m) i = 0 := rfl

theorem pend_set (f : Bool → Local) (t : Bool) (l : Local) (i : Nat) :
    pend (set f t l true) i + pend (set f t l false) i + pend (f t) i =
      pend (f true) i + pend (f false) i + pend l i := by
  cases t <;> simp [set] <;> omega

theorem inv {h : List Nat} {s : State} (hr : Reach h s) : Inv h s := by
  induction hr with
  | init => exact ⟨fun i => rfl, Nat.le_refl _, fun i hi => by simp [State.init] at hi, fun t => trivial⟩
  | @load h s t b _ hb hi ih =>
    refine ⟨?_, ?_, ?_, ?_⟩
    · intro i
      have h1 := ih.each i
      have h2 := pend_set s.loc t (.loaded b s.val s.map) i
      rw [hi] at h2
      simp only [pend_idle, pend_loaded] at h2
      simp only [List.count_append, List.count_singleton, beq_iff_eq]
      by_cases hib : i = b
      · subst hib; simp at h2 ⊢; omega
      · rw [if_neg hib] at h2
        rw [if_neg fun e => hib e.symm]
        omega
    · have := ih.val; simp; omega
    · intro i h'; simp [ih.bits i h']
    · intro u
      by_cases hu : u = t
      · subst hu
        simp only [set, if_true]
        exact ⟨hb, by have := ih.val; simp; omega, by simp, fun i h' => by simp [ih.bits i h']⟩
      · simp only [set, if_neg hu]
        exact holds_mono b (ih.holds u)
  | @get h s t b v m _ hl ih =>
    have ht := ih.holds t
    rw [hl] at ht
    refine ⟨?_, ih.val, ih.bits, ?_⟩
    · intro i
      have h1 := ih.each i
      have h2 := pend_set s.loc t (.got b v m (s.cmap b)) i
      rw [hl] at h2
      simp only [pend_loaded, pend_got] at h2
      dsimp only
      omega
    · intro u
      by_cases hu : u = t
      · subst hu
        simp only [set, if_true]
        exact ⟨ht.1, ht.2.1, ht.2.2.1, ht.2.2.2, rfl⟩
      · simp only [set, if_neg hu]
        exact ih.holds u
  | @put h s t b v m x _ hl ih =>
    have ht := ih.holds t
    rw [hl] at ht
    refine ⟨?_, ih.val, ih.bits, ?_⟩
    · intro i
      have h1 := ih.each i
      have h2 := pend_set s.loc t (.put b v m) i
      rw [hl] at h2
      simp only [pend_got, pend_put] at h2
      dsimp only
      by_cases hib : i = b
      · subst hib
        have := ht.2.2.2.2
        simp only [if_true] at h2 ⊢
        omega
      · rw [if_neg hib] at h2 ⊢
        omega
    · intro u
      by_cases hu : u = t
      · subst hu
        simp only [set, if_true]
        exact ⟨ht.1, ht.2.1, ht.2.2.1, ht.2.2.2.1⟩
      · simp only [set, if_neg hu]
        exact holds_put (ih.holds u) ht.1 hu
  | @store h s t b v m _ hl ih =>
    have ht := ih.holds t
    rw [hl] at ht
    refine ⟨?_, ht.2.1, ?_, ?_⟩
    · intro i
      have h1 := ih.each i
      have h2 := pend_set s.loc t .idle i
      rw [hl] at h2
      simp only [pend_put, pend_idle] at h2
      dsimp only
      omega
    · intro i h'
      have h' : (m ||| 1 <<< b).testBit i = true := h'
      rw [Nat.testBit_or, Bool.or_eq_true, Nat.one_shiftLeft, Nat.testBit_two_pow] at h'
      rcases h' with h' | h'
      · exact ht.2.2.2 i h'
      · have : b = i := by simpa using h'
        subst this; exact ht.2.2.1
    · intro u
      by_cases hu : u = t
      · subst hu
        simp only [set, if_true]
        trivial
      · simp only [set, if_neg hu]
        exact ih.holds u

/-! ## C141 -/

/-- Whatever the schedule, when no thread is within an addition the number of every cause is exact, the counter is never
more than the number of errors, and no bit is set without its cause. -/
theorem causes_exact (h : List Nat) (s : State) (hr : Reach h s) (hi : ∀ t, s.loc t = .idle) :
    (∀ b, s.cmap b = h.count b) ∧ s.val ≤ h.length ∧ ∀ b, s.map.testBit b = true → b ∈ h := by
  have hv := inv hr
  refine ⟨fun b => ?_, hv.val, hv.bits⟩
  have := hv.each b
  rw [hi, hi] at this
  exact this

/-- But the counter may be less than the sum of its causes, and the bit of a cause be lost: a bad header while a REP is
being counted. -/
theorem total_lost : ∃ h s, Reach h s ∧ (∀ t, s.loc t = .idle) ∧ h.length = 2 ∧ s.val = 1 ∧
    s.cmap 0 + s.cmap 1 + s.cmap 2 = 2 ∧ s.cmap 0 = 1 ∧ s.map.testBit 0 = false := by
  have r1 := Reach.load false 2 .init rfl rfl
  have r2 := Reach.load true 0 r1 (Or.inl rfl) rfl
  have r3 := Reach.get true r2 rfl
  have r4 := Reach.put true r3 rfl
  have r5 := Reach.store true r4 rfl
  have r6 := Reach.get false r5 rfl
  have r7 := Reach.put false r6 rfl
  have r8 := Reach.store false r7 rfl
  refine ⟨_, _, r8, ?_, rfl, rfl, rfl, rfl, by decide⟩
  intro t
  cases t <;> rfl

end Verif.MapCtr.Race
