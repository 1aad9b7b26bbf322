import Verif.RUpdate.Model

namespace Verif.RUpdate

open Verif.RoutMsg (Vectors)

/-- Encoded size of a packet with these segments (header 4, checksum 2). -/
def size (v : Vectors) : Nat := 6 + (v.map fun x => 4 + 2 * x.2.length).sum

theorem size_append (v w : Vectors) : size (v ++ w) = size v + (w.map fun x => 4 + 2 * x.2.length).sum := by
  unfold size; simp; omega

/-- A segment that reports table `t` for a range of ids from `lo` and below `hi`. -/
structure Reports (t : Table) (lo hi : Nat) (x : Nat × List (Nat × Nat)) : Prop where
  val : x.2 = (List.range' x.1 x.2.length).map t
  ne : x.2 ≠ []
  lo : lo ≤ x.1
  hi : x.1 + x.2.length ≤ hi

def Before (x y : Nat × List (Nat × Nat)) : Prop := x.1 + x.2.length ≤ y.1

theorem Reports.mono {t : Table} {lo hi hi' : Nat} {x} (h : Reports t lo hi x) (hh : hi ≤ hi') : Reports t lo hi' x :=
  ⟨h.val, h.ne, h.lo, by have := h.hi; omega⟩

/-- State of the loop once a packet has been started, before id `i`. -/
structure Core (flag : Nat → Bool) (srm0 : Nat → Bool) (t : Table) (mtu lo i : Nat)
    (ret : List Vectors) (p : Vectors) (s : Nat × List (Nat × Nat)) (prev cl : Nat) (srm : Nat → Bool) : Prop where
  rep : ∀ x ∈ ret.flatten ++ p ++ [s], Reports t lo (prev + 1) x
  ord : (ret.flatten ++ p ++ [s]).Pairwise Before
  cov : ∀ j, lo ≤ j → j < i → flag j = true → ∃ x ∈ ret.flatten ++ p ++ [s], x.1 ≤ j ∧ j < x.1 + x.2.length
  last : s.1 + s.2.length = prev + 1
  lt : prev < i
  len : cl = size (p ++ [s])
  lim : cl ≤ max 12 (mtu + 6)
  lims : ∀ v ∈ ret, size v ≤ max 12 (mtu + 6) ∧ v ≠ []
  flags : ∀ j, srm j = if lo ≤ j ∧ j < i then false else srm0 j

def Inv (flag : Nat → Bool) (srm0 : Nat → Bool) (t : Table) (mtu lo i : Nat) (st : Loop) : Prop :=
  (st = Loop.init srm0 ∧ ∀ j, lo ≤ j → j < i → flag j = false) ∨
  ∃ ret p s prev cl srm, st = ⟨ret, some p, some s, prev, cl, srm⟩ ∧
    Core flag srm0 t mtu lo i ret p s prev cl srm

theorem range_join (a b c : Nat) (h1 : a ≤ b) (h2 : b ≤ c) :
    List.range' a (b - a) ++ List.range' b (c - b) = List.range' a (c - a) := by
  have e : b = a + (b - a) := by omega
  conv => lhs; rhs; arg 1; rw [e]
  rw [List.range'_append_1]
  congr 1
  omega

section
variable {complete : Bool} {srm0 : Nat → Bool} {t : Table} {mtu lo i : Nat}

/-- Starting a segment that is not adjacent. -/
theorem Core.newSeg {ret p s prev cl srm}
    (h : Core (fun j => complete || srm0 j) srm0 t mtu lo i ret p s prev cl srm) (hlo : lo ≤ i)
    (hcl : cl ≤ mtu) :
    Core (fun j => complete || srm0 j) srm0 t mtu lo (i + 1) ret (p ++ [s]) (i, [t i]) i (cl + 6)
      (fun j => if j = i then false else srm j) := by
  have hlt := h.lt
  have hnew : Reports t lo (i + 1) (i, [t i]) := ⟨rfl, by simp, hlo, by simp⟩
  refine ⟨?_, ?_, ?_, rfl, by omega, ?_, by omega, h.lims, ?_⟩
  · intro x hx
    rw [← List.append_assoc] at hx
    rcases List.mem_append.1 hx with hx | hx
    · exact (h.rep x hx).mono (by omega)
    · rw [List.mem_singleton.1 hx]; exact hnew
  · rw [← List.append_assoc, List.pairwise_append]
    refine ⟨h.ord, by simp, ?_⟩
    intro x hx y hy
    rw [List.mem_singleton.1 hy]
    have := (h.rep x hx).hi
    unfold Before
    show _ ≤ i
    omega
  · intro j h1 h2 h3
    by_cases hj : j = i
    · subst hj
      exact ⟨(j, [t j]), by simp, by simp, by simp⟩
    · obtain ⟨x, hx, hx2⟩ := h.cov j h1 (by omega) h3
      exact ⟨x, by rw [← List.append_assoc]; exact List.mem_append_left _ hx, hx2⟩
  · rw [h.len, size_append (p ++ [s])]; simp
  · intro j
    rw [h.flags j]
    by_cases hj : j = i
    · subst hj; simp [hlo]
    · by_cases h1 : lo ≤ j ∧ j < i
      · rw [if_neg hj, if_pos h1, if_pos ⟨h1.1, by omega⟩]
      · rw [if_neg hj, if_neg h1, if_neg (by omega)]

/-- Continuing the segment. -/
theorem Core.extend {ret p s prev cl srm}
    (h : Core (fun j => complete || srm0 j) srm0 t mtu lo i ret p s prev cl srm)
    (hcl : cl ≤ mtu) (hgap : i - prev ≤ 2) :
    Core (fun j => complete || srm0 j) srm0 t mtu lo (i + 1) ret p
      (s.1, s.2 ++ (List.range' (prev + 1) (i - (prev + 1))).map t ++ [t i]) i
      (cl + 2 * ((List.range' (prev + 1) (i - (prev + 1))).map t).length + 2)
      (fun j => if j = i then false else srm j) := by
  have hlt := h.lt
  have hs := h.rep s (by simp)
  have hla := h.last
  have hslo := hs.lo
  have hle : s.1 ≤ prev := by
    have := List.length_pos_iff.2 hs.ne
    omega
  have e : s.2 ++ (List.range' (prev + 1) (i - (prev + 1))).map t ++ [t i] = (List.range' s.1 (i + 1 - s.1)).map t := by
    have e1 : s.2 = (List.range' s.1 (prev + 1 - s.1)).map t := by
      have := hs.val
      rwa [show s.2.length = prev + 1 - s.1 by omega] at this
    have e2 : ([t i] : List (Nat × Nat)) = (List.range' i (i + 1 - i)).map t := by
      rw [show i + 1 - i = 1 by omega]; simp
    rw [e1, e2, ← List.map_append, ← List.map_append, range_join _ _ _ (by omega) (by omega),
      range_join _ _ _ (by omega) (by omega)]
  have hlen : (s.2 ++ (List.range' (prev + 1) (i - (prev + 1))).map t ++ [t i]).length = i + 1 - s.1 := by
    rw [e]; simp
  have hnew : Reports t lo (i + 1) (s.1, s.2 ++ (List.range' (prev + 1) (i - (prev + 1))).map t ++ [t i]) := by
    refine ⟨?_, by simp, hslo, ?_⟩
    · show s.2 ++ _ ++ _ = _
      rw [hlen]; exact e
    · show s.1 + _ ≤ _
      rw [hlen]; omega
  have hord := h.ord
  rw [List.pairwise_append] at hord
  refine ⟨?_, ?_, ?_, ?_, by omega, ?_, ?_, h.lims, ?_⟩
  · intro x hx
    rcases List.mem_append.1 hx with hx | hx
    · exact (h.rep x (List.mem_append_left _ hx)).mono (by omega)
    · rw [List.mem_singleton.1 hx]; exact hnew
  · rw [List.pairwise_append]
    refine ⟨hord.1, by simp, ?_⟩
    intro x hx y hy
    rw [List.mem_singleton.1 hy]
    exact hord.2.2 x hx s (by simp)
  · intro j h1 h2 h3
    by_cases hj : s.1 ≤ j
    · refine ⟨_, List.mem_append_right _ (List.mem_singleton.2 rfl), hj, ?_⟩
      show j < s.1 + _
      rw [hlen]; omega
    · obtain ⟨x, hx, hx2⟩ := h.cov j h1 (by omega) h3
      rcases List.mem_append.1 hx with hx | hx
      · exact ⟨x, List.mem_append_left _ hx, hx2⟩
      · rw [List.mem_singleton.1 hx] at hx2; omega
  · show s.1 + _ = i + 1
    rw [hlen]; omega
  · rw [h.len, size_append, size_append]
    simp
    omega
  · have : ((List.range' (prev + 1) (i - (prev + 1))).map t).length ≤ 1 := by simp; omega
    omega
  · intro j
    rw [h.flags j]
    have hlo : lo ≤ i := by omega
    by_cases hj : j = i
    · subst hj; simp [hlo]
    · by_cases h1 : lo ≤ j ∧ j < i
      · rw [if_neg hj, if_pos h1, if_pos ⟨h1.1, by omega⟩]
      · rw [if_neg hj, if_neg h1, if_neg (by omega)]

/-- Starting a new packet. -/
theorem Core.newPkt {ret p s prev cl srm}
    (h : Core (fun j => complete || srm0 j) srm0 t mtu lo i ret p s prev cl srm) (hlo : lo ≤ i) :
    Core (fun j => complete || srm0 j) srm0 t mtu lo (i + 1) (ret ++ [p ++ [s]]) [] (i, [t i]) i 12
      (fun j => if j = i then false else srm j) := by
  have hlt := h.lt
  have hnew : Reports t lo (i + 1) (i, [t i]) := ⟨rfl, by simp, hlo, by simp⟩
  have e : (ret ++ [p ++ [s]]).flatten ++ [] = ret.flatten ++ p ++ [s] := by simp
  refine ⟨?_, ?_, ?_, rfl, by omega, by simp [size], by omega, ?_, ?_⟩
  · intro x hx
    rw [e] at hx
    rcases List.mem_append.1 hx with hx | hx
    · exact (h.rep x hx).mono (by omega)
    · rw [List.mem_singleton.1 hx]; exact hnew
  · rw [e, List.pairwise_append]
    refine ⟨h.ord, by simp, ?_⟩
    intro x hx y hy
    rw [List.mem_singleton.1 hy]
    have := (h.rep x hx).hi
    unfold Before
    show _ ≤ i
    omega
  · rw [e]
    intro j h1 h2 h3
    by_cases hj : j = i
    · subst hj
      exact ⟨(j, [t j]), by simp, by simp, by simp⟩
    · obtain ⟨x, hx, hx2⟩ := h.cov j h1 (by omega) h3
      exact ⟨x, List.mem_append_left _ hx, hx2⟩
  · intro v hv
    rcases List.mem_append.1 hv with hv | hv
    · exact h.lims v hv
    · rw [List.mem_singleton.1 hv]
      exact ⟨by rw [← h.len]; exact h.lim, by simp⟩
  · intro j
    rw [h.flags j]
    by_cases hj : j = i
    · subst hj; simp [hlo]
    · by_cases h1 : lo ≤ j ∧ j < i
      · rw [if_neg hj, if_pos h1, if_pos ⟨h1.1, by omega⟩]
      · rw [if_neg hj, if_neg h1, if_neg (by omega)]

theorem Core.skip {ret p s prev cl srm}
    (h : Core (fun j => complete || srm0 j) srm0 t mtu lo i ret p s prev cl srm)
    (hf : (complete || srm0 i) = false) :
    Core (fun j => complete || srm0 j) srm0 t mtu lo (i + 1) ret p s prev cl srm := by
  refine ⟨h.rep, h.ord, ?_, h.last, by have := h.lt; omega, h.len, h.lim, h.lims, ?_⟩
  · intro j h1 h2 h3
    by_cases hj : j = i
    · subst hj
      simp only [hf] at h3
      cases h3
    · exact h.cov j h1 (by omega) h3
  · intro j
    rw [h.flags j]
    by_cases hj : j = i
    · subst hj
      have : srm0 j = false := by
        cases hx : srm0 j
        · rfl
        · rw [hx] at hf; simp at hf
      simp [this]
    · by_cases h1 : lo ≤ j ∧ j < i
      · rw [if_pos h1, if_pos ⟨h1.1, by omega⟩]
      · rw [if_neg h1, if_neg (by omega)]

theorem Inv.turn {st : Loop} (h : Inv (fun j => complete || srm0 j) srm0 t mtu lo i st) (hlo : lo ≤ i) :
    ∃ st', turn complete t mtu i st = some st' ∧ Inv (fun j => complete || srm0 j) srm0 t mtu lo (i + 1) st' := by
  rcases h with ⟨rfl, hn⟩ | ⟨ret, p, s, prev, cl, srm, rfl, h⟩
  · by_cases hf : (complete || srm0 i) = true
    · refine ⟨⟨[], some [], some (i, [t i]), i, 12, fun j => if j = i then false else srm0 j⟩, ?_, ?_⟩
      · unfold RUpdate.turn
        have e : (Loop.init srm0).srm i = srm0 i := rfl
        rw [e, if_pos hf]
        have e2 : flush mtu (Loop.init srm0) = some (Loop.init srm0) := by
          unfold flush
          rw [if_neg (by show ¬ ((0 : Nat) : Int) > mtu; omega)]
        rw [e2]; rfl
      · right
        refine ⟨_, _, _, _, _, _, rfl, ?_⟩
        have hnew : Reports t lo (i + 1) (i, [t i]) := ⟨rfl, by simp, hlo, by simp⟩
        refine ⟨?_, by simp, ?_, rfl, by omega, by simp [size], by omega, by simp, ?_⟩
        · intro x hx
          simp at hx
          rw [hx]; exact hnew
        · intro j h1 h2 h3
          by_cases hj : j = i
          · subst hj
            exact ⟨(j, [t j]), by simp, by simp, by simp⟩
          · have := hn j h1 (by omega)
            exact absurd (h3.symm.trans this) (by simp)
        · intro j
          by_cases hj : j = i
          · subst hj; simp [hlo]
          · by_cases h1 : lo ≤ j ∧ j < i
            · rw [if_neg hj, if_pos ⟨h1.1, by omega⟩]
              have := hn j h1.1 h1.2
              cases hx : srm0 j
              · rfl
              · simp [hx] at this
            · rw [if_neg hj, if_neg (by omega)]
    · refine ⟨Loop.init srm0, ?_, Or.inl ⟨rfl, ?_⟩⟩
      · unfold RUpdate.turn
        have e : (Loop.init srm0).srm i = srm0 i := rfl
        rw [e, if_neg hf]
      · intro j h1 h2
        by_cases hj : j = i
        · subst hj
          simpa using hf
        · exact hn j h1 (by omega)
  · have e : srm i = srm0 i := by rw [h.flags i, if_neg (by omega)]
    by_cases hf : (complete || srm0 i) = true
    · by_cases hc : cl > mtu
      · refine ⟨_, ?_, Or.inr ⟨_, _, _, _, _, _, rfl, h.newPkt hlo⟩⟩
        unfold RUpdate.turn
        simp only [e]
        rw [if_pos hf]
        unfold flush
        simp only
        rw [if_pos (by omega)]
        rfl
      · have hfl : flush mtu ⟨ret, some p, some s, prev, cl, srm⟩ = some ⟨ret, some p, some s, prev, cl, srm⟩ := by
          unfold flush
          simp only
          rw [if_neg (by omega)]
        by_cases hg : i - prev > 2
        · refine ⟨_, ?_, Or.inr ⟨_, _, _, _, _, _, rfl, h.newSeg hlo (by omega)⟩⟩
          unfold RUpdate.turn
          simp only [e]
          rw [if_pos hf, hfl]
          simp [addEntry, hg]
        · refine ⟨_, ?_, Or.inr ⟨_, _, _, _, _, _, rfl, h.extend (by omega) (by omega)⟩⟩
          unfold RUpdate.turn
          simp only [e]
          rw [if_pos hf, hfl]
          simp [addEntry, hg]
    · refine ⟨_, ?_, Or.inr ⟨_, _, _, _, _, _, rfl, h.skip (by simpa using hf)⟩⟩
      unfold RUpdate.turn
      simp only [e]
      rw [if_neg hf]

theorem Inv.loop (n : Nat) : ∀ {i : Nat} {st : Loop}, Inv (fun j => complete || srm0 j) srm0 t mtu lo i st → lo ≤ i →
    ∃ st', loop complete t mtu i n st = some st' ∧ Inv (fun j => complete || srm0 j) srm0 t mtu lo (i + n) st' := by
  induction n with
  | zero => intro i st h _; exact ⟨st, rfl, h⟩
  | succ n ih =>
    intro i st h hlo
    obtain ⟨st1, e1, h1⟩ := h.turn hlo
    obtain ⟨st2, e2, h2⟩ := ih h1 (by omega)
    refine ⟨st2, ?_, ?_⟩
    · rw [RUpdate.loop, e1]; exact e2
    · rw [show i + (n + 1) = i + 1 + n by omega]; exact h2

end

/-- What `buildupdates` returns. -/
theorem build_spec (complete : Bool) (t : Table) (blk lo len : Nat) (srm0 : Nat → Bool) (hb : 16 ≤ blk)
    (hany : ∃ j, lo ≤ j ∧ j < len ∧ (complete || srm0 j) = true) :
    ∃ pkts srm, build complete t blk lo len srm0 = some (pkts, srm) ∧
      (∀ x ∈ pkts.flatten, Reports t lo len x) ∧ pkts.flatten.Pairwise Before ∧
      (∀ j, lo ≤ j → j < len → (complete || srm0 j) = true →
        ∃ x ∈ pkts.flatten, x.1 ≤ j ∧ j < x.1 + x.2.length) ∧
      (∀ v ∈ pkts, size v ≤ max 12 (blk - 10) ∧ v ≠ []) ∧
      (∀ j, srm j = if lo ≤ j ∧ j < len then false else srm0 j) := by
  obtain ⟨j, hj1, hj2, hj3⟩ := hany
  have h0 : Inv (fun j => complete || srm0 j) srm0 t (blk - 16) lo lo (Loop.init srm0) :=
    Or.inl ⟨rfl, fun j h1 h2 => by omega⟩
  obtain ⟨st, e, h⟩ := Inv.loop (len - lo) h0 (Nat.le_refl _)
  rw [show lo + (len - lo) = len by omega] at h
  have e' : loop complete t ((blk : Int) - 16) lo (len - lo) (Loop.init srm0) = some st := by
    rw [show (blk : Int) - 16 = ((blk - 16 : Nat) : Int) by omega]; exact e
  unfold build
  rw [e']
  rcases h with ⟨rfl, hn⟩ | ⟨ret, p, s, prev, cl, srm, rfl, h⟩
  · have := hn j hj1 hj2
    exact absurd (hj3.symm.trans this) (by simp)
  · have hlt := h.lt
    have ef : (ret ++ [p ++ [s]]).flatten = ret.flatten ++ p ++ [s] := by simp
    refine ⟨ret ++ [p ++ [s]], srm, rfl, ?_, ?_, ?_, ?_, h.flags⟩
    · rw [ef]; intro x hx; exact (h.rep x hx).mono (by omega)
    · rw [ef]; exact h.ord
    · rw [ef]; exact h.cov
    · intro v hv
      rcases List.mem_append.1 hv with hv | hv
      · refine ⟨?_, (h.lims v hv).2⟩
        have := (h.lims v hv).1; omega
      · rw [List.mem_singleton.1 hv]
        refine ⟨?_, by simp⟩
        rw [← h.len]
        have := h.lim; omega

/-- The crash: nothing flagged, not complete. -/
theorem build_none (t : Table) (blk lo len : Nat) (srm0 : Nat → Bool) (hb : 16 ≤ blk)
    (hany : ∀ j, lo ≤ j → j < len → srm0 j = false) : build false t blk lo len srm0 = none := by
  have h0 : Inv (fun j => false || srm0 j) srm0 t (blk - 16) lo lo (Loop.init srm0) :=
    Or.inl ⟨rfl, fun j h1 h2 => by omega⟩
  have key : ∀ n i, lo ≤ i → i + n ≤ len → loop false t ((blk : Int) - 16) i n (Loop.init srm0) = some (Loop.init srm0) := by
    intro n
    induction n with
    | zero => intro i _ _; rfl
    | succ n ih =>
      intro i h1 h2
      rw [loop]
      have : turn false t ((blk : Int) - 16) i (Loop.init srm0) = some (Loop.init srm0) := by
        unfold turn
        have e : (Loop.init srm0).srm i = srm0 i := rfl
        rw [e, hany i h1 (by omega)]
        simp
      rw [this]
      exact ih (i + 1) (by omega) (by omega)
  unfold build
  by_cases h : lo ≤ len
  · rw [key (len - lo) lo (Nat.le_refl _) (by omega)]; rfl
  · rw [show len - lo = 0 by omega]; rfl

/-- The other crash: a block size below 16. -/
theorem build_small (complete : Bool) (t : Table) (blk lo len : Nat) (srm0 : Nat → Bool) (hb : blk < 16) :
    build complete t blk lo len srm0 = none := by
  have key : ∀ n i, loop complete t ((blk : Int) - 16) i n (Loop.init srm0) = some (Loop.init srm0) ∨
      loop complete t ((blk : Int) - 16) i n (Loop.init srm0) = none := by
    intro n
    induction n with
    | zero => intro i; exact Or.inl rfl
    | succ n ih =>
      intro i
      rw [loop]
      unfold turn
      by_cases hf : (complete || (Loop.init srm0).srm i) = true
      · rw [if_pos hf]
        right
        unfold flush
        rw [if_pos (by show ((0 : Nat) : Int) > _; omega)]
        rfl
      · rw [if_neg hf]
        exact ih (i + 1)
  unfold build
  rcases key (len - lo) lo with e | e
  · rw [e]; rfl
  · rw [e]

end Verif.RUpdate
