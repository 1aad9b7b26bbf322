import Verif.NiceRead.Spec

/-!
# A node for the examples

A level 2 router 1.1 with a LAN and a point to point circuit, neighbours 1.2 (on the LAN) and 2.1, a third node 1.3
beyond 1.2, nothing at 1.4, and a loop node.
-/

namespace Verif.NiceRead

def lanC : Str := [69, 84]
def ptpC : Str := [80, 80]

def hopLan : Adj := ⟨1026, lanC, 4, 2⟩
def hopPtp : Adj := ⟨2049, ptpC, 4, 1⟩

def exW : World where
  kind := .l2router
  exec := 1025
  maxnodes := 4
  maxarea := 2
  oadj := fun i => if i = 1 then some .self else if i = 2 ∨ i = 3 then some (.via hopLan) else none
  minhops := fun i => i - 1
  mincost := fun i => 4 * (i - 1)
  aoadj := fun i => if i = 1 then some .self else if i = 2 then some (.via hopPtp) else none
  aminhops := fun i => i - 1
  amincost := fun i => 5 * (i - 1)
  circuits := [(lanC, .lan [⟨1028, false, 3, 576, 30⟩, ⟨1026, true, 2, 1498, 45⟩] 4), (ptpC, .ptp true 2049 4 1)]
  conns := [1027, 2049, 1027]

def nodeMe : Node := ⟨1025, [77, 69], none, 0, false, 0⟩
def nodeFar : Node := ⟨1027, [70, 65], none, 2500, true, 7⟩
def nodeLoop : Node := ⟨0, [76, 80], some ptpC, 0, false, 0⟩

def exDb : Db := ⟨[nodeMe, nodeFar, nodeLoop], [([77, 69], nodeMe), ([70, 65], nodeFar), ([76, 80], nodeLoop)]⟩

theorem exGood : exW.Good exDb where
  exec := by constructor <;> simp [exW, Address]
  execIn := ⟨nodeMe, by simp [exDb], rfl, rfl⟩
  address := by
    intro n hn
    simp only [exDb, List.mem_cons, List.not_mem_nil, or_false] at hn
    rcases hn with rfl | rfl | rfl <;> simp [Address, nodeMe, nodeFar, nodeLoop]
  loop := by
    intro n hn hl
    simp only [exDb, List.mem_cons, List.not_mem_nil, or_false] at hn
    rcases hn with rfl | rfl | rfl
    · simp [nodeMe] at hl
    · simp [nodeFar] at hl
    · rfl
  unique := by
    intro n hn m hm hl hl' e
    simp only [exDb, List.mem_cons, List.not_mem_nil, or_false] at hn hm
    rcases hn with rfl | rfl | rfl <;> rcases hm with rfl | rfl | rfl <;> simp_all [nodeMe, nodeFar, nodeLoop]
  named := by
    intro p hp
    simp only [exDb, List.mem_cons, List.not_mem_nil, or_false] at hp ⊢
    rcases hp with rfl | rfl | rfl <;> simp
  ptp := by
    intro name id ph ty h
    simp only [exW, List.mem_cons, Prod.mk.injEq, reduceCtorEq, and_false, Circ.ptp.injEq, List.not_mem_nil, or_false,
      false_or] at h
    obtain ⟨_, _, rfl, _⟩ := h
    simp [Address]
  lan := by
    intro name adjs cost h a ha
    simp only [exW, List.mem_cons, Prod.mk.injEq, reduceCtorEq, and_false, Circ.lan.injEq, List.not_mem_nil, or_false] at h
    obtain ⟨_, rfl, _⟩ := h
    simp only [List.mem_cons, List.not_mem_nil, or_false] at ha
    rcases ha with rfl | rfl <;> simp [Address]
  size := by simp [exW]
  hop := by
    intro i a h
    simp only [exW] at h
    split at h
    · simp at h
    · split at h
      · simp only [Option.some.injEq, Hop.via.injEq] at h
        subst h
        simp [hopLan, Address]
      · simp at h
  areaHop := by
    intro i a h
    simp only [exW] at h
    split at h
    · simp at h
    · split at h
      · simp only [Option.some.injEq, Hop.via.injEq] at h
        subst h
        simp [hopPtp, Address]
      · simp at h
  here := by
    intro i h1 h2
    simp only [exW] at h2 ⊢
    constructor
    · intro h
      split at h
      · assumption
      · split at h <;> simp at h
    · rintro rfl; rfl

theorem exRouter : exW.Router := .inr rfl

/-- With a second loop node. -/
def exDb2 : Db := ⟨[nodeMe, nodeLoop, ⟨0, [76, 81], some lanC, 0, false, 0⟩], []⟩

theorem exGood2 : exW.Good exDb2 where
  exec := exGood.exec
  execIn := ⟨nodeMe, by simp [exDb2], rfl, rfl⟩
  address := by
    intro n hn
    simp only [exDb2, List.mem_cons, List.not_mem_nil, or_false] at hn
    rcases hn with rfl | rfl | rfl <;> simp [Address, nodeMe, nodeLoop]
  loop := by
    intro n hn hl
    simp only [exDb2, List.mem_cons, List.not_mem_nil, or_false] at hn
    rcases hn with rfl | rfl | rfl
    · simp [nodeMe] at hl
    · rfl
    · rfl
  unique := by
    intro n hn m hm hl hl' e
    simp only [exDb2, List.mem_cons, List.not_mem_nil, or_false] at hn hm
    rcases hn with rfl | rfl | rfl <;> rcases hm with rfl | rfl | rfl <;> simp_all [nodeMe, nodeLoop]
  named := by simp [exDb2]
  ptp := exGood.ptp
  lan := exGood.lan
  size := exGood.size
  hop := exGood.hop
  areaHop := exGood.areaHop
  here := exGood.here

/-- An end node with the same address and node database and one circuit, to 1.2. -/
def exEnd : World :=
  { exW with kind := .endnode, maxnodes := 0, oadj := fun _ => none, circuits := [(ptpC, .ptp true 1026 4 2)] }

theorem exEndGood : exEnd.Good exDb where
  exec := exGood.exec
  execIn := exGood.execIn
  address := exGood.address
  loop := exGood.loop
  unique := exGood.unique
  named := exGood.named
  ptp := by
    intro name id ph ty h
    simp only [exEnd, List.mem_cons, Prod.mk.injEq, Circ.ptp.injEq, List.not_mem_nil, or_false] at h
    obtain ⟨_, _, rfl, _⟩ := h
    simp [Address]
  lan := by
    intro name adjs cost h
    simp [exEnd] at h
  size := by simp [exEnd]
  hop := by simp [exEnd]
  areaHop := exGood.areaHop
  here := by
    intro i h1 h2
    simp only [exEnd] at h2
    omega

/-- The same as a Phase II node. -/
def exTwo : World := { exEnd with kind := .phase2 }

theorem exTwoGood : exTwo.Good exDb :=
  ⟨exEndGood.exec, exEndGood.execIn, exEndGood.address, exEndGood.loop, exEndGood.unique, exEndGood.named, exEndGood.ptp,
    exEndGood.lan, exEndGood.size, exEndGood.hop, exEndGood.areaHop, exEndGood.here⟩

end Verif.NiceRead
