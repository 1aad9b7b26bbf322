import Verif.RUpdate.Lemmas

/-!
# The update process over time, and what the neighbours hear
-/
namespace Verif.RUpdate

open Verif.RoutMsg (Vectors learned)

/-- What a router that receives this extracts (see `RoutMsg.vectors_survive` and
`RoutMsg.vectors_survive_ph3`): id, hops and cost, over a circuit of cost `cc`. -/
def heard (cc : Nat) : Sent → List (Nat × Nat × Nat)
  | .ph4 pkts => pkts.flatMap (learned cc)
  | .ph3 v => v.mapIdx fun j hc => (1 + j, hc.1 + 1, hc.2 + cc)

/-- What a neighbour knows from this router. -/
abbrev View := Nat → Option (Nat × Nat)

def View.set (w : View) (e : Nat × Nat × Nat) : View := fun j => if j = e.1 then some e.2 else w j

def View.hear (w : View) (l : List (Nat × Nat × Nat)) : View := l.foldl View.set w

/-- The update process, and the routers that listen to it since their adjacency came up. -/
structure Net where
  s : St
  view : Nat → Option View

/-- Events. -/
inductive Ev
  /-- Time passes. -/
  | tick (d : Nat)
  /-- The decision process sets an entry (routing.py:999-1001). -/
  | entry (i : Nat) (v : Nat × Nat)
  /-- `setsrm` without a change (routing.py:1450). -/
  | touch (i : Nat)
  /-- A point to point circuit is restarted (route_ptp.py:380-387). -/
  | restart
  /-- The init message of the neighbour of a point to point circuit. -/
  | init (nt : NType) (sameArea ph3 : Bool) (blk : Nat)
  /-- The block size for routers of a LAN changes (route_eth.py:762-768). -/
  | blk (n : Nat)
  /-- The adjacency of a router comes up (routing.py:885, 1392). -/
  | up (k : Nat)
  | down (k : Nat)
  /-- The timer expires. -/
  | fire

/-- One event; `none` is an exception. -/
def step (t1 cc : Nat) (n : Net) : Ev → Option Net
  | .tick d => some { n with s := { n.s with now := n.s.now + d } }
  | .entry i v =>
    if n.s.t i = v then some n
    else some { n with s := setsrm i i { n.s with t := fun j => if j = i then v else n.s.t j } }
  | .touch i => some { n with s := setsrm i i n.s }
  | .restart =>
    some { s := { n.s with c := { n.s.c with ntype := .unknown, blk := 576 } }, view := fun _ => none }
  | .init nt a p b =>
    some { n with s := { n.s with c := { n.s.c with ntype := nt, sameArea := a, ph3 := p, blk := min b 576 } } }
  | .blk b => some { n with s := { n.s with c := { n.s.c with blk := b } } }
  | .up k =>
    if want n.s.c = .no then some n
    else some { s := setsrm (lowid n.s.c) (n.s.len - 1) n.s
                view := fun j => if j = k then some (fun _ => none) else n.view j }
  | .down k => some { n with view := fun j => if j = k then none else n.view j }
  | .fire =>
    match timeout t1 n.s with
    | none => none
    | some (s', none) => some { n with s := s' }
    | some (s', some m) => some { s := s', view := fun k => (n.view k).map fun w => w.hear (heard cc m) }

/-- Events as they can occur: time passes up to the expiry of the timer; entries are those of the
table; point to point circuits restart, and learn the type of the neighbour when they do not
know it yet, with a block size of at least 16; LAN circuits change block size. -/
def Valid (n : Net) : Ev → Prop
  | .tick d => ∀ x, n.s.timer = some x → n.s.now + d ≤ x
  | .entry i _ => lowid n.s.c ≤ i ∧ i < n.s.len
  | .touch i => lowid n.s.c ≤ i ∧ i < n.s.len
  | .restart => n.s.c.lan = false
  | .init _ _ _ b => n.s.c.lan = false ∧ n.s.c.ntype = .unknown ∧ 16 ≤ b
  | .blk b => n.s.c.lan = true ∧ 16 ≤ b
  | _ => True

/-- Any number of events. -/
inductive Steps (t1 cc : Nat) : Net → List Ev → Net → Prop
  | nil (n) : Steps t1 cc n [] n
  | cons {n m r e es} : Valid n e → step t1 cc n e = some m → Steps t1 cc m es r → Steps t1 cc n (e :: es) r

/-- Start: routing.py:1550-1563. -/
def start (t1 : Nat) (c : Circ) (t : Table) (len now : Nat) : Net :=
  ⟨⟨c, t, len, fun _ => false, false, false, some (now + t1), 0, 0, now, 0⟩, fun _ => none⟩

/-- What a neighbour should know about `j`. -/
def current (cc : Nat) (s : St) (j : Nat) : Nat × Nat := ((s.t j).1 + 1, (s.t j).2 + cc)

/-- First id that is sent. -/
def first (c : Circ) : Nat := if want c = .ph3 then 1 else lowid c

structure Inv1 (cc : Nat) (n : Net) : Prop where
  len : lowid n.s.c < n.s.len
  blk : 16 ≤ n.s.c.blk
  /-- Only neighbours who want it. -/
  wants : ∀ k w, n.view k = some w → want n.s.c ≠ .no
  /-- What is not flagged is known. -/
  known : ∀ k w, n.view k = some w → ∀ j, first n.s.c ≤ j → j < n.s.len → n.s.srm j = false →
    w j = some (current cc n.s j)
  /-- Something flagged when `anysrm` is set. -/
  any : n.s.anysrm = true → ∃ j, lowid n.s.c ≤ j ∧ j < n.s.len ∧ n.s.srm j = true
  /-- The timer runs when something is to be told. -/
  armed : ∀ k w, n.view k = some w → (∃ j, first n.s.c ≤ j ∧ j < n.s.len ∧ n.s.srm j = true) → n.s.holdoff = true
  soon : n.s.holdoff = true → ∃ d, n.s.timer = some d ∧ n.s.now ≤ d ∧ d ≤ n.s.now + T2

/-! ## Lemmas -/

theorem hear_spec (f : Nat → Nat × Nat) (l : List (Nat × Nat × Nat)) (h : ∀ e ∈ l, e.2 = f e.1) (w : View) (j : Nat) :
    ((∃ e ∈ l, e.1 = j) → w.hear l j = some (f j)) ∧ ((∀ e ∈ l, e.1 ≠ j) → w.hear l j = w j) := by
  induction l generalizing w with
  | nil => exact ⟨fun ⟨e, he, _⟩ => absurd he (by simp), fun _ => rfl⟩
  | cons a l ih =>
    have ih' := ih (fun e he => h e (by simp [he])) (w.set a)
    have ea := h a (by simp)
    by_cases hl : ∃ e ∈ l, e.1 = j
    · refine ⟨fun _ => ih'.1 hl, fun hn => ?_⟩
      obtain ⟨e, he, hj⟩ := hl
      exact absurd hj (hn e (by simp [he]))
    · have e1 : (w.set a).hear l j = (w.set a) j := ih'.2 (fun e he hj => hl ⟨e, he, hj⟩)
      constructor
      · rintro ⟨e, he, hj⟩
        rcases List.mem_cons.1 he with rfl | he
        · show (w.set e).hear l j = _
          rw [e1]
          unfold View.set
          rw [if_pos hj.symm, ea, hj]
        · exact absurd ⟨e, he, hj⟩ hl
      · intro hn
        show (w.set a).hear l j = _
        rw [e1]
        unfold View.set
        rw [if_neg (fun hj => hn a (by simp) hj.symm)]

theorem mem_learned {cc : Nat} {v : Vectors} {e : Nat × Nat × Nat} :
    e ∈ learned cc v ↔ ∃ x ∈ v, ∃ j, ∃ h : j < x.2.length, e = (x.1 + j, (x.2[j]).1 + 1, (x.2[j]).2 + cc) := by
  unfold learned
  rw [List.mem_flatMap]
  constructor
  · rintro ⟨x, hx, he⟩
    rw [List.mem_mapIdx] at he
    obtain ⟨j, hj, rfl⟩ := he
    exact ⟨x, hx, j, hj, rfl⟩
  · rintro ⟨x, hx, j, hj, rfl⟩
    refine ⟨x, hx, ?_⟩
    rw [List.mem_mapIdx]
    exact ⟨j, hj, rfl⟩

theorem mem_rotate {α : Type} {k : Nat} {l : List α} {a : α} : a ∈ rotate k l ↔ a ∈ l := by
  unfold rotate
  rw [List.mem_append, Or.comm, ← List.mem_append, List.take_append_drop]

theorem Reports.get {t : Table} {lo hi : Nat} {x : Nat × List (Nat × Nat)} (h : Reports t lo hi x) (j : Nat)
    (hj : j < x.2.length) : x.2[j] = t (x.1 + j) := by
  have e : x.2[j] = ((List.range' x.1 x.2.length).map t)[j]'(by simpa using hj) := by
    congr 1
    exact h.val
  rw [e]
  simp

/-- Everything heard is the current table, from the first id, and everything flagged is heard. -/
structure Tells (cc : Nat) (s : St) (flag : Nat → Bool) (m : Sent) : Prop where
  cur : ∀ e ∈ heard cc m, e.2 = current cc s e.1 ∧ first s.c ≤ e.1 ∧ e.1 < s.len
  all : ∀ j, first s.c ≤ j → j < s.len → flag j = true → ∃ e ∈ heard cc m, e.1 = j

theorem tells4 {cc : Nat} {s : St} {flag : Nat → Bool} {pkts : List Vectors} {k : Nat} (hw : want s.c = .ph4)
    (h1 : ∀ x ∈ pkts.flatten, Reports s.t (lowid s.c) s.len x)
    (h2 : ∀ j, lowid s.c ≤ j → j < s.len → flag j = true → ∃ x ∈ pkts.flatten, x.1 ≤ j ∧ j < x.1 + x.2.length) :
    Tells cc s flag (.ph4 (rotate k pkts)) := by
  have hf : first s.c = lowid s.c := by unfold first; rw [hw]; simp
  constructor
  · intro e he
    obtain ⟨v, hv, he⟩ := List.mem_flatMap.1 he
    obtain ⟨x, hx, j, hj, rfl⟩ := mem_learned.1 he
    have hr := h1 x (List.mem_flatten.2 ⟨v, mem_rotate.1 hv, hx⟩)
    rw [hr.get j hj]
    have a := hr.lo
    have b := hr.hi
    refine ⟨rfl, ?_, ?_⟩
    · rw [hf]; show _ ≤ x.1 + j; omega
    · show x.1 + j < _; omega
  · intro j hj1 hj2 hfl
    rw [hf] at hj1
    obtain ⟨x, hx, hx1, hx2⟩ := h2 j hj1 hj2 hfl
    obtain ⟨v, hv, hxv⟩ := List.mem_flatten.1 hx
    refine ⟨_, List.mem_flatMap.2 ⟨v, mem_rotate.2 hv, mem_learned.2 ⟨x, hxv, j - x.1, by omega, rfl⟩⟩, ?_⟩
    show x.1 + (j - x.1) = j
    omega

theorem tells3 {cc : Nat} {s : St} {flag : Nat → Bool} (hw : want s.c = .ph3) :
    Tells cc s flag (.ph3 (build3 s.t s.len s.srm).1) := by
  have hf : first s.c = 1 := by unfold first; rw [hw]; simp
  constructor
  · intro e he
    unfold heard at he
    rw [List.mem_mapIdx] at he
    obtain ⟨j, hj, rfl⟩ := he
    simp [build3] at hj
    simp only [build3, List.getElem_map, List.getElem_range']
    rw [hf]
    refine ⟨?_, by omega, by omega⟩
    simp [current]
  · intro j hj1 hj2 _
    rw [hf] at hj1
    refine ⟨_, List.mem_mapIdx.2 ⟨j - 1, by simp [build3]; omega, rfl⟩, ?_⟩
    show 1 + (j - 1) = j
    omega

/-- What a timeout does, when a neighbour wants updates. -/
theorem timeout_spec (t1 cc : Nat) (s : St) (hlen : lowid s.c < s.len) (hblk : 16 ≤ s.c.blk)
    (hany : s.anysrm = true → ∃ j, lowid s.c ≤ j ∧ j < s.len ∧ s.srm j = true) (hw : want s.c ≠ .no) :
    ∃ s' m, timeout t1 s = some (s', some m) ∧ s'.c = s.c ∧ s'.t = s.t ∧ s'.len = s.len ∧ s'.now = s.now ∧
      s'.anysrm = false ∧ s'.holdoff = false ∧ (∃ d, s'.timer = some d ∧ d ≤ s.now + t1) ∧
      (∀ j, first s.c ≤ j → j < s.len → s'.srm j = false) ∧
      Tells cc s (fun j => !s.anysrm || s.srm j) m := by
  have hd : (if s.anysrm = true then min (s.now - s.lastfull) t1 else t1) ≤ t1 := by split <;> omega
  cases hwc : want s.c with
  | no => exact absurd hwc hw
  | ph4 =>
    have hex : ∃ j, lowid s.c ≤ j ∧ j < s.len ∧ (!s.anysrm || s.srm j) = true := by
      cases ha : s.anysrm with
      | true =>
        obtain ⟨j, h1, h2, h3⟩ := hany ha
        exact ⟨j, h1, h2, by simp [h3]⟩
      | false => exact ⟨lowid s.c, Nat.le_refl _, hlen, by simp⟩
    obtain ⟨pkts, srm, e, h1, _, h3, _, h5⟩ := build_spec (!s.anysrm) s.t s.c.blk (lowid s.c) s.len s.srm hblk hex
    refine ⟨{ s with
        srm := srm, anysrm := false, holdoff := false, startpos := s.startpos + 1, lastupdate := s.now
        lastfull := if s.anysrm = true then s.lastfull else s.now
        timer := some (s.now + if s.anysrm = true then min (s.now - s.lastfull) t1 else t1) }, .ph4 (rotate (s.startpos + 1) pkts), ?_, rfl, rfl, rfl, rfl, rfl, rfl, ?_, ?_, tells4 hwc h1 h3⟩
    · unfold timeout
      simp only [hwc, e]
      rfl
    · exact ⟨_, rfl, by omega⟩
    · intro j hj1 hj2
      have hf : first s.c = lowid s.c := by unfold first; rw [hwc]; simp
      rw [hf] at hj1
      show srm j = false
      rw [h5 j, if_pos ⟨hj1, hj2⟩]
  | ph3 =>
    refine ⟨{ s with
        srm := (build3 s.t s.len s.srm).2, anysrm := false, holdoff := false, startpos := s.startpos + 1, lastupdate := s.now
        lastfull := if s.anysrm = true then s.lastfull else s.now
        timer := some (s.now + if s.anysrm = true then min (s.now - s.lastfull) t1 else t1) }, .ph3 (build3 s.t s.len s.srm).1, ?_, rfl, rfl, rfl, rfl, rfl, rfl, ?_, ?_, tells3 hwc⟩
    · unfold timeout
      simp only [hwc]
      rfl
    · exact ⟨_, rfl, by omega⟩
    · intro j hj1 hj2
      have hf : first s.c = 1 := by unfold first; rw [hwc]; simp
      rw [hf] at hj1
      show (build3 s.t s.len s.srm).2 j = false
      simp [build3, hj1, hj2]

theorem setsrm_fields (a b : Nat) (s : St) :
    (setsrm a b s).c = s.c ∧ (setsrm a b s).t = s.t ∧ (setsrm a b s).len = s.len ∧ (setsrm a b s).now = s.now := by
  unfold setsrm updateSoon
  split
  · simp only; split <;> exact ⟨rfl, rfl, rfl, rfl⟩
  · exact ⟨rfl, rfl, rfl, rfl⟩

theorem setsrm_on (a b : Nat) (s : St) (h : s.c.ntype ≠ .endnode ∧ s.c.ntype ≠ .phase2) :
    (∀ j, (setsrm a b s).srm j = if a ≤ j ∧ j ≤ (if b = 0 then a else b) then true else s.srm j) ∧
    (setsrm a b s).anysrm = true ∧ (setsrm a b s).holdoff = true ∧
    ((s.holdoff = true → ∃ d, s.timer = some d ∧ s.now ≤ d ∧ d ≤ s.now + T2) →
      ∃ d, (setsrm a b s).timer = some d ∧ s.now ≤ d ∧ d ≤ s.now + T2) ∧
    (s.holdoff = true → (setsrm a b s).timer = s.timer) := by
  unfold setsrm updateSoon
  rw [if_pos h]
  simp only
  cases hh : s.holdoff with
  | true =>
    rw [if_pos rfl]
    exact ⟨fun _ => rfl, rfl, by simpa using hh, fun h => h rfl, fun _ => rfl⟩
  | false =>
    rw [if_neg (by simp)]
    exact ⟨fun _ => rfl, rfl, rfl, fun _ => ⟨_, rfl, by omega, by omega⟩, fun h => by cases h⟩

theorem setsrm_off (a b : Nat) (s : St) (h : ¬ (s.c.ntype ≠ .endnode ∧ s.c.ntype ≠ .phase2)) : setsrm a b s = s := by
  unfold setsrm; rw [if_neg h]

theorem want_no {c : Circ} (h : ¬ (c.ntype ≠ .endnode ∧ c.ntype ≠ .phase2)) : want c = .no := by
  unfold want
  rw [if_pos]
  by_cases h1 : c.ntype = .endnode
  · exact Or.inr (Or.inl h1)
  · right; right
    by_cases h2 : c.ntype = .phase2
    · exact h2
    · exact absurd ⟨h1, h2⟩ h

/-- Setting flags, perhaps after a change of the entries flagged. -/
theorem Inv1.setsrm {cc : Nat} {n : Net} (h : Inv1 cc n) (a b : Nat) (t' : Table) (view' : Nat → Option View)
    (hab : lowid n.s.c ≤ a ∧ a ≤ b ∧ b < n.s.len)
    (ht : ∀ j, (j < a ∨ b < j) → t' j = n.s.t j)
    (hv : ∀ k w, view' k = some w → want n.s.c ≠ .no ∧
      (n.view k = some w ∨ (a = lowid n.s.c ∧ b = n.s.len - 1))) :
    Inv1 cc ⟨RUpdate.setsrm a b { n.s with t := t' }, view'⟩ := by
  obtain ⟨f1, f2, f3, f4⟩ := setsrm_fields a b { n.s with t := t' }
  have hb : (if b = 0 then a else b) = b := by split <;> omega
  by_cases hn : n.s.c.ntype ≠ .endnode ∧ n.s.c.ntype ≠ .phase2
  · obtain ⟨g1, g2, g3, g4, _⟩ := setsrm_on a b { n.s with t := t' } hn
    rw [hb] at g1
    refine ⟨?_, ?_, ?_, ?_, ?_, ?_, ?_⟩
    · show lowid (RUpdate.setsrm a b _).c < (RUpdate.setsrm a b _).len
      rw [f1, f3]; exact h.len
    · show 16 ≤ (RUpdate.setsrm a b _).c.blk
      rw [f1]; exact h.blk
    · intro k w hk
      show want (RUpdate.setsrm a b _).c ≠ .no
      rw [f1]; exact (hv k w hk).1
    · intro k w hk j
      show first (RUpdate.setsrm a b _).c ≤ j → j < (RUpdate.setsrm a b _).len → _ → _ = some (current cc (RUpdate.setsrm a b _) j)
      rw [f1, f3]
      intro h1 h2 h3
      have h3' : (RUpdate.setsrm a b { n.s with t := t' }).srm j = false := h3
      rw [g1 j] at h3'
      by_cases hin : a ≤ j ∧ j ≤ b
      · rw [if_pos hin] at h3'; cases h3'
      · rw [if_neg hin] at h3'
        rcases (hv k w hk).2 with hk' | ⟨e1, e2⟩
        · rw [h.known k w hk' j h1 h2 h3']
          unfold current
          rw [f2]
          show _ = some ((t' j).1 + 1, (t' j).2 + cc)
          rw [ht j (by omega)]
        · exfalso
          have hle : lowid n.s.c ≤ first n.s.c := by unfold first lowid; split <;> split <;> omega
          have h1' : first n.s.c ≤ j := h1
          have h2' : j < n.s.len := h2
          omega
    · intro _
      refine ⟨a, ?_, ?_, ?_⟩
      · show lowid (RUpdate.setsrm a b _).c ≤ a
        rw [f1]; exact hab.1
      · show a < (RUpdate.setsrm a b _).len
        rw [f3]; show a < n.s.len; omega
      · show (RUpdate.setsrm a b { n.s with t := t' }).srm a = true
        rw [g1 a, if_pos (by omega)]
    · intro _ _ _ _; exact g3
    · intro _
      obtain ⟨d, h1, h2, h3⟩ := g4 h.soon
      refine ⟨d, h1, ?_, ?_⟩
      · show (RUpdate.setsrm a b _).now ≤ d; rw [f4]; exact h2
      · show d ≤ (RUpdate.setsrm a b _).now + T2; rw [f4]; exact h3
  · rw [setsrm_off a b { n.s with t := t' } hn]
    have hno := want_no hn
    have novw : ∀ k w, view' k ≠ some w := fun k w hk => (hv k w hk).1 hno
    exact ⟨h.len, h.blk, fun k w hk => absurd hk (novw k w), fun k w hk => absurd hk (novw k w), h.any,
      fun k w hk => absurd hk (novw k w), h.soon⟩

end Verif.RUpdate
