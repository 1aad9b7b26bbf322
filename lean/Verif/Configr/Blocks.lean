import Verif.Configr.Lemmas

/-!
# The replies of one circuit
-/

namespace Verif.Configr

open Nice (Simple Val Item)

/-- The parameters from 120 on. -/
def Rec.rest (r : Rec) : List Item :=
  opt 120 (fun v => .one (.hi v)) r.addr
  ++ (opt 130 (fun t => .many [du1 t.mday, c1 t.mon, du1 t.hour, du1 t.min, du1 t.sec]) r.report
  ++ (opt 1001 (fun v => .many (v.map fun b => du1 b.toNat)) r.version
  ++ (opt 1002 (fun l => .many (l.map fun (n : Nat) => c1 n)) r.functions
  ++ (opt 1003 (fun v => .one (.hi v)) r.user
  ++ (opt 1004 (fun v => .one (.num .du 2 (v : Nat))) r.resTimer
  ++ (opt 1005 (fun v => .one (.num .du 2 (v : Nat))) r.cmdSize
  ++ (opt 1006 (fun v => .one (.num .du 2 (v : Nat))) r.respSize
  ++ (opt 1007 (fun v => .one (.hi v)) r.hwaddr
  ++ (opt 1100 (fun v => .one (c1 (v : Nat))) r.device
  ++ (opt 1200 (fun v => .many (softVal v)) r.ident
  ++ (opt 1300 (fun v => .one (c1 (v : Nat))) r.processor
  ++ (opt 1400 (fun v => .one (c1 (v : Nat))) r.datalink
  ++ opt 1401 (fun v => .one (.num .du 2 (v : Nat))) r.bufsize))))))))))))

theorem params_eq (r : Rec) : r.params = Item.par 100 (.one (.ai r.circuit)) ::
    (opt 110 (fun v => .one (c1 (v : Nat))) r.surveillance
    ++ (opt 111 (fun v => .many [.num .du 2 v.1, du1 v.2.1, du1 v.2.2]) r.elapsed ++ r.rest)) := by
  unfold Rec.params Rec.rest
  simp only [List.append_assoc, List.cons_append, List.nil_append]

theorem opt_noaddr {α : Type} {p : Nat} {f : α → Val} {x : Option α} (h : p ≠ 120) : addrOf (opt p f x) = none := by
  cases x with
  | none => rfl
  | some a =>
    unfold addrOf opt
    rw [List.findSome?_cons]
    split
    · next b hb =>
      split at hb
      · next e => injection e with e; exact absurd e h
      · cases hb
    · rfl

theorem addrOf_append (a b : List Item) : addrOf (a ++ b) = (addrOf a).or (addrOf b) := List.findSome?_append

theorem addrOf_params (r : Rec) : addrOf r.params = r.addr := by
  have h0 : ∀ (s : Str) (l : List Item), addrOf (Item.par 100 (.one (.ai s)) :: l) = addrOf l := fun _ _ => rfl
  have h1 : addrOf (opt 120 (fun v => .one (.hi v)) r.addr) = r.addr := by cases r.addr <;> rfl
  rw [params_eq, h0]
  unfold Rec.rest
  simp only [addrOf_append, h1]
  simp (discharger := decide) only [opt_noaddr]
  cases r.addr <;> rfl

/-- A reply without, and with, the parameters of the circuit. -/
theorem mark_mem (r : Rec) (e : Int × Int × Int) (h1 : r.surveillance = none) (h2 : r.elapsed = none) (p : Nat) (v : Val) :
    Item.par p v ∈ ({ r with surveillance := some 0, elapsed := some e } : Rec).params ↔
      (p = 110 ∧ v = .one (.num .c 1 0)) ∨
      (p = 111 ∧ v = .many [.num .du 2 e.1, .num .du 1 e.2.1, .num .du 1 e.2.2]) ∨ Item.par p v ∈ r.params := by
  have hr : ({ r with surveillance := some 0, elapsed := some e } : Rec).rest = r.rest := rfl
  rw [params_eq, params_eq r, hr, h1, h2]
  simp only [List.mem_cons, List.mem_append, mem_opt, Item.par.injEq, c1, du1]
  constructor
  · rintro (h | ⟨h, a, ha, hv⟩ | ⟨h, a, ha, hv⟩ | h)
    · exact Or.inr (Or.inr (Or.inl h))
    · injection ha with ha; subst ha; exact Or.inl ⟨h, hv⟩
    · injection ha with ha; subst ha; exact Or.inr (Or.inl ⟨h, hv⟩)
    · exact Or.inr (Or.inr (Or.inr (Or.inr (Or.inr h))))
  · rintro (⟨h, hv⟩ | ⟨h, hv⟩ | h | ⟨_, a, ha, _⟩ | ⟨_, a, ha, _⟩ | h)
    · exact Or.inr (Or.inl ⟨h, 0, rfl, hv⟩)
    · exact Or.inr (Or.inr (Or.inl ⟨h, e, rfl, hv⟩))
    · exact Or.inl h
    · cases ha
    · cases ha
    · exact Or.inr (Or.inr (Or.inr h))

theorem hms_spec (ms : Int) : 0 ≤ (hms ms).2.1 ∧ (hms ms).2.1 < 60 ∧ 0 ≤ (hms ms).2.2 ∧ (hms ms).2.2 < 60 ∧
    (hms ms).1 * 3600 + (hms ms).2.1 * 60 + (hms ms).2.2 = ms / 1000 := by
  unfold hms
  refine ⟨?_, ?_, ?_, ?_, ?_⟩ <;> simp only <;> omega

theorem circuit_summary (tm : Int → Tm) (now : Int) (c : Circ) :
    circuit tm false now c = circuit tm true now { c with heard := [] } := rfl

theorem says_not (tm : Int → Tm) (c : Circ) (k : Bytes) (m : MopId.SysId) (t : Int) (p : Nat) (v : Val)
    (h : Says tm c k m t p v) : p ≠ 110 ∧ p ≠ 111 := by
  cases h <;> decide

theorem block (tm : Int → Tm) (now : Int) (c : Circ) (hg : Good c) :
    Block tm now c ((circuit tm true now c).map Rec.params) := by
  have hp := hms_spec (now - c.start)
  cases hs : sorted c.heard with
  | nil =>
    have hnil : c.heard = [] := by
      have := sorted_perm c.heard
      rw [hs] at this
      exact this.nil_eq.symm
    have hc : circuit tm true now c =
        [{ ({ circuit := c.name } : Rec) with surveillance := some 0, elapsed := some (hms (now - c.start)) }] := by
      unfold circuit; rw [hs]; rfl
    have hm := mark_mem { circuit := c.name } (hms (now - c.start)) rfl rfl
    rw [hc]
    have h0 : ∀ p v, Item.par p v ∈ ({ circuit := c.name } : Rec).params ↔ p = 100 ∧ v = .one (.ai c.name) := by
      intro p v; simp [Rec.params, opt]
    simp only [h0] at hm
    refine ⟨⟨_, [], _, _, _, rfl, ?_, ?_, hp.1, hp.2.1, hp.2.2.1, hp.2.2.2.1, hp.2.2.2.2, by simp⟩, ?_, ?_, ?_⟩
    · intro v; rw [hm]; simp
    · intro v; rw [hm]; simp
    · simp [addrOf_params, hnil]
    · intro k m t h; rw [hnil] at h; cases h
    · intro d hd
      simp only [List.map_cons, List.map_nil, List.mem_singleton] at hd
      subst hd
      refine ⟨?_, fun h => absurd hnil h, fun _ => rfl⟩
      rw [hm]; simp
  | cons x xs =>
    have hc : circuit tm true now c =
        { station tm c x with surveillance := some 0, elapsed := some (hms (now - c.start)) } ::
          xs.map (station tm c) := by
      unfold circuit; rw [if_pos rfl, hs]; rfl
    have hmem : ∀ y, y ∈ x :: xs ↔ y ∈ c.heard := fun y => by rw [← hs]; exact (sorted_perm _).mem_iff
    have hst : ∀ y ∈ x :: xs, ∀ p v, Item.par p v ∈ (station tm c y).params ↔ Says tm c y.1 y.2.1 y.2.2 p v :=
      fun y hy p v => station_says tm c y.1 y.2.1 y.2.2 (hg.sized y ((hmem y).mp hy)) p v
    have hm := mark_mem (station tm c x) (hms (now - c.start)) rfl rfl
    have hx := hst x (by simp)
    have ha : ((circuit tm true now c).map Rec.params).filterMap addrOf = (sorted c.heard).map (·.1) := by
      rw [hc, hs]
      simp only [List.map_cons, List.filterMap_cons, addrOf_params]
      show x.1 :: _ = _
      congr 1
      rw [List.map_map, List.filterMap_map]
      have : ∀ l : List Heard, l.filterMap (addrOf ∘ (Rec.params ∘ station tm c)) = l.map (·.1) := by
        intro l
        induction l with
        | nil => rfl
        | cons y r ih =>
          rw [List.filterMap_cons, ih]
          simp only [Function.comp_apply, addrOf_params]
          rfl
      exact this xs
    refine ⟨?_, ?_, ?_, ?_⟩
    · rw [hc]
      refine ⟨_, _, _, _, _, rfl, ?_, ?_, hp.1, hp.2.1, hp.2.2.1, hp.2.2.2.1, hp.2.2.2.2, ?_⟩
      · intro v; rw [hm]
        constructor
        · rintro (h | h | h)
          · exact h.2
          · exact absurd h.1 (by decide)
          · exact absurd rfl (says_not _ _ _ _ _ _ _ ((hx _ _).mp h)).1
        · exact fun h => Or.inl ⟨rfl, h⟩
      · intro v; rw [hm]
        constructor
        · rintro (h | h | h)
          · exact absurd h.1 (by decide)
          · exact h.2
          · exact absurd rfl (says_not _ _ _ _ _ _ _ ((hx _ _).mp h)).2
        · exact fun h => Or.inr (Or.inl ⟨rfl, h⟩)
      · intro d hd v
        rw [List.map_map, List.mem_map] at hd
        obtain ⟨y, hy, rfl⟩ := hd
        have := hst y (List.mem_cons_of_mem _ hy)
        exact ⟨fun h => (says_not _ _ _ _ _ _ _ ((this _ _).mp h)).1 rfl,
          fun h => (says_not _ _ _ _ _ _ _ ((this _ _).mp h)).2 rfl⟩
    · rw [ha]
      refine ⟨sorted_less _ hg.keys hg.addr, fun k => ?_⟩
      rw [List.mem_map]
      constructor
      · rintro ⟨⟨k', m, t⟩, h, rfl⟩; exact ⟨m, t, (sorted_perm _).mem_iff.mp h⟩
      · rintro ⟨m, t, h⟩; exact ⟨(k, m, t), (sorted_perm _).mem_iff.mpr h, rfl⟩
    · intro k m t h
      rcases List.mem_cons.mp ((hmem _).mpr h) with h' | h'
      · subst h'
        refine ⟨_, by rw [hc, List.map_cons]; exact List.mem_cons_self, fun p v h1 h2 => ?_⟩
        rw [hm, hx]
        constructor
        · rintro (h | h | h)
          · exact absurd h.1 h1
          · exact absurd h.1 h2
          · exact h
        · exact fun h => Or.inr (Or.inr h)
      · refine ⟨(station tm c (k, m, t)).params, ?_, fun p v _ _ => hst _ (List.mem_cons_of_mem _ h') p v⟩
        rw [hc, List.map_cons, List.map_map]
        exact List.mem_cons_of_mem _ (List.mem_map.mpr ⟨_, h', rfl⟩)
    · intro d hd
      have hne : c.heard ≠ [] := fun e => by have := (hmem x).mp (by simp); rw [e] at this; cases this
      refine ⟨?_, fun _ => ?_, fun e => absurd e hne⟩
      · rw [hc, List.map_cons, List.mem_cons, List.map_map, List.mem_map] at hd
        rcases hd with rfl | ⟨y, hy, rfl⟩
        · rw [hm, hx]; exact Or.inr (Or.inr .circuit)
        · exact (hst y (List.mem_cons_of_mem _ hy) _ _).mpr .circuit
      · rw [hc, List.map_cons, List.mem_cons, List.map_map, List.mem_map] at hd
        rcases hd with rfl | ⟨y, hy, rfl⟩
        · exact ⟨x.1, addrOf_params _⟩
        · exact ⟨y.1, addrOf_params _⟩

end Verif.Configr
