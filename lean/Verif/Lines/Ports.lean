import Verif.Lines.Spec

/-!
# C133: the counters of a LAN are those of its ports
-/

namespace Verif.Lines

/-- Keys are different; the primary protocol type of every port leads to it. -/
structure Inv (s : Ports) : Prop where
  nodup : (s.table.map (·.1)).Nodup
  prim : ∀ i p n, s.made[i]? = some p → p.proto = some n → (Key.proto n, i) ∈ s.table
  range : ∀ x ∈ s.table, x.2 < s.made.length

theorem named_ctrs (p : Port) (k : Key) : (p.named k).ctrs = p.ctrs := by
  cases k with
  | proto n => show (if _ then _ else _ : Port).ctrs = _; split <;> rfl
  | sap n => rfl

theorem named_proto (p : Port) (k : Key) (n : Nat) (h : (p.named k).proto = some n) :
    p.proto = some n ∨ k = .proto n := by
  cases k with
  | proto m =>
    change (if _ then _ else _ : Port).proto = _ at h
    split at h
    · injection h with h; subst h; exact Or.inr rfl
    · exact Or.inl h
  | sap m => exact Or.inl h

theorem inv_step (s : Ports) (op : Op) (h : Inv s) : Inv (s.step op) := by
  cases op with
  | create k =>
    show Inv (if _ then _ else _)
    split
    · exact h
    · next hk =>
      refine ⟨?_, ?_, ?_⟩
      · simp only [List.map_append, List.map_cons, List.map_nil]
        rw [List.nodup_append]
        refine ⟨h.nodup, by simp, ?_⟩
        intro a ha b hb
        simp only [List.mem_singleton] at hb
        subst hb
        rintro rfl
        exact hk ha
      · intro i p n hi hp
        simp only at hi ⊢
        by_cases hlt : i < s.made.length
        · rw [List.getElem?_append_left hlt] at hi
          exact List.mem_append_left _ (h.prim i p n hi hp)
        · rw [List.getElem?_append_right (Nat.le_of_not_lt hlt)] at hi
          have hz : i - s.made.length = 0 := by
            cases hz : i - s.made.length with
            | zero => rfl
            | succ m => rw [hz] at hi; simp at hi
          rw [hz] at hi
          simp only [List.getElem?_cons_zero, Option.some.injEq] at hi
          have hi' : i = s.made.length := by omega
          subst hi
          rcases named_proto _ _ _ hp with h1 | h1
          · cases h1
          · subst h1; subst hi'
            exact List.mem_append_right _ (by simp)
      · intro x hx
        simp only [List.mem_append, List.mem_singleton] at hx
        simp only [List.length_append, List.length_singleton]
        rcases hx with hx | rfl
        · have := h.range x hx; omega
        · simp
  | add i k =>
    show Inv (if _ then _ else _)
    split
    · exact h
    · next hk =>
      simp only [not_or] at hk
      refine ⟨?_, ?_, ?_⟩
      · simp only [List.map_append, List.map_cons, List.map_nil]
        rw [List.nodup_append]
        refine ⟨h.nodup, by simp, ?_⟩
        intro a ha b hb
        simp only [List.mem_singleton] at hb
        subst hb
        rintro rfl
        exact hk.1 ha
      · intro j p n hj hp
        simp only at hj ⊢
        rw [List.getElem?_modify] at hj
        cases hm : s.made[j]? with
        | none => rw [hm] at hj; simp at hj
        | some p0 =>
          rw [hm] at hj
          simp only [Option.map_eq_map, Option.map_some, Option.some.injEq] at hj
          by_cases hij : i = j
          · rw [if_pos hij] at hj
            subst hj
            rcases named_proto _ _ _ hp with h1 | h1
            · exact List.mem_append_left _ (h.prim j p0 n hm h1)
            · subst h1; subst hij; exact List.mem_append_right _ (by simp)
          · rw [if_neg hij] at hj
            subst hj
            exact List.mem_append_left _ (h.prim j _ n hm hp)
      · intro x hx
        simp only [List.mem_append, List.mem_singleton] at hx
        simp only [List.length_modify]
        rcases hx with hx | rfl
        · exact h.range x hx
        · exact Nat.lt_of_not_le hk.2
  | traffic i c =>
    refine ⟨h.nodup, ?_, ?_⟩
    · intro j p n hj hp
      change (s.made.modify i fun p => { p with ctrs := p.ctrs.add c })[j]? = some p at hj
      show _ ∈ s.table
      rw [List.getElem?_modify] at hj
      cases hm : s.made[j]? with
      | none => rw [hm] at hj; simp at hj
      | some p0 =>
        rw [hm] at hj
        simp only [Option.map_eq_map, Option.map_some, Option.some.injEq] at hj
        refine h.prim j p0 n hm ?_
        by_cases hij : i = j
        · rw [if_pos hij] at hj; subst hj; exact hp
        · rw [if_neg hij] at hj; subst hj; exact hp
    · intro x hx
      have := h.range x hx
      show x.2 < (s.made.modify i _).length
      rwa [List.length_modify]

theorem inv_reach {s : Ports} (h : Reach s) : Inv s := by
  obtain ⟨ops, rfl⟩ := h
  have : ∀ (ops : List Op) (s : Ports), Inv s → Inv (ops.foldl Ports.step s) := by
    intro ops
    induction ops with
    | nil => intro s h; exact h
    | cons o r ih => intro s h; exact ih _ (inv_step s o h)
  exact this ops _ ⟨by simp, by simp, by simp⟩

/-- The entry that counts for port `i`. -/
def primary (s : Ports) (x : Key × Nat) : Option Nat :=
  match s.made[x.2]? with
  | some p => if p.proto.map Key.proto = some x.1 then some x.2 else none
  | none => none

theorem combine_eq (s : Ports) (attr : Ctrs → Nat) : s.combine attr =
    ((s.table.filterMap (primary s)).map fun i => (s.made[i]?.map fun p => attr p.ctrs).getD 0).sum := by
  unfold Ports.combine
  induction s.table with
  | nil => rfl
  | cons x r ih =>
    rw [List.map_cons, List.sum_cons, ih, List.filterMap_cons]
    cases hm : s.made[x.2]? with
    | none => simp [primary, hm]
    | some p =>
      by_cases hp : p.proto.map Key.proto = some x.1
      · simp [primary, hm, hp]
      · simp [primary, hm, hp]

theorem primary_some {s : Ports} {x : Key × Nat} {i : Nat} (h : primary s x = some i) :
    x.2 = i ∧ ∃ p n, s.made[i]? = some p ∧ p.proto = some n ∧ x.1 = .proto n := by
  unfold primary at h
  cases hm : s.made[x.2]? with
  | none => rw [hm] at h; cases h
  | some p =>
    rw [hm] at h
    simp only at h
    split at h
    · next hp =>
      injection h with h
      subst h
      refine ⟨rfl, p, ?_⟩
      cases hpp : p.proto with
      | none => rw [hpp] at hp; cases hp
      | some n =>
        rw [hpp] at hp
        injection hp with hp
        exact ⟨n, hm, rfl, hp.symm⟩
    · cases h

theorem primaries_nodup {s : Ports} : ∀ (t : List (Key × Nat)), (t.map (·.1)).Nodup → (t.filterMap (primary s)).Nodup := by
  intro t
  induction t with
  | nil => intro _; simp
  | cons x r ih =>
    intro h
    rw [List.map_cons, List.nodup_cons] at h
    rw [List.filterMap_cons]
    split
    · exact ih h.2
    · next i hi =>
      rw [List.nodup_cons]
      refine ⟨?_, ih h.2⟩
      intro hmem
      obtain ⟨y, hy, hyi⟩ := List.mem_filterMap.1 hmem
      obtain ⟨_, p, n, h1, h2, h3⟩ := primary_some hi
      obtain ⟨_, p', n', h1', h2', h3'⟩ := primary_some hyi
      rw [h1] at h1'
      injection h1' with h1'
      subst h1'
      rw [h2] at h2'
      injection h2' with h2'
      subst h2'
      exact h.1 (List.mem_map.2 ⟨y, hy, by rw [h3, h3']⟩)

theorem range_total (ps : List Port) (attr : Ctrs → Nat) :
    (((List.range ps.length).filter fun i => (ps[i]?.bind Port.proto).isSome).map
      fun i => (ps[i]?.map fun p => attr p.ctrs).getD 0).sum = total ps attr := by
  unfold total
  have key : ∀ ps : List Port, ((List.range ps.length).filter fun i => (ps[i]?.bind Port.proto).isSome).map
      (fun i => (ps[i]?.map fun p => attr p.ctrs).getD 0) =
      (ps.filter fun p => p.proto.isSome).map fun p => attr p.ctrs := by
    intro ps
    induction ps with
    | nil => rfl
    | cons p r ih =>
      rw [List.length_cons, List.range_succ_eq_map, List.filter_cons, List.filter_map]
      have hf : ((fun i => ((p :: r)[i]?.bind Port.proto).isSome) ∘ Nat.succ) = fun i => (r[i]?.bind Port.proto).isSome := by
        funext i; simp
      rw [hf]
      have h2 : List.map (fun i => (((p :: r)[i]?.map fun p => attr p.ctrs).getD 0))
          (List.map Nat.succ ((List.range r.length).filter fun i => (r[i]?.bind Port.proto).isSome)) =
          (r.filter fun p => p.proto.isSome).map fun p => attr p.ctrs := by
        rw [List.map_map, ← ih]
        congr 1
      rw [List.filter_cons]
      cases hp : p.proto with
      | none => simpa [hp] using h2
      | some n => simpa [hp] using h2
  rw [key]

/-- The counters of a LAN are the sum of those of the ports that have a protocol type, each once. -/
theorem combine_total {s : Ports} (h : Reach s) (attr : Ctrs → Nat) : s.combine attr = total s.made attr := by
  have hi := inv_reach h
  rw [combine_eq, ← range_total]
  refine List.Perm.sum_nat (List.Perm.map _ ?_)
  rw [List.perm_ext_iff_of_nodup (primaries_nodup _ hi.nodup) (List.nodup_range.sublist List.filter_sublist)]
  intro i
  rw [List.mem_filterMap, List.mem_filter, List.mem_range]
  constructor
  · rintro ⟨x, _, hx⟩
    obtain ⟨_, p, n, h1, h2, _⟩ := primary_some hx
    refine ⟨(List.getElem?_eq_some_iff.1 h1).1, ?_⟩
    simp [h1, h2]
  · rintro ⟨hlt, hs⟩
    have hm : s.made[i]? = some s.made[i] := List.getElem?_eq_getElem hlt
    rw [hm] at hs
    simp only [Option.bind_some] at hs
    obtain ⟨n, hn⟩ := Option.isSome_iff_exists.1 hs
    refine ⟨(.proto n, i), hi.prim i _ n hm hn, ?_⟩
    simp [primary, hn, hlt]

theorem total_traffic (attr : Ctrs → Nat) (c : Ctrs) (ha : ∀ a, attr (Ctrs.add a c) = attr a + attr c) :
    ∀ (ps : List Port) (i : Nat) (p : Port), ps[i]? = some p → p.proto.isSome = true →
      total (ps.modify i fun p => { p with ctrs := p.ctrs.add c }) attr = total ps attr + attr c := by
  intro ps
  induction ps with
  | nil => intro i p h; simp at h
  | cons q r ih =>
    intro i p h hp
    cases i with
    | zero =>
      simp only [List.getElem?_cons_zero, Option.some.injEq] at h
      subst h
      simp only [total, List.modify_zero_cons, List.filter_cons, hp, if_true, List.map_cons, List.sum_cons, ha]
      omega
    | succ i =>
      simp only [List.getElem?_cons_succ] at h
      have := ih i p h hp
      simp only [total, List.modify_succ_cons, List.filter_cons] at this ⊢
      split
      · simp only [List.map_cons, List.sum_cons, this]; omega
      · exact this

/-- Traffic of a port with a protocol type is counted in the counters of the LAN, each in its own. -/
theorem traffic_counted {s : Ports} (h : Reach s) (i : Nat) (p : Port) (c : Ctrs) (hp : s.made[i]? = some p)
    (hn : p.proto.isSome = true) :
    (s.step (.traffic i c)).combine Ctrs.bytesRecv = s.combine Ctrs.bytesRecv + c.bytesRecv ∧
    (s.step (.traffic i c)).combine Ctrs.bytesSent = s.combine Ctrs.bytesSent + c.bytesSent ∧
    (s.step (.traffic i c)).combine Ctrs.pktsRecv = s.combine Ctrs.pktsRecv + c.pktsRecv ∧
    (s.step (.traffic i c)).combine Ctrs.pktsSent = s.combine Ctrs.pktsSent + c.pktsSent := by
  have h' : Reach (s.step (.traffic i c)) := by
    obtain ⟨ops, rfl⟩ := h
    exact ⟨ops ++ [.traffic i c], by rw [List.foldl_append]; rfl⟩
  refine ⟨?_, ?_, ?_, ?_⟩ <;>
    (rw [combine_total h, combine_total h']; exact total_traffic _ _ (fun _ => rfl) _ _ _ hp hn)

example : ∃ s : Ports, Reach s ∧ ∃ p, s.made[1]? = some p ∧ p.proto.isSome = true :=
  ⟨_, ⟨[.create (.sap 0xfe), .create (.proto 0x6003)], rfl⟩, _, rfl, rfl⟩

end Verif.Lines
