import Verif.Lines.P2Status

/-!
# Properties: status in requests of Phase II (C136)
-/

namespace Verif.Lines.P2

/-- **Status of the executor (C136).**  A client reads what the node has, its number cut off at 255. -/
theorem exec_read_partial (e : Exec) (hn : Text 6 e.name) (hi : Text 40 e.ident) (hr : e.rver.length = 3)
    (hv : e.nver.length = 3) :
    ∃ b, execStatus e = some b ∧ readExec b = some ⟨e.name, min e.tid 255, 0, [], e.rver, e.nver, e.ident⟩ := by
  obtain ⟨name, tid, rver, nver, ident⟩ := e
  match rver, nver, hr, hv with
  | [a, b, c], [d, e, f], _, _ =>
    have e1 : encA 6 name = some (name.length :: name) := if_pos hn
    have e2 : encA 40 ident = some (ident.length :: ident) := if_pos hi
    unfold execStatus
    simp only [e1, e2]
    refine ⟨_, rfl, ?_⟩
    have hA := takeA_enc (max := 6) name
      ([min tid 255, 0, 0, 0, 0, a, b, c, d, e, f] ++ (ident.length :: ident)) hn.1
    have hB := takeA_enc (max := 40) ident [] hi.1
    rw [List.append_nil] at hB
    simp only [List.cons_append, List.append_assoc, List.nil_append] at hA ⊢
    unfold readExec
    simp only [hA]
    unfold takeA at hB ⊢
    simp only [Nat.zero_le, if_true, List.take_zero, List.drop_zero, and_self]
    simp only [hB]

example : ∃ b, execStatus ⟨[70, 79, 79], 1000, [2, 0, 0], [4, 0, 0], [68, 78]⟩ = some b ∧
    readExec b = some ⟨[70, 79, 79], 255, 0, [], [2, 0, 0], [4, 0, 0], [68, 78]⟩ :=
  exec_read_partial _ ⟨by decide, by decide⟩ ⟨by decide, by decide⟩ rfl rfl

/-- **The identification ends the connection (C136, negation).**  The request fails exactly if the identification has
more than 40 characters, or one that is not in latin-1. -/
theorem exec_fails_iff (e : Exec) (hn : Text 6 e.name) :
    execStatus e = none ↔ 40 < e.ident.length ∨ ∃ c ∈ e.ident, 255 < c := by
  have e1 : encA 6 e.name = some (e.name.length :: e.name) := if_pos hn
  unfold execStatus
  simp only [e1]
  constructor
  · intro h
    by_cases hi : Text 40 e.ident
    · have e2 : encA 40 e.ident = some (e.ident.length :: e.ident) := if_pos hi
      simp [e2] at h
    · by_cases hl : 40 < e.ident.length
      · exact .inl hl
      · right
        apply Classical.byContradiction
        intro hc
        refine hi ⟨Nat.le_of_not_lt hl, fun c hm => Nat.le_of_not_lt fun hlt => hc ⟨c, hm, hlt⟩⟩
  · intro h
    have : ¬Text 40 e.ident := by
      rintro ⟨h1, h2⟩
      rcases h with h | ⟨c, hm, hc⟩
      · omega
      · have := h2 c hm; omega
    have e2 : encA 40 e.ident = none := if_neg this
    simp [e2]

example : execStatus ⟨[70], 1, [2, 0, 0], [4, 0, 0], List.replicate 41 65⟩ = none :=
  (exec_fails_iff _ ⟨by decide, by decide⟩).2 (.inl (by decide))

/-- **Status of all lines (C136).**  A record for each line, in the order of their names; each has the identification of
its line, says that it is on, and names its neighbour. -/
theorem status_known_partial (ls : List SLine) (hd : Distinct (ls.map (·.name))) (ho : ∀ l ∈ ls, l.far.Ok)
    (h0 : ls ≠ []) (r : Bytes) :
    ∃ ps rs, status ls (0 :: r) = .recs ls.length rs false ∧
      (ps.map (·.2)).Perm ls ∧ (ps.Pairwise fun a b => before a.2.name b.2.name = true) ∧
      (∀ p ∈ ps, ∃ n, ls[n]? = some p.2 ∧ lineId p.2.name n = some p.1) ∧
      List.Forall₂ (fun (p : Bytes × SLine) b => Shows p.1 p.2 b) ps rs := by
  have hlen : (places ls).length = ls.length := by simp [places]
  have hperm := List.mergeSort_perm (places ls) (fun a b => before a.2.name b.2.name)
  have hmap : (places ls).map (·.2) = ls := by
    unfold places
    rw [List.map_map]
    have : ((fun x : Option Bytes × SLine => x.2) ∘ fun x : SLine × Nat => (idOf (ls.map (·.name)) x.2, x.1)) = Prod.fst := rfl
    rw [this, map_fst_zipIdx']
  have hsort := List.pairwise_mergeSort (le := fun a b : Option Bytes × SLine => before a.2.name b.2.name)
    (fun a b c => before_trans a.2.name b.2.name c.2.name)
    (fun a b => by
      rw [Bool.or_eq_true]; exact before_total a.2.name b.2.name) (places ls)
  generalize hS : (places ls).mergeSort (fun a b => before a.2.name b.2.name) = S at hperm hsort
  have hok : ∀ p ∈ S, p.2.far.Ok ∧ (∃ d c u, p.1 = some [1, d, c, u, 0]) ∧
      ∃ n, ls[n]? = some p.2 ∧ p.1 = lineId p.2.name n := fun p hp => places_ok hd ho (hperm.mem_iff.1 hp)
  obtain ⟨l, h1, h2, h3, h4⟩ := collect_ok S (fun p hp => ⟨(hok p hp).1, (hok p hp).2.1⟩)
  have hne : S ≠ [] := by
    intro e
    have := hperm.length_eq
    rw [e, hlen] at this
    exact h0 (List.length_eq_zero_iff.1 this.symm)
  refine ⟨S.map fun p => (p.1.getD [], p.2), (sendAll l).1, ?_, ?_, ?_, ?_, ?_⟩
  · unfold status
    simp only [List.head?_cons, if_true, hS, hne, if_false, h1, h3, h2]
    rw [hperm.length_eq, hlen]
  · rw [List.map_map]
    have := hperm.map (·.2)
    rw [hmap] at this
    exact this
  · rw [List.pairwise_map]
    exact hsort
  · intro p hp
    obtain ⟨x, hx, rfl⟩ := List.mem_map.1 hp
    obtain ⟨_, ⟨d, c, u, hk⟩, n, hn, hl⟩ := hok x hx
    exact ⟨n, hn, by rw [← hl, hk]; rfl⟩
  · clear hok h1 h2 h3 hS hperm hsort hne
    generalize (sendAll l).1 = rs at h4 ⊢
    induction h4 with
    | nil => exact .nil
    | cons hp _ ih =>
      obtain ⟨k, hk, hs⟩ := hp
      refine .cons ?_ ih
      simpa [hk] using hs

/-- **Status of one line (C136).**  A request with the identification of a line is answered by one record, of that
line. -/
theorem status_one_partial (ls : List SLine) (hn : (ls.map (·.name)).Nodup) (hd : Distinct (ls.map (·.name)))
    (n : Nat) (l : SLine) (hl : ls[n]? = some l) (ho : l.far.Ok) :
    ∃ k b, lineId l.name n = some k ∧ status ls k = .recs 1 [b] false ∧ Shows k l b := by
  have hlt : n < ls.length := (List.getElem?_eq_some_iff.1 hl).1
  have hfew := hd.few
  simp only [List.length_map] at hfew
  obtain ⟨d, c, u, hk⟩ := lineId_shape (s := l.name) (n := n) (by omega)
  obtain ⟨_, h2, h3⟩ := table_spec _ hd
  have hname : (ls.map (·.name))[n]? = some l.name := by simp [hl]
  have hin : ([1, d, c, u, 0], l.name) ∈ table (ls.map (·.name)) := (h3 _ _).2 ⟨n, hname, hk⟩
  have hfind := find_key h2 hin
  have hid : idOf (ls.map (·.name)) n = some [1, d, c, u, 0] := (idOf_lineId hd hname).trans hk
  have hfl : (places ls).filter (fun x => decide (x.2.name = l.name)) = [(some [1, d, c, u, 0], l)] := by
    have hmem : (some [1, d, c, u, 0], l) ∈ places ls := by
      have := List.mem_of_getElem? (places_get hl)
      rwa [hid] at this
    have hnd : ((places ls).map (·.2.name)).Nodup := by
      have : (places ls).map (·.2.name) = ls.map (·.name) := by
        unfold places
        rw [List.map_map]
        have : ((fun x : Option Bytes × SLine => x.2.name) ∘ fun x : SLine × Nat => (idOf (ls.map (·.name)) x.2, x.1))
            = (fun x : SLine => x.name) ∘ Prod.fst := rfl
        rw [this, ← List.map_map, map_fst_zipIdx']
      rw [this]; exact hn
    generalize places ls = ps at hmem hnd
    clear hfind hin h3 h2 hid
    induction ps with
    | nil => cases hmem
    | cons x r ih =>
      rw [List.map_cons, List.nodup_cons] at hnd
      rcases List.mem_cons.1 hmem with rfl | hm
      · rw [List.filter_cons]
        simp only [decide_true, if_true]
        congr 1
        rw [List.filter_eq_nil_iff]
        intro y hy
        simp only [decide_eq_true_eq]
        exact fun e => hnd.1 (List.mem_map.2 ⟨y, hy, e⟩)
      · rw [List.filter_cons]
        have : x.2.name ≠ l.name := fun e => hnd.1 (List.mem_map.2 ⟨_, hm, e.symm⟩)
        simp only [this, decide_false, Bool.false_eq_true, if_false]
        exact ih hm hnd.2
  obtain ⟨b, hb, hr⟩ := readStatus_rec (d := d) (c := c) (u := u) ho.2
  refine ⟨[1, d, c, u, 0], b, hk, ?_, hr⟩
  have hc : collect [(some [1, d, c, u, 0], l)] = some [([1, d, c, u, 0], l.far.shown)] := by
    unfold collect
    simp only [collect]
    cases hf : l.far with
    | nobody => rfl
    | named s => rfl
    | noAddress => exact absurd hf ho.1
  unfold status
  simp only [List.head?_cons, Option.some.injEq, Nat.one_ne_zero, if_false, hfind, hfl, hc]
  simp [sendAll, hb]

/-- A node with a point to point line `DMC-0` to FOO and a LAN without designated router. -/
def exStatus : List SLine :=
  [⟨"ETH-0".toList.map Char.toNat, .nobody⟩, ⟨"DMC-0".toList.map Char.toNat, .named [70, 79, 79]⟩]

example : status exStatus [1, 12, 0, 0, 0] = .recs 1 [[5, 1, 12, 0, 0, 0, 0, 0, 0, 3, 70, 79, 79]] false := by
  decide +kernel

theorem exStatus_distinct : Distinct (exStatus.map (·.name)) := by
  have e1 : standard ("ETH-0".toList.map Char.toNat) = none := by decide +kernel
  have e2 : standard ("DMC-0".toList.map Char.toNat) = some [1, 12, 0, 0, 0] := by decide +kernel
  refine ⟨?_, ?_, by simp [exStatus]⟩
  · simp only [exStatus, List.map_cons, List.map_nil, List.pairwise_cons, List.mem_singleton, forall_eq]
    refine ⟨fun k h => ?_, by simp⟩
    have h' := e1.symm.trans h
    cases h'
  · intro a ha n
    simp only [exStatus, List.map_cons, List.map_nil, List.mem_cons, List.not_mem_nil, or_false] at ha
    rcases ha with rfl | rfl
    · rw [e1]; simp
    · rw [e2]; simp

example : ∃ ps rs, status exStatus [0] = .recs 2 rs false ∧ (ps.map (·.2)).Perm exStatus ∧
    List.Forall₂ (fun (p : Bytes × SLine) b => Shows p.1 p.2 b) ps rs := by
  obtain ⟨ps, rs, h1, h2, _, _, h5⟩ := status_known_partial exStatus exStatus_distinct
    (by simp [exStatus, Far.Ok, Text, Far.shown]) (by simp [exStatus]) []
  exact ⟨ps, rs, h1, h2, h5⟩

/-- **A neighbour with number zero (C136, negation).**  If one line has a neighbour without number, requests for
all lines end the connection.  A Phase III end node accepts such a neighbour, if its init message has an area and no number
(route_ptp.py:599-601 and 642). -/
theorem status_unaddressed_aborts (ls : List SLine) (l : SLine) (hl : l ∈ ls) (hf : l.far = .noAddress) (r : Bytes) :
    status ls (0 :: r) = .abort := by
  obtain ⟨n, hn⟩ := List.mem_iff_getElem?.1 hl
  have hm := List.mem_of_getElem? (places_get hn)
  have hm' : (idOf (ls.map (·.name)) n, l) ∈ (places ls).mergeSort (fun a b => before a.2.name b.2.name) := by
    rw [List.mem_mergeSort]; exact hm
  unfold status
  simp only [List.head?_cons, if_true]
  rw [collect_none hm' hf]
  simp

example : status [⟨"DMC-0".toList.map Char.toNat, .noAddress⟩] [0] = .abort :=
  status_unaddressed_aborts _ ⟨"DMC-0".toList.map Char.toNat, .noAddress⟩ (by simp) rfl []

/-- **A line that does not exist (C136, negation)** ends the connection. -/
theorem status_unknown_aborts (ls : List SLine) (id : Bytes) (h0 : id.head? ≠ some 0)
    (h : id ∉ (table (ls.map (·.name))).map (·.1)) : status ls id = .abort := by
  unfold status
  have : (table (ls.map (·.name))).find? (fun x => x.1 = id) = none := by
    rw [List.find?_eq_none]
    intro x hx e
    simp only [decide_eq_true_eq] at e
    exact h (List.mem_map.2 ⟨x, hx, e⟩)
  rw [if_neg h0, this]
  rfl

example : status exStatus [1, 12, 1, 0, 0] = .abort :=
  status_unknown_aborts _ _ (by simp) (by decide +kernel)

end Verif.Lines.P2
