import Verif.Lines.P2
import Mathlib.Data.List.Induction

/-!
# C134: lines in requests of Phase II
-/

namespace Verif.Lines.P2

open Verif.Lines

/-! ## Specification -/

/-- A name of the form device, controller, unit; both numbers in octal, the unit may be missing. -/
def Form (s d c u : Str) : Prop :=
  d ≠ [] ∧ c ≠ [] ∧ (∀ x ∈ d, isLetter x = true) ∧ (∀ x ∈ c, isOct x = true) ∧ (∀ x ∈ u, isOct x = true) ∧
  ∃ a b, isSep a = true ∧ isSep b = true ∧ s = d ++ a :: c ++ (if u = [] then [] else b :: u)

/-! ## Lemmas -/

theorem takeWhile_append {p : Nat → Bool} (a : Str) (x : Nat) (r : Str) (ha : ∀ y ∈ a, p y = true) (hx : p x = false) :
    (a ++ x :: r).takeWhile p = a ∧ (a ++ x :: r).dropWhile p = x :: r := by
  induction a with
  | nil => simp [hx]
  | cons y s ih =>
    have hy := ha y (by simp)
    have := ih fun z hz => ha z (by simp [hz])
    simp only [List.cons_append, List.takeWhile_cons, List.dropWhile_cons, hy, if_true]
    exact ⟨by rw [this.1], this.2⟩

theorem takeWhile_all {p : Nat → Bool} (a : Str) (ha : ∀ y ∈ a, p y = true) : a.takeWhile p = a ∧ a.dropWhile p = [] := by
  induction a with
  | nil => simp
  | cons y s ih =>
    have hy := ha y (by simp)
    have := ih fun z hz => ha z (by simp [hz])
    simp only [List.takeWhile_cons, List.dropWhile_cons, hy, if_true]
    exact ⟨by rw [this.1], this.2⟩

theorem takeWhile_forall {p : Nat → Bool} (a : Str) : ∀ y ∈ a.takeWhile p, p y = true := by
  induction a with
  | nil => simp
  | cons x s ih =>
    intro y hy
    rw [List.takeWhile_cons] at hy
    split at hy
    · next h =>
      rcases List.mem_cons.1 hy with rfl | hy
      · exact h
      · exact ih y hy
    · cases hy

theorem sep_cases {x : Nat} (h : isSep x = true) : x = 45 ∨ x = 95 := by
  unfold isSep at h
  simpa using h

theorem sep_letter {x : Nat} (h : isSep x = true) : isLetter x = false := by
  rcases sep_cases h with rfl | rfl <;> rfl

theorem sep_oct {x : Nat} (h : isSep x = true) : isOct x = false := by
  rcases sep_cases h with rfl | rfl <;> rfl

/-- The regular expression finds exactly the names of that form. -/
theorem parse_iff (s d c u : Str) : parse s = some (d, c, u) ↔ Form s d c u := by
  constructor
  · intro h
    unfold parse at h
    have hs := List.takeWhile_append_dropWhile (p := isLetter) (l := s)
    cases hd : s.dropWhile isLetter with
    | nil => rw [hd] at h; cases h
    | cons x r =>
      rw [hd] at h hs
      simp only at h
      split at h
      · cases h
      · next hc =>
        simp only [not_or] at hc
        have hr := List.takeWhile_append_dropWhile (p := isOct) (l := r)
        have hx : isSep x = true := by simpa using hc.1
        cases hu : r.dropWhile isOct with
        | nil =>
          rw [hu] at h hr
          simp only [Option.some.injEq, Prod.mk.injEq] at h
          obtain ⟨rfl, rfl, rfl⟩ := h
          refine ⟨hc.2.1, hc.2.2, takeWhile_forall s, takeWhile_forall r, by simp, x, 45, hx, rfl, ?_⟩
          rw [if_pos rfl, List.append_nil]
          rw [List.append_nil] at hr
          rw [hr, hs]
        | cons y w =>
          rw [hu] at h hr
          simp only at h
          split at h
          · next hy =>
            simp only [Option.some.injEq, Prod.mk.injEq] at h
            obtain ⟨rfl, rfl, rfl⟩ := h
            refine ⟨hc.2.1, hc.2.2, takeWhile_forall s, takeWhile_forall r, ?_, x, y, hx, hy.1, ?_⟩
            · exact fun z hz => List.all_eq_true.1 hy.2.2 z hz
            · rw [if_neg hy.2.1, List.append_assoc, List.cons_append, hr, hs]
          · cases h
  · rintro ⟨h1, h2, h3, h4, h5, a, b, ha, hb, rfl⟩
    unfold parse
    rw [List.append_assoc, List.cons_append]
    obtain ⟨e1, e2⟩ := takeWhile_append d a (c ++ (if u = [] then [] else b :: u)) h3 (sep_letter ha)
    rw [e1, e2]
    simp only
    by_cases hu : u = []
    · subst hu
      simp only [if_true, List.append_nil]
      obtain ⟨e3, e4⟩ := takeWhile_all c h4
      rw [e3, e4, if_neg (by simp [ha, h1, h2])]
    · rw [if_neg hu]
      obtain ⟨e3, e4⟩ := takeWhile_append c b u h4 (sep_oct hb)
      rw [e3, e4, if_neg (by simp [ha, h1, h2])]
      simp only
      rw [if_pos ⟨hb, hu, List.all_eq_true.2 h5⟩]

theorem standard_shape {s : Str} {b : Bytes} (h : standard s = some b) :
    ∃ d c u, b = [1, d, c, u, 0] ∧ c ≤ 255 ∧ u ≤ 255 := by
  unfold standard at h
  split at h
  · cases h
  · split at h
    · cases h
    · split at h
      · next hc => injection h with h; exact ⟨_, _, _, h.symm, hc.1, hc.2⟩
      · cases h

theorem find_key {t : List (Bytes × Str)} (hn : (t.map (·.1)).Nodup) {k : Bytes} {v : Str} (h : (k, v) ∈ t) :
    t.find? (fun x => x.1 = k) = some (k, v) := by
  induction t with
  | nil => cases h
  | cons x r ih =>
    rw [List.map_cons, List.nodup_cons] at hn
    rcases List.mem_cons.1 h with rfl | h
    · simp
    · have : x.1 ≠ k := fun e => hn.1 (List.mem_map.2 ⟨_, h, e.symm⟩)
      rw [List.find?_cons]
      simp only [this, decide_false]
      exact ih hn.2 h

/-- Lines whose names are of the standard form are different as such, and none is `DTE` 0; there are at most 256. -/
structure Distinct (names : List Str) : Prop where
  std : names.Pairwise fun a b => ∀ k, standard a = some k → standard b ≠ some k
  dte : ∀ a ∈ names, ∀ n, standard a ≠ some [1, 20, 0, n, 0]
  few : names.length ≤ 256

theorem table_snoc (names : List Str) (a : Str) : table (names ++ [a]) = enter (table names) a := by
  unfold table; rw [List.foldl_append]; rfl

theorem distinct_init {names : List Str} {a : Str} (h : Distinct (names ++ [a])) : Distinct names :=
  ⟨(List.pairwise_append.1 h.std).1, fun x hx => h.dte x (by simp [hx]), by have := h.few; simp at this; omega⟩

/-- The identification of the line at place `n`. -/
theorem table_spec (names : List Str) : Distinct names →
    (table names).length = names.length ∧ ((table names).map (·.1)).Nodup ∧
    (∀ k v, (k, v) ∈ table names ↔ ∃ n, names[n]? = some v ∧ lineId v n = some k) := by
  induction names using List.reverseRecOn with
  | nil => intro _; simp [table]
  | append_singleton names a ih =>
    intro h
    obtain ⟨h1, h2, h3⟩ := ih (distinct_init h)
    have hlen : names.length ≤ 255 := by have := h.few; simp at this; omega
    have hid : ∃ k, lineId a names.length = some k := by
      unfold lineId
      split
      · exact ⟨_, rfl⟩
      · rw [if_pos hlen]; exact ⟨_, rfl⟩
    obtain ⟨k, hk⟩ := hid
    have hfresh : k ∉ (table names).map (·.1) := by
      intro hm
      obtain ⟨⟨k', v⟩, hx, e⟩ := List.mem_map.1 hm
      simp only at e
      subst e
      obtain ⟨n, hn, hv⟩ := (h3 _ _).1 hx
      have hvm : v ∈ names := List.mem_of_getElem? hn
      have hlt : n < names.length := (List.getElem?_eq_some_iff.1 hn).1
      unfold lineId at hk hv
      cases ha : standard a with
      | some x =>
        rw [ha] at hk
        simp only [Option.some.injEq] at hk
        subst hk
        cases hb : standard v with
        | some y =>
          rw [hb] at hv
          simp only [Option.some.injEq] at hv
          subst hv
          exact (List.pairwise_append.1 h.std).2.2 v hvm a (by simp) _ hb ha
        | none =>
          rw [hb] at hv
          simp only at hv
          split at hv
          · injection hv with hv
            exact h.dte a (by simp) n (by rw [ha, hv])
          · cases hv
      | none =>
        rw [ha] at hk
        simp only at hk
        rw [if_pos hlen] at hk
        injection hk with hk
        cases hb : standard v with
        | some y =>
          rw [hb] at hv
          simp only [Option.some.injEq] at hv
          exact h.dte v (by simp [hvm]) names.length (by rw [hb, hv, hk])
        | none =>
          rw [hb] at hv
          simp only at hv
          split at hv
          · injection hv with hv
            rw [← hk] at hv
            injection hv with _ hv
            injection hv with _ hv
            injection hv with _ hv
            injection hv with hv _
            omega
          · cases hv
    have ht : table (names ++ [a]) = table names ++ [(k, a)] := by
      rw [table_snoc]
      unfold enter
      rw [h1, hk]
      simp only
      unfold put
      rw [if_neg hfresh]
    rw [ht]
    refine ⟨by simp [h1], ?_, ?_⟩
    · rw [List.map_append, List.nodup_append]
      refine ⟨h2, by simp, ?_⟩
      intro x hx y hy
      simp only [List.map_cons, List.map_nil, List.mem_singleton] at hy
      subst hy
      rintro rfl
      exact hfresh hx
    · intro k' v
      rw [List.mem_append, List.mem_singleton, h3]
      constructor
      · rintro (⟨n, hn, hv⟩ | e)
        · refine ⟨n, ?_, hv⟩
          rw [List.getElem?_append_left (List.getElem?_eq_some_iff.1 hn).1]; exact hn
        · injection e with e1 e2
          subst e1; subst e2
          exact ⟨names.length, by simp, hk⟩
      · rintro ⟨n, hn, hv⟩
        by_cases hlt : n < names.length
        · rw [List.getElem?_append_left hlt] at hn
          exact Or.inl ⟨n, hn, hv⟩
        · have hle : n ≤ names.length := by
            have := (List.getElem?_eq_some_iff.1 hn).1
            simp at this; omega
          have : n = names.length := by omega
          subst this
          simp at hn
          subst hn
          rw [hk] at hv
          injection hv with hv
          exact Or.inr (by rw [hv])

/-! ## C134 -/

/-- The identification of the line at place `n`: as its name says, or else `DTE` 0 with the place as unit. -/
def Id (s : Str) (n : Nat) (k : Bytes) : Prop :=
  (∃ d c u e, Form s d c u ∧ devcode (d.map upper) = some e ∧ oct c ≤ 255 ∧ oct u ≤ 255 ∧ k = [1, e, oct c, oct u, 0]) ∨
  (standard s = none ∧ k = [1, 20, 0, n, 0])

/-- Every line has an identification of its own, and a request with it is answered by one record, with that
identification and the counters of that line. -/
theorem own_line_partial (ls : List Line) (hn : (ls.map (·.name)).Nodup) (h : Distinct (ls.map (·.name))) (n : Nat)
    (l : Line) (hl : ls[n]? = some l) :
    ∃ k, Id l.name n k ∧ answer ls k = .recs 1 [(k, counters l.kind)] ∧
      ∀ m l', ls[m]? = some l' → m ≠ n → ¬ Id l'.name m k := by
  obtain ⟨h1, h2, h3⟩ := table_spec _ h
  have hlt : n < ls.length := (List.getElem?_eq_some_iff.1 hl).1
  have hfew : ls.length ≤ 256 := by simpa using h.few
  have hname : (ls.map (·.name))[n]? = some l.name := by simp [hl]
  have hmem : l ∈ ls := List.mem_of_getElem? hl
  have hidk : ∀ s m k, m ≤ 255 → (Id s m k ↔ lineId s m = some k) := by
    intro s m k hm
    unfold Id lineId
    constructor
    · rintro (⟨d, c, u, e, hf, hd, hc, hu, rfl⟩ | ⟨hs, rfl⟩)
      · have : standard s = some [1, e, oct c, oct u, 0] := by
          unfold standard
          rw [(parse_iff s d c u).2 hf]
          simp only [hd]
          rw [if_pos ⟨hc, hu⟩]
        rw [this]
      · rw [hs]; simp only; rw [if_pos hm]
    · intro hk
      cases hs : standard s with
      | none =>
        rw [hs] at hk
        simp only at hk
        rw [if_pos hm] at hk
        injection hk with hk
        exact Or.inr ⟨rfl, hk.symm⟩
      | some b =>
        rw [hs] at hk
        simp only [Option.some.injEq] at hk
        subst hk
        left
        unfold standard at hs
        cases hp : parse s with
        | none => rw [hp] at hs; cases hs
        | some x =>
          obtain ⟨d, c, u⟩ := x
          rw [hp] at hs
          simp only at hs
          cases hd : devcode (d.map upper) with
          | none => rw [hd] at hs; cases hs
          | some e =>
            rw [hd] at hs
            simp only at hs
            split at hs
            · next hc =>
              injection hs with hs
              exact ⟨d, c, u, e, (parse_iff s d c u).1 hp, hd, hc.1, hc.2, hs.symm⟩
            · cases hs
  have hex : ∃ k, lineId l.name n = some k := by
    unfold lineId
    split
    · exact ⟨_, rfl⟩
    · rw [if_pos (by omega)]; exact ⟨_, rfl⟩
  obtain ⟨k, hk⟩ := hex
  have hin : (k, l.name) ∈ table (ls.map (·.name)) := (h3 _ _).2 ⟨n, hname, hk⟩
  refine ⟨k, (hidk _ _ _ (by omega)).2 hk, ?_, ?_⟩
  · have hhead : k.head? ≠ some 0 := by
      unfold lineId at hk
      split at hk
      · next b hb =>
        injection hk with hk
        subst hk
        obtain ⟨d, c, u, rfl, _⟩ := standard_shape hb
        simp
      · split at hk
        · injection hk with hk; subst hk; simp
        · cases hk
    have hfl : ls.filter (fun x => x.name = l.name) = [l] := by
      clear hin h3 h2 h1 h hl hname hlt hfew hk
      induction ls with
      | nil => cases hmem
      | cons x r ih =>
        rw [List.map_cons, List.nodup_cons] at hn
        rcases List.mem_cons.1 hmem with rfl | hm
        · rw [List.filter_cons]
          simp only [decide_true, if_true]
          congr 1
          rw [List.filter_eq_nil_iff]
          intro y hy
          simp only [decide_eq_true_eq]
          exact fun e => hn.1 (List.mem_map.2 ⟨y, hy, e⟩)
        · rw [List.filter_cons]
          have : x.name ≠ l.name := fun e => hn.1 (List.mem_map.2 ⟨l, hm, e.symm⟩)
          simp only [this, decide_false, Bool.false_eq_true, if_false]
          exact ih hn.2 hm
    unfold answer
    rw [if_neg hhead, find_key h2 hin]
    simp only [hfl]
    rfl
  · intro m l' hl' hmn hid
    have hlt' : m < ls.length := (List.getElem?_eq_some_iff.1 hl').1
    rw [hidk _ _ _ (by omega)] at hid
    have hin' : (k, l'.name) ∈ table (ls.map (·.name)) := (h3 _ _).2 ⟨m, by simp [hl'], hid⟩
    have e1 := find_key h2 hin
    have e2 := find_key h2 hin'
    rw [e1] at e2
    injection e2 with e2
    injection e2 with _ e2
    have : (ls.map (·.name))[n]? = (ls.map (·.name))[m]? := by rw [hname, e2]; simp [hl']
    exact hmn ((List.getElem?_inj (by simpa using hlt) hn).1 this).symm

/-- Two lines may have the same identification: the first cannot be asked for. -/
theorem shadowed : ∃ ls : List Line, ls.length = 2 ∧ (ls.map (·.name)).Nodup ∧
    lineId (ls.map (·.name))[0]! 0 = lineId (ls.map (·.name))[1]! 1 ∧ (table (ls.map (·.name))).length = 1 := by
  refine ⟨[⟨"ETH-0".toList.map Char.toNat, .ptp 0 {}⟩, ⟨"DTE-0".toList.map Char.toNat, .ptp 0 {}⟩], rfl, ?_, ?_, ?_⟩ <;>
    decide +kernel

/-- All lines: a record for each, in the order of their names; but none says of which line it is. -/
theorem known_unnamed (ls : List Line) (r : Bytes) (h : ls ≠ []) :
    ∃ ls' : List Line, ls'.Perm ls ∧ answer ls (0 :: r) = .recs ls.length (ls'.map fun l => (0 :: r, counters l.kind)) := by
  have hp : (sorted ls).Perm ls := by
    have hi : ∀ (x : Line) (l : List Line), (insert x l).Perm (x :: l) := by
      intro x l
      induction l with
      | nil => exact .refl _
      | cons y r ih =>
        unfold insert
        split
        · exact .refl _
        · exact (List.Perm.cons y ih).trans (List.Perm.swap x y r)
    clear h
    induction ls with
    | nil => exact .refl _
    | cons x r ih => exact (hi x _).trans (List.Perm.cons x ih)
  refine ⟨sorted ls, hp, ?_⟩
  unfold answer
  have : sorted ls ≠ [] := fun e => h (by rw [e] at hp; exact hp.nil_eq.symm)
  simp only [List.head?_cons, if_true, this, if_false, hp.length_eq]

/-- A request for a line that does not exist aborts the connection. -/
theorem unknown_aborts (ls : List Line) (id : Bytes) (h0 : id.head? ≠ some 0)
    (h : id ∉ (table (ls.map (·.name))).map (·.1)) : answer ls id = .abort := by
  unfold answer
  have : (table (ls.map (·.name))).find? (fun x => x.1 = id) = none := by
    rw [List.find?_eq_none]
    intro x hx e
    simp only [decide_eq_true_eq] at e
    exact h (List.mem_map.2 ⟨x, hx, e⟩)
  rw [if_neg h0, this]
  rfl

/-- What the client of this package reads: every counter that is sent, but local reply timeouts as selection errors. -/
def reads (k : Kind) : List (Attr × Nat) :=
  match k with
  | .lan _ since _ _ _ ports => [(.since, min since 65535), (.pktsRecv, min (ports.combine Ctrs.pktsRecv) 65535),
      (.pktsSent, min (ports.combine Ctrs.pktsSent) 65535)]
  | .ptp since c => [(.since, min since 65535), (.pktsRecv, min c.pktsRecv 65535), (.pktsSent, min c.pktsSent 65535)]
  | .ddcmp since c din dout rr lr _ =>
    [(.since, min since 65535), (.pktsRecv, min c.pktsRecv 65535), (.pktsSent, min c.pktsSent 65535),
      (.dataOut, min dout.1 65535), (.dataIn, min din.1 65535), (.remoteReply, min rr 65535),
      (.selection, min lr 65535)]

/-- Counters are read as they were, up to 65535; but local reply timeouts as selection errors. -/
theorem read_mislabelled (k : Kind) : readCounters (counters k) = some (reads k) := by
  have e : ∀ v, v % 256 + 256 * (v / 256) = v := fun v => Nat.mod_add_div v 256
  have a0 : attrOf 0 = some .since := by decide
  have a1 : attrOf 1 = some .pktsRecv := by decide
  have a2 : attrOf 2 = some .pktsSent := by decide
  have a3 : attrOf 3 = some .dataOut := by decide
  have a4 : attrOf 4 = some .dataIn := by decide
  have a5 : attrOf 5 = some .remoteReply := by decide
  have a6 : attrOf 6 = some .selection := by decide
  cases k <;>
    simp only [counters, Rec.counters, ctr2, Option.map_none, Option.map_some, List.append_nil, List.cons_append,
      List.nil_append, readCounters, a0, a1, a2, a3, a4, a5, a6, e, reads]

/-! ## Identifications as text -/

theorem digits_oct : ∀ n : Fin 256, oct (digits n.1) = n.1 ∧ digits n.1 ≠ [] ∧ (digits n.1).all isOct = true := by
  decide +kernel

theorem devnames_ok : ∀ x ∈ devnames, x.2 ≠ [] ∧ x.2.all isLetter = true ∧ x.2.map upper = x.2 ∧
    (x.1 ≠ 4 → devcode x.2 = some x.1) ∧ devnames.find? (fun y => y.1 = x.1) = some x := by
  decide +kernel

/-- The text of an identification stands for it, except for device 4. -/
theorem shown_back_partial (d c u alt : Nat) (nm : Str) (hd : (d, nm) ∈ devnames) (h4 : d ≠ 4) (hc : c ≤ 255) (hu : u ≤ 255) :
    ∃ s, text [1, d, c, u, 0] = some s ∧ lineId s alt = some [1, d, c, u, 0] := by
  obtain ⟨n1, n2, n3, n4, n5⟩ := devnames_ok _ hd
  obtain ⟨c1, c2, c3⟩ := digits_oct ⟨c, by omega⟩
  obtain ⟨u1, u2, u3⟩ := digits_oct ⟨u, by omega⟩
  simp only at c1 c2 c3 u1 u2 u3 n5 n4
  have ht : text [1, d, c, u, 0] = some (nm ++ 95 :: digits c ++ (if u = 0 then [] else 95 :: digits u)) := by
    show (devnames.find? fun x => x.1 = d).map _ = _
    rw [n5]; rfl
  refine ⟨_, ht, ?_⟩
  have hform : Form (nm ++ 95 :: digits c ++ (if u = 0 then [] else 95 :: digits u)) nm (digits c)
      (if u = 0 then [] else digits u) := by
    refine ⟨n1, c2, fun x hx => List.all_eq_true.1 n2 x hx, fun x hx => List.all_eq_true.1 c3 x hx, ?_, 95, 95, rfl, rfl, ?_⟩
    · intro x hx
      split at hx
      · cases hx
      · exact List.all_eq_true.1 u3 x hx
    · by_cases h0 : u = 0
      · simp [h0]
      · simp [h0, u2]
  have ho : oct (if u = 0 then [] else digits u) = u := by
    by_cases h0 : u = 0
    · simp [h0, oct]
    · rw [if_neg h0]; exact u1
  unfold lineId standard
  rw [(parse_iff _ _ _ _).2 hform]
  simp only [n3, n4 h4, c1, ho]
  rw [if_pos ⟨hc, hu⟩]

/-- Device 4 and device 16 have the same name. -/
theorem dl_confused : ∃ s, text [1, 4, 0, 0, 0] = some s ∧ lineId s 0 = some [1, 16, 0, 0, 0] := by
  refine ⟨"DL_0".toList.map Char.toNat, ?_, ?_⟩ <;> decide +kernel

/-! ## Cases -/

example : Distinct ["ETH-0".toList.map Char.toNat, "DMC-1".toList.map Char.toNat, "MUL-0".toList.map Char.toNat] := by
  have h1 : standard ("ETH-0".toList.map Char.toNat) = none := by decide +kernel
  have h2 : standard ("DMC-1".toList.map Char.toNat) = some [1, 12, 1, 0, 0] := by decide +kernel
  have h3 : standard ("MUL-0".toList.map Char.toNat) = none := by decide +kernel
  refine ⟨?_, ?_, by decide⟩
  · refine .cons ?_ (.cons ?_ (.cons (by simp) .nil))
    · intro b _ k hk; rw [h1] at hk; cases hk
    · intro b hb k hk
      rw [List.mem_singleton] at hb
      subst hb
      rw [h3]; simp
  · intro a ha n
    simp only [List.mem_cons, List.not_mem_nil, or_false] at ha
    rcases ha with rfl | rfl | rfl
    · rw [h1]; simp
    · rw [h2]; simp
    · rw [h3]; simp

example : table ["ETH-0".toList.map Char.toNat, "DMC-1".toList.map Char.toNat, "MUL-0".toList.map Char.toNat] =
    [([1, 20, 0, 0, 0], "ETH-0".toList.map Char.toNat), ([1, 12, 1, 0, 0], "DMC-1".toList.map Char.toNat),
      ([1, 20, 0, 2, 0], "MUL-0".toList.map Char.toNat)] := by
  decide +kernel

example : text [1, 12, 9, 2, 0] = some ("DMC_11_2".toList.map Char.toNat) := by decide +kernel

end Verif.Lines.P2
