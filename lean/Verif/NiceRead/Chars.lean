import Verif.NiceRead.Cases
import Verif.NiceRead.One

/-!
# Characteristics and counters of nodes (C135)

Requests for characteristics (information 2) and counters (3), for several nodes and for one.  The records are
given outright: what is not named in them is not in the answer.
-/

namespace Verif.NiceRead

variable {w : World} {db : Db}

/-! ## Specification -/

/-- The counters of a node. -/
def CounterRec (w : World) (n : Node) : Rec :=
  { addr := n.addr, name := n.name, executor := decide (n.addr = w.exec), counters := some n.counters }

/-- The characteristics of a node: its circuit for a loop node, those of the layers and the identification for the
executor.  `b` says whether Routing has its share. -/
def CharRec (w : World) (b : Bool) (n : Node) : Rec :=
  if n.addr = w.exec then
    { addr := n.addr, name := n.name, executor := true, circuit := n.loop, eclChar := true, routChar := b, ident := true,
      swIdent := true, mgmtVersion := true }
  else { addr := n.addr, name := n.name, circuit := n.loop }

/-! ## Several nodes -/

/-- What NSP leaves for a node. -/
def pre (w : World) (q : Req) (n : Node) : Rec :=
  if q.char then { addr := n.addr, name := n.name, circuit := n.loop, eclChar := n.addr == w.exec }
  else { addr := n.addr, name := n.name, counters := some n.counters }

theorem eclSet_fresh {q : Req} (hs : q.sumstat = false) (n : Node) (k : Nat) (nm : Str) :
    w.eclSet q n { addr := k, name := nm } = pre w q n := by
  unfold World.eclSet pre
  rw [hs]
  cases q.char with
  | false => rfl
  | true => cases h : n.loop <;> simp

theorem eclSet_pre {q : Req} (hs : q.sumstat = false) {n m : Node} (ha : m.addr = n.addr)
    (hl : n.loop = none → m.loop = none) : w.eclSet q n (pre w q m) = pre w q n := by
  unfold World.eclSet pre
  rw [hs]
  cases q.char with
  | false => rfl
  | true =>
    cases h : n.loop with
    | none => simp [hl h, ha]
    | some c => simp [ha]

/-- Actions of Routing: characteristics of the executor. -/
def charActs (w : World) (db : Db) (q : Req) : List Act :=
  if q.char = true ∧ q.pick ≠ none ∧ q.adj = false ∧ q.loop = false then
    [setAct db w.exec fun r => { r with routChar := true }]
  else []

theorem rout_other (g : w.Good db) (q : Req) (hm : q.mult = true) (hi : q.char = true ∨ q.counters = true) (s : St) :
    ∃ s', w.rout q s = .ok s' ∧ Does db (charActs w db q) s s' := by
  unfold World.rout charActs
  cases hp : q.pick with
  | none => exact ⟨s, rfl, by simpa using Does.nil db s⟩
  | some p =>
    have hexcl : q.char = true → q.counters = false := by
      intro h; simp [Req.char] at h; simp [Req.counters, h]
    rcases hi with hc | hc
    · simp only [hexcl hc, hc, hm, Bool.false_eq_true, if_false, if_true, Bool.not_true, Bool.false_and, Bool.true_and,
        Bool.false_or, Bool.and_eq_true, Bool.not_eq_eq_eq_not, ne_eq, reduceCtorEq, not_false_eq_true, true_and]
      by_cases h : q.adj = false ∧ q.loop = false
      · rw [if_pos h, if_pos h]
        exact set_does db s g.exec.1 (fun _ => .inl rfl) (fun e => absurd e g.exec.2)
      · rw [if_neg h, if_neg h]
        exact ⟨s, rfl, Does.nil _ _⟩
    · have hch : q.char = false := by
        cases h : q.char with
        | false => rfl
        | true => rw [hexcl h] at hc; exact absurd hc (by simp)
      simp only [hc, hch, if_true, Bool.false_eq_true, false_and, if_false]
      exact ⟨s, rfl, Does.nil _ _⟩

def acts2 (w : World) (db : Db) (q : Req) : List Act := nspActs w db q ++ charActs w db q ++ [endAct w q]

theorem layers_other (g : w.Good db) (q : Req) (hm : q.mult = true) (hi : q.char = true ∨ q.counters = true) :
    ∃ s, w.layers q db = .ok s ∧ Inv db s ∧ ∀ k, s.resp.get k = (acts2 w db q).foldl (Act.on k) none := by
  have h1 : ∃ s1, w.ecl q ⟨db, []⟩ = .ok s1 ∧ Does db (nspActs w db q) ⟨db, []⟩ s1 := by
    unfold World.ecl nspActs
    cases q.adj with
    | true => exact ⟨_, rfl, Does.nil _ _⟩
    | false =>
      simp only [Bool.false_eq_true, hm, ↓reduceIte]
      exact eclAll_does g q db.byid ⟨db, []⟩ (fun n hn => hn)
  obtain ⟨s1, e1, d1⟩ := h1
  obtain ⟨s2, e2, d2⟩ := rout_other g q hm hi s1
  have d3 := (d1.append d2).append (end_does (w := w) (db0 := db) q s2)
  obtain ⟨i, gk⟩ := d3 ⟨by simp, fun _ _ => rfl⟩
  refine ⟨_, ?_, i, fun k => gk k⟩
  unfold World.layers
  rw [e1]
  simp only [e2]

/-- Shown to NSP's rules, and at the address. -/
def At (w : World) (db : Db) (q : Req) (k : Nat) (n : Node) : Prop :=
  n ∈ db.byid ∧ n.addr = k ∧ Shown w q.code q.info n

/-- NSP's record. -/
theorem nsp_fold (g : w.Good db) {q : Req} (hs : q.sumstat = false) (k : Nat)
    (hz : q.char = true → k = 0 → ∀ n ∈ db.byid, n.loop = none → n.addr ≠ 0) :
    ((nspActs w db q).foldl (Act.on k) none = none ∧ ¬∃ n, At w db q k n) ∨
      ∃ n, At w db q k n ∧ (nspActs w db q).foldl (Act.on k) none = some (pre w q n) := by
  unfold nspActs
  cases ha : q.adj with
  | true =>
    left
    refine ⟨rfl, ?_⟩
    rintro ⟨n, _, _, h⟩
    exact h.1 (by simpa [Req.adj] using ha)
  | false =>
    simp only [Bool.false_eq_true, if_false]
    have key : ∀ (ns : List Node), (∀ n ∈ ns, n ∈ db.byid) → ∀ r : Option Rec,
        ((r = none ∧ True) ∨ ∃ m, At w db q k m ∧ r = some (pre w q m)) →
        (((eclActs w db q ns).foldl (Act.on k) r = none ∧ ¬∃ n ∈ ns, At w db q k n) ∧ r = none) ∨
          ∃ n, At w db q k n ∧ (eclActs w db q ns).foldl (Act.on k) r = some (pre w q n) := by
      intro ns
      induction ns with
      | nil =>
        intro _ r hr
        rcases hr with ⟨rfl, _⟩ | h
        · left; exact ⟨⟨rfl, by simp⟩, rfl⟩
        · right; exact h
      | cons n ns ih =>
        intro hb r hr
        have hn := hb n (by simp)
        have hb' : ∀ m ∈ ns, m ∈ db.byid := fun m hm => hb m (by simp [hm])
        by_cases hw : w.eclWants q n = true
        · have hsh := (eclWants_iff ha).1 hw
          have e : eclActs w db q (n :: ns) = setAct db n.addr (w.eclSet q n) :: eclActs w db q ns := by
            unfold eclActs; rw [List.filter_cons_of_pos hw, List.map_cons]
          rw [e, List.foldl_cons]
          by_cases hk : n.addr = k
          · have hat : At w db q k n := ⟨hn, hk, hsh⟩
            have step : Act.on k r (setAct db n.addr (w.eclSet q n)) = some (pre w q n) := by
              unfold Act.on setAct
              rw [if_pos hk]
              rcases hr with ⟨rfl, _⟩ | ⟨m, hm, rfl⟩
              · show some (w.eclSet q n (fresh db n.addr)) = _
                unfold fresh
                rw [eclSet_fresh hs]
              · show some (w.eclSet q n (pre w q m)) = _
                by_cases hc : q.char = true
                · rw [eclSet_pre hs (hm.2.1.trans hk.symm)]
                  intro hl
                  cases hml : m.loop with
                  | none => rfl
                  | some c =>
                    have hk0 : k = 0 := hm.2.1 ▸ g.loop m hm.1 (by simp [hml])
                    exact absurd (hk.trans hk0) (hz hc hk0 n hn hl)
                · have hc' : q.char = false := by simpa using hc
                  unfold World.eclSet pre
                  rw [hs, hc']
                  rfl
            rw [step]
            rcases ih hb' _ (.inr ⟨n, hat, rfl⟩) with ⟨_, h⟩ | h
            · cases h
            · right; exact h
          · have step : Act.on k r (setAct db n.addr (w.eclSet q n)) = r := by
              unfold Act.on setAct
              rw [if_neg hk]
            rw [step]
            rcases ih hb' r hr with ⟨⟨h1, h2⟩, h3⟩ | h
            · left
              refine ⟨⟨h1, ?_⟩, h3⟩
              rintro ⟨m, hm, hm2⟩
              rcases List.mem_cons.1 hm with rfl | hm
              · exact hk hm2.2.1
              · exact h2 ⟨m, hm, hm2⟩
            · right; exact h
        · have e : eclActs w db q (n :: ns) = eclActs w db q ns := by
            unfold eclActs; rw [List.filter_cons_of_neg hw]
          rw [e]
          rcases ih hb' r hr with ⟨⟨h1, h2⟩, h3⟩ | h
          · left
            refine ⟨⟨h1, ?_⟩, h3⟩
            rintro ⟨m, hm, hm2⟩
            rcases List.mem_cons.1 hm with rfl | hm
            · exact hw ((eclWants_iff ha).2 hm2.2.2)
            · exact h2 ⟨m, hm, hm2⟩
          · right; exact h
    rcases key db.byid (fun n hn => hn) none (.inl ⟨rfl, trivial⟩) with ⟨⟨h1, h2⟩, _⟩ | h
    · left
      refine ⟨h1, ?_⟩
      rintro ⟨n, hn⟩
      exact h2 ⟨n, hn.1, hn⟩
    · right; exact h

/-- The record of a node at the end. -/
def post (w : World) (q : Req) (n : Node) : Rec :=
  if q.char then CharRec w (q.pick.isSome) n else CounterRec w n

theorem fold2 (g : w.Good db) {q : Req} (hi : q.char = true ∨ q.counters = true) (k : Nat)
    (hz : q.char = true → k = 0 → ∀ n ∈ db.byid, n.loop = none → n.addr ≠ 0) :
    ((acts2 w db q).foldl (Act.on k) none = none ∧ ¬∃ n, At w db q k n) ∨
      ∃ n, At w db q k n ∧ (acts2 w db q).foldl (Act.on k) none = some (post w q n) := by
  have hs : q.sumstat = false := by
    rcases hi with h | h <;> simp [Req.char, Req.counters] at h <;> simp [Req.sumstat, h]
  unfold acts2
  rw [List.foldl_append, List.foldl_append]
  rcases nsp_fold g hs k hz with ⟨h1, h2⟩ | ⟨n, hn, h1⟩
  · left
    refine ⟨?_, h2⟩
    rw [h1]
    have : (charActs w db q).foldl (Act.on k) none = none := by
      apply fold_none
      intro a ha hk
      unfold charActs at ha
      split at ha
      · next h =>
        rw [List.mem_singleton.1 ha] at hk
        have hk : w.exec = k := hk
        obtain ⟨n, h3, h4, h5⟩ := g.execIn
        refine h2 ⟨n, h3, h5.trans hk, ?_, ?_⟩
        · simpa [Req.adj] using h.2.2.1
        · have : q.code ≠ -3 := by simpa [Req.loop] using h.2.2.2
          exact .inr (.inr (.inr (.inr ⟨this, .inl h5⟩)))
      · simp at ha
    rw [this]
    simp only [List.foldl_cons, List.foldl_nil, Act.on, endAct]
    split <;> rfl
  · right
    refine ⟨n, hn, ?_⟩
    rw [h1]
    by_cases hx : k = w.exec
    · subst hx
      have hl : n.loop = none := by
        cases h : n.loop with
        | none => rfl
        | some c => exact absurd (hn.2.1 ▸ g.loop n hn.1 (by simp [h])) g.exec.2
      have hadj : q.adj = false := by
        have := hn.2.2.1
        simp only [Req.adj, beq_eq_false_iff_ne]; exact this
      have hloop : q.loop = false := by
        rw [Bool.eq_false_iff]
        intro h
        have h3 : q.code = -3 := by simpa [Req.loop] using h
        rcases hn.2.2.2 with h | h | h | h | h
        · omega
        · omega
        · omega
        · exact h.2 hl
        · exact h.1 h3
      have h0 : q.summary = false ∧ q.stat = false := by
        rcases hi with h | h <;> simp [Req.char, Req.counters] at h <;> simp [Req.summary, Req.stat, h]
      cases hc : q.char with
      | true =>
        cases hp : q.pick with
        | none =>
          have : charActs w db q = [] := by unfold charActs; simp [hp]
          rw [this]
          simp [Act.on, endAct, execSet, post, pre, CharRec, hc, hp, hn.2.1, hs, h0, hl]
        | some p =>
          have : charActs w db q = [setAct db w.exec fun r => { r with routChar := true }] := by
            unfold charActs; simp [hp, hc, hadj, hloop]
          rw [this]
          simp [Act.on, endAct, setAct, execSet, post, pre, CharRec, hc, hp, hn.2.1, hs, h0, hl]
      | false =>
        have : charActs w db q = [] := by unfold charActs; simp [hc]
        rw [this]
        simp [Act.on, endAct, execSet, post, pre, CounterRec, hc, hn.2.1, hs, h0]
    · have hc : (charActs w db q).foldl (Act.on k) (some (pre w q n)) = some (pre w q n) := by
        apply fold_none
        intro a ha hk
        unfold charActs at ha
        split at ha
        · rw [List.mem_singleton.1 ha] at hk
          exact hx (hk : w.exec = k).symm
        · simp at ha
      rw [hc]
      have hx' : ¬n.addr = w.exec := fun e => hx (hn.2.1 ▸ e)
      have : (n.addr == w.exec) = false := by simpa using hx'
      simp only [List.foldl_cons, List.foldl_nil, Act.on, endAct, if_neg (Ne.symm hx)]
      unfold post pre CharRec CounterRec
      cases q.char <;> simp [hx']

theorem post_addr (q : Req) (n : Node) : (post w q n).addr = n.addr := by
  unfold post CharRec CounterRec
  split
  · split <;> rfl
  · rfl

/-- The order of an answer. -/
theorem sorted_order {q : Req} {l : Resp} (hk : (l.map (·.1)).Nodup) : InOrder w.exec ((w.sorted q l).map (·.1)) := by
  have hnd : ((l.mergeSort fun a b => decide (a.1 ≤ b.1)).map (·.1)).Nodup :=
    ((List.mergeSort_perm l _).map _).nodup_iff.2 hk
  have hsort : (l.mergeSort fun a b => decide (a.1 ≤ b.1)).Pairwise fun a b => a.1 ≤ b.1 := by
    have := List.pairwise_mergeSort (le := fun a b : Nat × Rec => decide (a.1 ≤ b.1))
      (by intro a b c h1 h2; simp only [decide_eq_true_eq] at *; omega)
      (by intro a b; simp only [Bool.or_eq_true, decide_eq_true_eq]; omega) l
    exact this.imp (by simp)
  refine ⟨((l.mergeSort fun a b => decide (a.1 ≤ b.1)).filter
    fun p => p.1 != w.exec && q.matches p.1).map (·.1), ?_, ?_, ?_⟩
  · have hsub : ((l.filter fun p => p.1 == w.exec && q.matches p.1).map (·.1)).Nodup :=
      hk.sublist (List.filter_sublist.map _)
    have hall : ∀ x ∈ (l.filter fun p => p.1 == w.exec && q.matches p.1).map (·.1), x = w.exec := by
      intro x hx
      obtain ⟨p, hp, rfl⟩ := List.mem_map.1 hx
      have := (List.mem_filter.1 hp).2
      simp only [Bool.and_eq_true, beq_iff_eq] at this
      exact this.1
    simp only [World.sorted, List.map_append]
    revert hsub hall
    generalize (l.filter fun p => p.1 == w.exec && q.matches p.1).map (·.1) = m
    intro hsub hall
    match m, hsub, hall with
    | [], _, _ => exact .inl rfl
    | [x], _, hall => rw [hall x (by simp)]; exact .inr rfl
    | x :: y :: m, hsub, hall =>
      exfalso
      rw [List.nodup_cons] at hsub
      apply hsub.1
      rw [hall x (by simp), hall y (by simp)]
      simp
  · intro hx
    obtain ⟨p, hp, hpe⟩ := List.mem_map.1 hx
    have := (List.mem_filter.1 hp).2
    simp [hpe] at this
  · rw [List.pairwise_map]
    have h2 : (l.mergeSort fun a b => decide (a.1 ≤ b.1)).Pairwise fun a b => a.1 ≠ b.1 := by
      rw [List.nodup_iff_pairwise_ne, List.pairwise_map] at hnd
      exact hnd
    have h3 : (l.mergeSort fun a b => decide (a.1 ≤ b.1)).Pairwise fun a b => a.1 < b.1 :=
      (hsort.and h2).imp (by intro a b h; omega)
    exact h3.sublist List.filter_sublist

/-- The answer to a plural request. -/
theorem answer_other {e : Ent} {code : Int} {value info : Nat} {qual : Option (Int × Str)} (g : w.Good db)
    (ha : Asks w e code value) (hi : info = 2 ∨ info = 3)
    (hz : info = 2 → ∀ n ∈ db.byid, n.loop = none → n.addr ≠ 0) :
    ∃ rs, w.answer db e info qual = .ok (.recs rs) ∧ InOrder w.exec (rs.map (·.addr)) ∧
      (∀ r ∈ rs, ∃ n ∈ db.byid, Shown w code info n ∧ Fits code value n.addr ∧
        r = post w ⟨code, value, [], info, qual⟩ n) ∧
      (∀ n ∈ db.byid, Shown w code info n → Fits code value n.addr →
        ∃ r ∈ rs, r.addr = n.addr ∧ (n.addr ≠ 0 → r = post w ⟨code, value, [], info, qual⟩ n)) := by
  obtain ⟨hr, hneg⟩ := resolve_asks (db := db) ha info qual
  generalize hq : (⟨code, value, [], info, qual⟩ : Req) = q at hr ⊢
  have hm : q.mult = true := by subst hq; simpa [Req.mult] using hneg
  have hcode : q.code = code := by subst hq; rfl
  have hval : q.value = value := by subst hq; rfl
  have hinfo : q.info = info := by subst hq; rfl
  have hi' : q.char = true ∨ q.counters = true := by simpa [Req.char, Req.counters, hinfo] using hi
  have hz' : ∀ k, q.char = true → k = 0 → ∀ n ∈ db.byid, n.loop = none → n.addr ≠ 0 := by
    intro k hc _
    exact hz (by simpa [Req.char, hinfo] using hc)
  obtain ⟨s, e1, i1, g1⟩ := layers_other g q hm hi'
  have hfit := fun k => matches_iff (q := q) (k := k)
  have hmem : ∀ p, p ∈ w.sorted q s.resp ↔ s.resp.get p.1 = some p.2 ∧ Fits code value p.1 := by
    intro p
    have hmem := mem_resp i1.keys (p := p)
    have hf := hfit p.1
    rw [hcode, hval] at hf
    simp only [World.sorted, List.mem_append, List.mem_filter, List.mem_mergeSort, Bool.and_eq_true, beq_iff_eq,
      bne_iff_ne, hmem, hf]
    by_cases hpe : p.1 = w.exec <;> simp [hpe]
  have hrec : ∀ p ∈ w.sorted q s.resp, ∃ n, At w db q p.1 n ∧ p.2 = post w q n := by
    intro p hp
    have h1 := ((hmem p).1 hp).1
    rw [g1] at h1
    rcases fold2 g hi' p.1 (hz' p.1) with ⟨h, _⟩ | ⟨n, hn, h⟩
    · rw [h] at h1; cases h1
    · rw [h] at h1; exact ⟨n, hn, (Option.some.inj h1).symm⟩
  refine ⟨(w.sorted q s.resp).map (·.2), ?_, ?_, ?_, ?_⟩
  · unfold World.answer
    rw [hr]
    have : ¬info = 4 := by omega
    simp only [this, if_false, e1, hm, Bool.not_true, Bool.and_false, Bool.false_eq_true]
  · have : ((w.sorted q s.resp).map (·.2)).map (·.addr) = (w.sorted q s.resp).map (·.1) := by
      rw [List.map_map]
      apply List.map_congr_left
      intro p hp
      obtain ⟨n, hn, he⟩ := hrec p hp
      show p.2.addr = p.1
      rw [he, post_addr]; exact hn.2.1
    rw [this]
    exact sorted_order i1.keys
  · intro r hr
    obtain ⟨p, hp, rfl⟩ := List.mem_map.1 hr
    obtain ⟨n, hn, he⟩ := hrec p hp
    refine ⟨n, hn.1, ?_, ?_, he⟩
    · have := hn.2.2; rwa [hcode, hinfo] at this
    · rw [hn.2.1]; exact ((hmem p).1 hp).2
  · intro n hn hsh hf
    have hat : At w db q n.addr n := ⟨hn, rfl, by rw [hcode, hinfo]; exact hsh⟩
    rcases fold2 g hi' n.addr (hz' n.addr) with ⟨_, h⟩ | ⟨m, hm, h⟩
    · exact absurd ⟨n, hat⟩ h
    · rw [← g1] at h
      have hin : (n.addr, post w q m) ∈ w.sorted q s.resp := (hmem _).2 ⟨h, hf⟩
      refine ⟨post w q m, List.mem_map.2 ⟨_, hin, rfl⟩, by rw [post_addr]; exact hm.2.1, ?_⟩
      intro h0
      have hl : ∀ x ∈ db.byid, x.addr = n.addr → x.loop = none := by
        intro x hx ha
        cases h : x.loop with
        | none => rfl
        | some c => exact absurd (ha ▸ g.loop x hx (by simp [h])) h0
      rw [g.unique m hm.1 n hn (hl m hm.1 hm.2.1) (hl n hn rfl) hm.2.1]

end Verif.NiceRead
