import Verif.Conn.Spec

/-!
# The tables of the connector against the log
-/

namespace Verif.Conn

theorem get_put {β} (d : List (Nat × β)) (k j : Nat) (v : β) :
    get (put d k v) j = if j = k then some v else get d j := by
  unfold get put
  by_cases h : j = k
  · subst h; simp
  · rw [if_neg h, List.find?_cons_of_neg (by simpa using fun e => h e.symm), List.find?_filter]
    congr 2
    funext a
    by_cases e : a.1 = j
    · simp [e, h]
    · simp [e]

theorem get_del {β} (d : List (Nat × β)) (k j : Nat) :
    get (del d k) j = if j = k then none else get d j := by
  unfold get del
  by_cases h : j = k
  · subst h
    rw [if_pos rfl, List.find?_filter]
    simp
  · rw [if_neg h, List.find?_filter]
    congr 2
    funext a
    by_cases e : a.1 = j
    · simp [e, h]
    · simp [e]

@[simp] theorem set_obj (s : State) (c : Nat) (o : Obj) (i : Nat) :
    (s.set c o).obj i = if i = c then o else s.obj i := rfl
@[simp] theorem set_tag (s : State) (c : Nat) (o : Obj) : (s.set c o).tag = s.tag := rfl
@[simp] theorem set_exch (s : State) (c : Nat) (o : Obj) : (s.set c o).exch = s.exch := rfl
@[simp] theorem set_conns (s : State) (c : Nat) (o : Obj) : (s.set c o).conns = s.conns := rfl
@[simp] theorem set_next (s : State) (c : Nat) (o : Obj) : (s.set c o).next = s.next := rfl
@[simp] theorem set_up (s : State) (c : Nat) (o : Obj) : (s.set c o).up = s.up := rfl
@[simp] theorem set_recvq (s : State) (c : Nat) (o : Obj) : (s.set c o).recvq = s.recvq := rfl

theorem waiting_snoc (t : Nat) (l : Log) (x) : waiting t (l ++ [x]) = waitStep t (waiting t l) x := by
  simp [waiting]

theorem hand_snoc (c : Nat) (l : Log) (x) : hand c (l ++ [x]) = handStep c (hand c l) x := by
  simp [hand]

theorem down_snoc (l : Log) (x : Ev × List Out) : Down (l ++ [x]) ↔ Down l ∨ Out.down ∈ x.2 := by
  simp [Down, or_and_right, exists_or]

theorem gotten_snoc (c : Nat) (l : Log) (x) : gotten c (l ++ [x]) = gotten c l ++ gotten c [x] := by
  simp [gotten]

theorem answered_snoc (c : Nat) (l : Log) (x) : answered c (l ++ [x]) = answered c l ++ answered c [x] := by
  simp [answered]

/-- One output, seen from a connection object. -/
def handOut (c : Nat) (h : Option Nat) (o : Out) : Option Nat :=
  if o = .closed c then none else
    match o with
    | .opened c' h' => if c' = c then some h' else h
    | _ => h

theorem handStep_eq (c : Nat) (h : Option Nat) (x : Ev × List Out) :
    handStep c h x = x.2.foldl (handOut c) h := rfl

/-- The table of connections, against what is known of each. -/
structure Tab (s : State) (H : Nat → Option Nat) : Prop where
  hand : ∀ c, H c = if c < s.next ∧ (s.obj c).closed = false then some (s.obj c).handle else none
  conns : ∀ h c, get s.conns h = some c ↔ c < s.next ∧ (s.obj c).closed = false ∧ (s.obj c).handle = h
  nz : ∀ c, c < s.next → (s.obj c).handle ≠ 0

theorem Tab.same {s s' : State} {H} (h : Tab s H) (hn : s'.next = s.next) (hc : s'.conns = s.conns)
    (ho : ∀ c, (s'.obj c).closed = (s.obj c).closed ∧ (s'.obj c).handle = (s.obj c).handle) : Tab s' H := by
  refine ⟨fun c => ?_, fun k c => ?_, fun c hlt => ?_⟩
  · rw [hn, (ho c).1, (ho c).2]; exact h.hand c
  · rw [hn, (ho c).1, (ho c).2, hc]; exact h.conns k c
  · rw [(ho c).2]; exact h.nz c (hn ▸ hlt)

theorem Tab.open {s : State} {H} (h : Tab s H) {k : Nat} (hk : k ≠ 0) (hf : get s.conns k = none) :
    Tab (fresh s k) (fun c => handOut c (H c) (.opened s.next k)) := by
  refine ⟨fun c => ?_, fun j c => ?_, fun c hlt => ?_⟩
  · by_cases e : c = s.next
    · subst e; simp [handOut, fresh]
    · have e' : s.next ≠ c := fun x => e x.symm
      have := h.hand c
      simp only [handOut, fresh, set_obj, if_neg e, if_neg e', reduceCtorEq, if_false]
      rw [this]
      have hh : (c < s.next + 1) ↔ c < s.next := by omega
      simp only [hh]
  · simp only [fresh, get_put, set_obj]
    by_cases e : c = s.next
    · subst e
      by_cases ej : j = k
      · subst ej; simp
      · have : get s.conns j ≠ some s.next := fun x => by
          have := ((h.conns _ _).mp x).1; omega
        simp only [if_neg ej, this, false_iff, if_true, not_and]
        exact fun _ _ x => ej x.symm
    · by_cases ej : j = k
      · subst ej
        have hnot : ¬ (c < s.next ∧ (s.obj c).closed = false ∧ (s.obj c).handle = j) := fun x => by
          have := (h.conns _ _).mpr x
          rw [hf] at this; cases this
        have hh : (c < s.next + 1) ↔ c < s.next := by omega
        simp only [if_true, if_neg e, hh]
        constructor
        · intro x; exact absurd (Option.some.inj x).symm e
        · intro x; exact absurd x hnot
      · have hh : (c < s.next + 1) ↔ c < s.next := by omega
        simp only [if_neg ej, if_neg e, hh]
        exact h.conns j c
  · simp only [fresh, set_obj] at hlt ⊢
    by_cases e : c = s.next
    · simp [e, hk]
    · rw [if_neg e]; exact h.nz c (by omega)

theorem Tab.close {s : State} {H} (h : Tab s H) {c : Nat} (hc : c < s.next) (ho : (s.obj c).closed = false) :
    Tab (close s c).1 (fun i => handOut i (H i) (.closed c)) ∧ (close s c).2 = [.closed c] := by
  have hcl : Conn.close s c = ({ s.set c { s.obj c with closed := true } with
      conns := del s.conns (s.obj c).handle }, [.closed c]) := by
    unfold Conn.close; rw [if_neg (by simp [ho])]
  rw [hcl]
  refine ⟨⟨fun i => ?_, fun j i => ?_, fun i hlt => ?_⟩, rfl⟩
  · by_cases e : i = c
    · subst e; simp [handOut]
    · have e' : c ≠ i := fun x => e x.symm
      simp only [handOut, Out.closed.injEq, if_neg e', set_obj, if_neg e, set_next]
      exact h.hand i
  · simp only [get_del, set_obj, set_next]
    by_cases ej : j = (s.obj c).handle
    · rw [if_pos ej]
      by_cases e : i = c
      · subst e; simp
      · simp only [if_neg e, reduceCtorEq, false_iff]
        intro x
        have h1 := (h.conns j i).mpr x
        have h2 := (h.conns j c).mpr ⟨hc, ho, ej.symm⟩
        rw [h1] at h2; exact e (Option.some.inj h2)
    · rw [if_neg ej]
      by_cases e : i = c
      · subst e
        simp only [if_true, Bool.true_eq_false, false_and, and_false, iff_false]
        intro x; exact ej ((h.conns _ _).mp x).2.2.symm
      · simp only [if_neg e]; exact h.conns j i
  · simp only [set_obj, set_next] at hlt ⊢
    by_cases e : i = c
    · subst e; simp [h.nz i hlt]
    · rw [if_neg e]; exact h.nz i hlt

/-- What holds of a reachable state and the log. -/
structure Inv (late : Bool) (s : State) (l : Log) : Prop where
  tab : Tab s (fun c => hand c l)
  up : s.up = true ↔ ¬ Down l
  exch : s.up = true → ∀ t, get s.exch t = if late then waiting t l else (waiting t l).bind fun b => if b then none else some false
  old : ∀ t, get s.exch t ≠ none → t ≤ s.tag
  wait : ∀ t, waiting t l ≠ none → t ≤ s.tag
  heard : ∀ c, Heard c l (gotten c l ++ (s.obj c).recvq)
  called : ∀ c, Called c l (answered c l ++ (s.obj c).listenq)
  new : ∀ c, s.next ≤ c → (s.obj c).recvq = [] ∧ (s.obj c).listenq = []

open Classical in
/-- The message that an event brings to a connection object. -/
noncomputable def brings (c : Nat) (l : Log) (x : Ev × List Out) : List Msg :=
  match x.1 with
  | .line m => if ¬ Down l ∧ m.tag = none ∧ hand c (l ++ [x]) = some m.handle then [m] else []
  | _ => []

theorem heard_snoc {c l q x} (h : Heard c l q) : Heard c (l ++ [x]) (q ++ brings c l x) := by
  obtain ⟨e, o⟩ := x
  unfold brings
  split
  · rename_i m he
    simp only at he
    subst he
    split
    · rename_i hh
      exact .hear h hh.1 hh.2.1 hh.2.2
    · rename_i hh
      rw [List.append_nil]
      refine .skip h fun m' hm => ?_
      simp only [Ev.line.injEq] at hm
      subst hm
      intro a b c
      exact hh ⟨a, b, c⟩
  · rename_i hn
    rw [List.append_nil]
    exact .skip h fun m hm => absurd hm (hn m)

theorem Inv.init (late : Bool) : Inv late State.init [] := by
  refine ⟨⟨?_, ?_, ?_⟩, ?_, ?_, ?_, ?_, fun c => .nil, fun c => .nil, fun _ _ => ⟨rfl, rfl⟩⟩
  · intro c; simp [hand, State.init]
  · intro h c; simp [get, State.init]
  · intro c hc; simp [State.init] at hc
  · simp [State.init, Down]
  · intro _ t; simp [State.init, get, waiting]
  · intro t; simp [State.init, get]
  · intro t; simp [waiting]

end Verif.Conn
