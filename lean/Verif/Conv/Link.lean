import Verif.Conv.Run
import Verif.Route.Hist

/-!
# The network model against the router model

The receipt of a routing message entry by a router (`Verif.Route.Router.routemsg1`) is the `receive`
of the network model, for the destination of the entry; entries for other destinations do not matter.
-/
namespace Verif.Conv

open Verif.Route

variable {V ℓ : Type} [DecidableEq V] [DecidableEq ℓ]

/-- Router `r` is router `v` of the network in state `s`, as far as destination `i` is concerned. -/
structure Sim (N : Net V ℓ) (v : V) (i : Nat) (r : Router) (s : St V ℓ) : Prop where
  lim : N.lim v = r.cfg.lim
  range : i ≤ r.cfg.maxnodes
  ends : r.l1.hasEnds = true
  cols : ∃ sv rest, r.l1.cols = (.self, sv) :: rest ∧
    N.loc v = [r.l1.ends i, ⟨(sv i).1, (sv i).2, some .self⟩] ∧
    rest.map (fun p => (p.1, p.2 i)) = (N.ins v).map (fun l => (N.out l, s.tbl l))
  best : s.best v = r.l1.tbl i
  inj : ∀ l ∈ N.ins v, ∀ l' ∈ N.ins v, N.out l = N.out l' → l = l'
  nbr : ∀ l ∈ N.ins v, N.out l ≠ .self

omit [DecidableEq V] [DecidableEq ℓ] in
theorem sim_columns {N : Net V ℓ} {v : V} {i : Nat} {L : Level} {tbl : ℓ → Nat × Nat} {sv : Vec} {rest}
    (he : L.hasEnds = true) (h1 : L.cols = (.self, sv) :: rest)
    (h2 : N.loc v = [L.ends i, ⟨(sv i).1, (sv i).2, some .self⟩])
    (h3 : rest.map (fun p => (p.1, p.2 i)) = (N.ins v).map (fun l => (N.out l, tbl l))) :
    L.columns i = N.cols tbl v := by
  unfold Level.columns Net.cols
  rw [if_pos he, h1, h2]
  simp only [List.map_cons, List.singleton_append, List.cons_append, List.nil_append, List.cons.injEq, true_and]
  have := congrArg (List.map (fun q : Adj × Nat × Nat => (⟨q.2.1, q.2.2, some q.1⟩ : Col))) h3
  simpa [Function.comp_def] using this

omit [DecidableEq V] [DecidableEq ℓ] in
theorem lookup_rest {out : ℓ → Adj} {tbl : ℓ → Nat × Nat} {i : Nat} {rest : List (Adj × Vec)} {ins : List ℓ}
    (h : rest.map (fun p => (p.1, p.2 i)) = ins.map (fun l => (out l, tbl l))) {l : ℓ} (hl : l ∈ ins)
    (hinj : ∀ a ∈ ins, ∀ b ∈ ins, out a = out b → a = b) :
    ∃ w, rest.lookup (out l) = some w ∧ w i = tbl l := by
  induction rest generalizing ins with
  | nil =>
    cases ins with
    | nil => cases hl
    | cons a ins => simp at h
  | cons p rest ih =>
    cases ins with
    | nil => cases hl
    | cons a ins =>
      simp only [List.map_cons, List.cons.injEq, Prod.mk.injEq] at h
      obtain ⟨⟨h1, h2⟩, h3⟩ := h
      obtain ⟨k, x⟩ := p
      simp only at h1 h2
      rw [List.lookup_cons]
      by_cases hk : out l = k
      · rw [hk, beq_self_eq_true]
        refine ⟨x, rfl, ?_⟩
        have : l = a := hinj l hl a (by simp) (by rw [hk, h1])
        rw [this, h2]
      · have : (out l == k) = false := by simpa using hk
        rw [this]
        have hl' : l ∈ ins := by
          simp only [List.mem_cons] at hl
          rcases hl with rfl | hl
          · exact absurd h1.symm hk
          · exact hl
        exact ih h3 hl' (fun a ha b hb => hinj a (by simp [ha]) b (by simp [hb]))

omit [DecidableEq V] in
theorem dput_rest {out : ℓ → Adj} {tbl : ℓ → Nat × Nat} {i : Nat} {rest : List (Adj × Vec)} {ins : List ℓ}
    (h : rest.map (fun p => (p.1, p.2 i)) = ins.map (fun l => (out l, tbl l))) {l : ℓ} (hl : l ∈ ins)
    (hinj : ∀ a ∈ ins, ∀ b ∈ ins, out a = out b → a = b) (hnd : (keys rest).Nodup) {w : Vec} {x : Nat × Nat} :
    (dput rest (out l) (set w i x)).map (fun p => (p.1, p.2 i)) = ins.map (fun k => (out k, setf tbl l x k)) := by
  induction rest generalizing ins with
  | nil =>
    cases ins with
    | nil => cases hl
    | cons a ins => simp at h
  | cons p rest ih =>
    cases ins with
    | nil => cases hl
    | cons a ins =>
      simp only [List.map_cons, List.cons.injEq, Prod.mk.injEq] at h
      obtain ⟨⟨h1, h2⟩, h3⟩ := h
      obtain ⟨k, y⟩ := p
      simp only at h1 h2
      simp only [keys, List.map_cons, List.nodup_cons] at hnd
      simp only [dput]
      by_cases hk : k = out l
      · rw [if_pos hk]
        have hal : l = a := hinj l hl a (by simp) (by rw [← hk, h1])
        subst hal
        simp only [List.map_cons, List.cons.injEq, Prod.mk.injEq]
        refine ⟨⟨hk, by simp [Route.set, setf]⟩, ?_⟩
        rw [h3]
        apply List.map_congr_left
        intro b hb
        have hne : b ≠ l := by
          rintro rfl
          apply hnd.1
          have hm : (out b, tbl b) ∈ rest.map (fun p => (p.1, p.2 i)) := by
            rw [h3]; exact List.mem_map_of_mem (f := fun l => (out l, tbl l)) hb
          simp only [List.mem_map] at hm ⊢
          obtain ⟨q, hq, e⟩ := hm
          refine ⟨q, hq, ?_⟩
          rw [hk]
          exact (Prod.mk.inj e).1
        simp [setf, hne]
      · rw [if_neg hk]
        have hl' : l ∈ ins := by
          simp only [List.mem_cons] at hl
          rcases hl with rfl | hl
          · exact absurd h1 hk
          · exact hl
        simp only [List.map_cons, List.cons.injEq, Prod.mk.injEq]
        have hne : a ≠ l := by rintro rfl; exact hk h1
        refine ⟨⟨h1, by simp [setf, hne, h2]⟩, ?_⟩
        exact ih h3 hl' (fun a ha b hb => hinj a (by simp [ha]) b (by simp [hb])) hnd.2

/-- One entry for the destination. -/
theorem receive_sim {N : Net V ℓ} (hN : N.Ok) {v : V} {i : Nat} {r : Router} {s : St V ℓ} (h : Sim N v i r s)
    (hnd : (keys r.l1.cols).Nodup) {l : ℓ} (hl : l ∈ N.ins v) {k : Nat} (hk : N.out l = .nbr k) (m : Msg) :
    ∃ r', r.routemsg1 k [(i, m.hops + 1, m.cost + N.w l)] = some r' ∧ Sim N v i r' (N.receive s l m) := by
  obtain ⟨sv, rest, h1, h2, h3⟩ := h.cols
  obtain ⟨w, hw, hwi⟩ := lookup_rest h3 hl h.inj
  have hdst := hN.dst v l hl
  have hlook : r.l1.cols.lookup (.nbr k) = some w := by
    rw [h1, List.lookup_cons, ← hk]
    have : (N.out l == Adj.self) = false := by simpa using h.nbr l hl
    rw [this]; exact hw
  have hrange := h.range
  have hnot : ¬ i > r.cfg.maxnodes := by omega
  simp only [Router.routemsg1, if_neg hnot]
  unfold Level.col
  rw [hlook]
  simp only
  unfold Net.receive
  simp only
  by_cases hc : w i ≠ (m.hops + 1, m.cost + N.w l)
  · rw [if_pos hc, if_pos (by rw [← hwi]; exact hc)]
    refine ⟨_, rfl, ?_⟩
    have hput : dput r.l1.cols (.nbr k) (set w i (m.hops + 1, m.cost + N.w l)) =
        (.self, sv) :: dput rest (N.out l) (set w i (m.hops + 1, m.cost + N.w l)) := by
      rw [h1, ← hk]
      simp only [dput]
      rw [if_neg (Ne.symm (h.nbr l hl))]
    have hnd' : (keys rest).Nodup := by
      rw [h1] at hnd
      simp only [keys, List.map_cons, List.nodup_cons] at hnd
      exact hnd.2
    have h3' := dput_rest h3 hl h.inj hnd' (w := w) (x := (m.hops + 1, m.cost + N.w l))
    refine ⟨h.lim, h.range, h.ends, ⟨sv, _, hput, h2, h3'⟩, ?_, h.inj, h.nbr⟩
    simp only [setf, hdst, Router.route, Level.route, Nat.le_refl, and_self, if_true]
    unfold Net.best
    rw [h.lim]
    congr 1
    exact (sim_columns (L := { r.l1 with cols := dput r.l1.cols (.nbr k) (set w i (m.hops + 1, m.cost + N.w l)) })
      h.ends hput h2 h3').symm
  · rw [if_neg hc, if_neg (by rw [← hwi]; exact hc)]
    exact ⟨r, rfl, h⟩

/-- An entry for another destination changes nothing for this one. -/
theorem other_destination {N : Net V ℓ} {v : V} {i : Nat} {r r' : Router} {s : St V ℓ} (h : Sim N v i r s)
    {k j : Nat} (hj : j ≠ i) (x : Nat × Nat) (e : r.routemsg1 k [(j, x)] = some r') : Sim N v i r' s := by
  simp only [Router.routemsg1] at e
  split at e
  · cases e; exact h
  · cases hw : r.l1.col (.nbr k) with
    | none => rw [hw] at e; cases e
    | some w =>
      rw [hw] at e
      simp only at e
      by_cases hc : w j ≠ x
      · rw [if_pos hc] at e
        cases e
        obtain ⟨sv, rest, h1, h2, h3⟩ := h.cols
        have hlook : rest.lookup (.nbr k) = some w := by
          unfold Level.col at hw
          rw [h1, List.lookup_cons] at hw
          exact hw
        refine ⟨h.lim, h.range, h.ends, ⟨sv, dput rest (.nbr k) (set w j x), ?_, h2, ?_⟩, ?_, h.inj, h.nbr⟩
        · show dput r.l1.cols (.nbr k) (set w j x) = _
          rw [h1]
          simp only [dput]
          rw [if_neg (by simp)]
        · rw [← h3]
          clear h3 h1 h2 hw
          induction rest with
          | nil => cases hlook
          | cons p rest ih =>
            obtain ⟨a, y⟩ := p
            simp only [dput]
            by_cases ha : a = .nbr k
            · rw [if_pos ha]
              subst ha
              simp at hlook
              subst hlook
              simp [Route.set, Ne.symm hj]
            · rw [if_neg ha]
              have : (Adj.nbr k == a) = false := by simpa using Ne.symm ha
              rw [List.lookup_cons, this] at hlook
              simp only [List.map_cons]
              rw [ih hlook]
        · simp only [Router.route, Level.route]
          rw [if_neg (by omega)]
          exact h.best
      · rw [if_neg hc] at e
        cases e; exact h

end Verif.Conv
