import Verif.Conv.Run

/-!
# C17: routing converges to shortest paths
-/
namespace Verif.Conv

open Verif.Route

variable {V ℓ : Type}

/-! ## Specification -/

/-- A walk through the network that ends at a router which has the destination locally, with its hops
and cost, and the cost never beyond what the router at that point accepts. -/
inductive Path (N : Net V ℓ) : V → Nat → Nat → Prop
  | here (v : V) (c : Col) : c ∈ N.loc v → c.cost ≤ (N.lim v).maxcost → Path N v c.hops c.cost
  | next (v : V) (l : ℓ) (h c : Nat) : l ∈ N.ins v → Path N (N.src l) h c →
      c + N.w l ≤ (N.lim v).maxcost → Path N v (h + 1) (c + N.w l)

/-- A table entry gives a shortest path: it is one, and none is cheaper; and if there is none the
destination is unreachable. -/
structure Shortest (N : Net V ℓ) (v : V) (b : Best) : Prop where
  path : b.adj ≠ none → Path N v b.hops b.cost
  least : ∀ h c, Path N v h c → b.adj ≠ none ∧ b.cost ≤ c
  none : b.adj = none → b = unreachable

/-! ## Stable tables -/

theorem best_reach {N : Net V ℓ} (hN : N.Ok) (tbl : ℓ → Nat × Nat) (v : V) :
    (N.best tbl v).adj ≠ none ↔ (N.best tbl v).cost ≤ (N.lim v).maxcost := by
  unfold Net.best
  rcases decision_eq (hN.wf tbl v) (hN.lt v) with ⟨c, hc, h1, _, e⟩ | ⟨_, e⟩
  · rw [e]
    have := hN.lt v
    exact ⟨fun _ => h1, fun _ => hN.wf tbl v c hc.mem (by omega)⟩
  · rw [e]
    have := hN.lt v
    constructor
    · intro h; exact absurd rfl h
    · intro h; simp only [unreachable] at h; omega

/-- The chosen offer is a local one, or the neighbour it leads to is closer by the cost of the link. -/
theorem next_hop_closer {N : Net V ℓ} (hN : N.Ok) {tbl : ℓ → Nat × Nat} (hs : Stable N tbl) (v : V)
    (hr : (N.best tbl v).adj ≠ none) :
    (∃ c ∈ N.loc v, N.best tbl v = c.best) ∨
    ∃ l ∈ N.ins v, (N.best tbl v).adj = some (N.out l) ∧ (N.best tbl (N.src l)).adj ≠ none ∧
      (N.best tbl v).cost = (N.best tbl (N.src l)).cost + N.w l ∧
      (N.best tbl v).hops = (N.best tbl (N.src l)).hops + 1 := by
  have hr' := (best_reach hN tbl v).1 hr
  have hlt := hN.lt v
  unfold Net.best at hr ⊢
  rcases decision_eq (hN.wf tbl v) (hN.lt v) with ⟨c, hc, h1, _, e⟩ | ⟨_, e⟩
  · rw [e]
    have hm := hc.mem
    unfold Net.cols at hm
    simp only [List.mem_append, List.mem_map] at hm
    rcases hm with hm | ⟨l, hl, rfl⟩
    · exact Or.inl ⟨c, hm, rfl⟩
    · right
      refine ⟨l, hl, rfl, ?_, ?_, ?_⟩
      · have h2 : (N.best tbl (N.src l)).adj ≠ none := by
          rw [best_reach hN]
          simp only at h1
          rw [hs v l hl, Net.adv] at h1
          simp only at h1
          rcases best_cases hN tbl (N.src l) with h | h
          · exact h
          · rw [h] at h1; simp only [unreachable] at h1; omega
        exact h2
      · simp only [Col.best, hs v l hl, Net.adv]; rfl
      · simp only [Col.best, hs v l hl, Net.adv]; rfl
  · rw [e] at hr; exact absurd rfl hr

theorem path_sound {N : Net V ℓ} (hN : N.Ok) {tbl : ℓ → Nat × Nat} (hs : Stable N tbl) (v : V)
    (hr : (N.best tbl v).adj ≠ none) : Path N v (N.best tbl v).hops (N.best tbl v).cost := by
  induction hn : (N.best tbl v).cost using Nat.strongRecOn generalizing v with
  | _ n ih =>
    have hr' := (best_reach hN tbl v).1 hr
    rcases next_hop_closer hN hs v hr with ⟨c, hc, e⟩ | ⟨l, hl, _, h2, h3, h4⟩
    · rw [e] at hn hr' ⊢
      simp only [Col.best] at hn hr' ⊢
      subst hn
      exact .here v c hc hr'
    · have := hN.w l
      have hp := ih _ (by omega) (N.src l) h2 rfl
      rw [h4, ← hn, h3]
      exact .next v l _ _ hl hp (by omega)

theorem filter_lt {α : Type} {l : List α} {p q : α → Bool} (h : ∀ x ∈ l, p x = true → q x = true) {y : α}
    (hy : y ∈ l) (hq : q y = true) (hp : p y = false) : (l.filter p).length < (l.filter q).length := by
  induction l with
  | nil => cases hy
  | cons a l ih =>
    have hmono : ∀ m : List α, (∀ x ∈ m, p x = true → q x = true) → (m.filter p).length ≤ (m.filter q).length := by
      intro m
      induction m with
      | nil => intro _; exact Nat.le_refl _
      | cons b m ihm =>
        intro hb
        have := ihm (fun x hx => hb x (by simp [hx]))
        by_cases hpb : p b = true
        · rw [List.filter_cons_of_pos hpb, List.filter_cons_of_pos (hb b (by simp) hpb)]
          simp; omega
        · rw [List.filter_cons_of_neg hpb]
          by_cases hqb : q b = true
          · rw [List.filter_cons_of_pos hqb]; simp; omega
          · rw [List.filter_cons_of_neg hqb]; exact this
    have hm := hmono l (fun x hx => h x (by simp [hx]))
    simp only [List.mem_cons] at hy
    rcases hy with rfl | hy
    · rw [List.filter_cons_of_neg (by simp [hp]), List.filter_cons_of_pos hq]
      simp; omega
    · have ih := ih (fun x hx => h x (by simp [hx])) hy
      by_cases hpa : p a = true
      · rw [List.filter_cons_of_pos hpa, List.filter_cons_of_pos (h a (by simp) hpa)]
        simp; omega
      · rw [List.filter_cons_of_neg hpa]
        by_cases hqa : q a = true
        · rw [List.filter_cons_of_pos hqa]; simp; omega
        · rw [List.filter_cons_of_neg hqa]; exact ih

/-- Number of routers that are closer than a given cost. -/
def closer (N : Net V ℓ) (all : List V) (tbl : ℓ → Nat × Nat) (n : Nat) : Nat :=
  (all.filter (fun u => (N.best tbl u).cost < n)).length

theorem hops_le {N : Net V ℓ} (hN : N.Ok) {tbl : ℓ → Nat × Nat} (hs : Stable N tbl) (all : List V)
    (hall : ∀ v, v ∈ all) (hloc : ∀ v, ∀ c ∈ N.loc v, c.cost < INFCOST → c.hops ≤ 1) (v : V)
    (hr : (N.best tbl v).adj ≠ none) :
    (N.best tbl v).hops ≤ 1 + closer N all tbl (N.best tbl v).cost := by
  induction hn : (N.best tbl v).cost using Nat.strongRecOn generalizing v with
  | _ n ih =>
    have hr' := (best_reach hN tbl v).1 hr
    have hlt := hN.lt v
    rcases next_hop_closer hN hs v hr with ⟨c, hc, e⟩ | ⟨l, hl, _, h2, h3, h4⟩
    · rw [e] at hn hr' ⊢
      simp only [Col.best] at hn hr' ⊢
      have := hloc v c hc (by omega)
      omega
    · have := hN.w l
      have hp := ih _ (by omega) (N.src l) h2 rfl
      have hlt' : closer N all tbl (N.best tbl (N.src l)).cost < closer N all tbl n := by
        unfold closer
        refine filter_lt ?_ (hall (N.src l)) ?_ ?_
        · intro x _ hx
          simp only [decide_eq_true_eq] at hx ⊢
          omega
        · simp only [decide_eq_true_eq]; omega
        · simp
      omega

/-- With no more routers than hops allowed, the hop limit never matters: an offer within the cost limit
means the destination is reachable, at most at that cost. -/
theorem offer_taken {N : Net V ℓ} (hN : N.Ok) {tbl : ℓ → Nat × Nat} (hs : Stable N tbl) (all : List V)
    (hall : ∀ v, v ∈ all) (hloc : ∀ v, ∀ c ∈ N.loc v, c.cost < INFCOST → c.hops ≤ 1)
    (hhops : ∀ v, all.length ≤ (N.lim v).maxhops) (v : V) (c : Col) (hc : c ∈ N.cols tbl v)
    (hle : c.cost ≤ (N.lim v).maxcost) : (N.best tbl v).adj ≠ none ∧ (N.best tbl v).cost ≤ c.cost := by
  have hlt := hN.lt v
  rcases decision_eq (hN.wf tbl v) (hN.lt v) with ⟨d, hd, h1, _, e⟩ | ⟨h1, e⟩
  · unfold Net.best
    rw [e]
    exact ⟨hN.wf tbl v d hd.mem (by omega), hd.le c hc⟩
  · exfalso
    obtain ⟨d, hd⟩ := FirstMin.exists (List.ne_nil_of_mem hc)
    have hdc := hd.le c hc
    rcases h1 d hd with h | h
    · omega
    · have hv : N.best tbl v = unreachable := e
      have hpos : 1 ≤ all.length := List.length_pos_of_mem (hall v)
      have hcl : closer N all tbl d.cost + 1 ≤ all.length := by
        have : closer N all tbl d.cost < (all.filter (fun _ => true)).length := by
          unfold closer
          refine filter_lt (fun _ _ _ => rfl) (hall v) rfl ?_
          refine decide_eq_false ?_
          show ¬ (N.best tbl v).cost < d.cost
          rw [hv]
          show ¬ INFCOST < d.cost
          omega
        rw [List.filter_eq_self.2 (fun _ _ => rfl)] at this
        exact this
      have := hhops v
      have hm := hd.mem
      unfold Net.cols at hm
      simp only [List.mem_append, List.mem_map] at hm
      rcases hm with hm | ⟨l, hl, rfl⟩
      · have := hloc v d hm (by omega); omega
      · have e1 : tbl l = N.adv l (N.best tbl (N.src l)) := hs v l hl
        simp only [e1, Net.adv] at h hdc hcl
        have hw := hN.w l
        have hsr : (N.best tbl (N.src l)).adj ≠ none := by
          rw [best_reach hN]
          rcases best_cases hN tbl (N.src l) with h | h
          · exact h
          · rw [h] at hdc; simp only [unreachable] at hdc; omega
        have hh := hops_le hN hs all hall hloc (N.src l) hsr
        have hlt' : closer N all tbl (N.best tbl (N.src l)).cost <
            closer N all tbl ((N.best tbl (N.src l)).cost + N.w l) := by
          unfold closer
          refine filter_lt ?_ (hall (N.src l)) ?_ ?_
          · intro x _ hx
            simp only [decide_eq_true_eq] at hx ⊢
            omega
          · simp only [decide_eq_true_eq]; omega
          · simp
        omega

theorem path_least {N : Net V ℓ} (hN : N.Ok) {tbl : ℓ → Nat × Nat} (hs : Stable N tbl) (all : List V)
    (hall : ∀ v, v ∈ all) (hloc : ∀ v, ∀ c ∈ N.loc v, c.cost < INFCOST → c.hops ≤ 1)
    (hhops : ∀ v, all.length ≤ (N.lim v).maxhops) {v : V} {h c : Nat} (hp : Path N v h c) :
    (N.best tbl v).adj ≠ none ∧ (N.best tbl v).cost ≤ c := by
  induction hp with
  | here v c hc hle =>
    exact offer_taken hN hs all hall hloc hhops v c (by simp [Net.cols, hc]) hle
  | next v l h c hl _ hle ih =>
    obtain ⟨_, ih⟩ := ih
    have e1 : tbl l = N.adv l (N.best tbl (N.src l)) := hs v l hl
    have := offer_taken hN hs all hall hloc hhops v ⟨(tbl l).1, (tbl l).2, some (N.out l)⟩
      (by simp only [Net.cols, List.mem_append, List.mem_map]; exact Or.inr ⟨l, hl, rfl⟩)
      (by simp only [e1, Net.adv]; omega)
    simp only [e1, Net.adv] at this
    exact ⟨this.1, by omega⟩

/-! ## Theorems -/

/-- A state that no update would change has the shortest paths, if there are no more routers than the
hop limit allows. -/
theorem stable_is_shortest (N : Net V ℓ) (hN : N.Ok) (all : List V) (hall : ∀ v, v ∈ all)
    (hloc : ∀ v, ∀ c ∈ N.loc v, c.cost < INFCOST → c.hops ≤ 1)
    (hhops : ∀ v, all.length ≤ (N.lim v).maxhops) (tbl : ℓ → Nat × Nat) (hs : Stable N tbl) (v : V) :
    Shortest N v (N.best tbl v) := by
  refine ⟨path_sound hN hs v, fun h c hp => path_least hN hs all hall hloc hhops hp, ?_⟩
  intro hn
  rcases best_cases hN tbl v with h | h
  · exact absurd hn ((best_reach hN tbl v).2 h)
  · exact h

/-- Whatever the hop limits: there is a stable state, all stable states have the same table entries, and
every entry that is not "unreachable" is a path. -/
theorem stable_unique (N : Net V ℓ) (hN : N.Ok) :
    (∃ tbl, Stable N tbl) ∧
    (∀ tbl tbl', Stable N tbl → Stable N tbl' → ∀ v, N.best tbl v = N.best tbl' v) ∧
    (∀ tbl, Stable N tbl → ∀ v, (N.best tbl v).adj ≠ none → Path N v (N.best tbl v).hops (N.best tbl v).cost) := by
  refine ⟨⟨_, stable_exists hN⟩, ?_, fun tbl hs v => path_sound hN hs v⟩
  intro tbl tbl' hs hs' v
  exact converged hN (M := 1022) hN.maxcost (Nat.le_refl _) (hs.after 1023 0) (hs'.after 1023 0)
    (Nat.le_refl 0) (Nat.le_refl 0) v

variable [DecidableEq V] [DecidableEq ℓ]

/-- From any tables, any messages under way and in any order of events, with loss: once every link has
gone through as many rounds as one more than the greatest maximum cost, the table entries never change
again and are those of the stable state.  This bounds counting to infinity. -/
theorem settles_within (N : Net V ℓ) (hN : N.Ok) (M : Nat) (hM : ∀ v, (N.lim v).maxcost ≤ M) (hM' : M ≤ 1022)
    (R : Run N) (T : Nat) (h : After N (fun t => (R.st t).tbl) (M + 1) T) (tbl : ℓ → Nat × Nat) (hs : Stable N tbl)
    (t : Nat) (ht : T ≤ t) (v : V) : (R.st t).best v = N.best tbl v := by
  rw [R.best hN]
  exact converged hN hM hM' h (hs.after (M + 1) 0) ht (Nat.le_refl 0) v

/-- Every fair run reaches that point, and the tables then hold shortest paths. -/
theorem converges (N : Net V ℓ) (hN : N.Ok) (links : List ℓ) (hl : ∀ v, ∀ l ∈ N.ins v, l ∈ links)
    (all : List V) (hall : ∀ v, v ∈ all) (hloc : ∀ v, ∀ c ∈ N.loc v, c.cost < INFCOST → c.hops ≤ 1)
    (hhops : ∀ v, all.length ≤ (N.lim v).maxhops) (R : Run N) (hf : R.Fair) :
    ∃ T, ∀ t, T ≤ t → ∀ v, (R.st t).best v = (R.st T).best v ∧ Shortest N v ((R.st t).best v) := by
  obtain ⟨tbl, hs⟩ := (stable_unique N hN).1
  obtain ⟨T, h⟩ := R.after hN hf links hl 1023
  have key : ∀ t, T ≤ t → ∀ v, (R.st t).best v = N.best tbl v := fun t ht v =>
    settles_within N hN 1022 hN.maxcost (Nat.le_refl _) R T h tbl hs t ht v
  refine ⟨T, fun t ht v => ⟨by rw [key t ht, key T (Nat.le_refl _)], ?_⟩⟩
  rw [key t ht]
  exact stable_is_shortest N hN all hall hloc hhops tbl hs v

/-- The same without assumption on the hop limits: the tables settle on those of the stable state. -/
theorem converges_any_limit (N : Net V ℓ) (hN : N.Ok) (links : List ℓ) (hl : ∀ v, ∀ l ∈ N.ins v, l ∈ links)
    (R : Run N) (hf : R.Fair) (tbl : ℓ → Nat × Nat) (hs : Stable N tbl) :
    ∃ T, ∀ t, T ≤ t → ∀ v, (R.st t).best v = N.best tbl v := by
  obtain ⟨T, h⟩ := R.after hN hf links hl 1023
  exact ⟨T, fun t ht v => settles_within N hN 1022 hN.maxcost (Nat.le_refl _) R T h tbl hs t ht v⟩

/-! ## Cases -/

/-- Three routers in a ring; the destination is router 0.  The direct link from 2 to 0 costs 10, the
way around 3 + 2.  Links: (receiver, sender). -/
def ring : Net (Fin 3) (Fin 3 × Fin 3) where
  lim _ := ⟨100, 16⟩
  loc v := if v = 0 then [⟨0, 0, some .self⟩] else []
  ins v := [(v, v + 1), (v, v + 2)]
  src l := l.2
  dst l := l.1
  w l := if l = (2, 0) ∨ l = (0, 2) then 10 else if l = (2, 1) ∨ l = (1, 2) then 2 else 3
  out l := .nbr l.2.val

theorem ring_ok : ring.Ok := by
  refine ⟨fun _ => by simp [ring], fun l => ?_, fun v => ?_, fun v l hl => ?_⟩
  · simp only [ring]; split
    · omega
    · split <;> omega
  · intro c hc _
    simp only [ring] at hc
    split at hc
    · simp at hc; subst hc; simp
    · simp at hc
  · simp only [ring, List.mem_cons, List.not_mem_nil, or_false] at hl
    rcases hl with rfl | rfl <;> rfl

/-- The stable tables of the ring, and that they are stable. -/
example : Stable ring (sync ring 4) ∧
    [0, 1, 2].map (ring.best (sync ring 4)) =
      [⟨0, 0, some .self⟩, ⟨1, 3, some (.nbr 0)⟩, ⟨2, 5, some (.nbr 1)⟩] := by
  refine ⟨?_, by decide +kernel⟩
  have : ∀ v : Fin 3, ∀ l ∈ ring.ins v, sync ring 4 l = ring.adv l (ring.best (sync ring 4) (ring.src l)) := by
    decide +kernel
  exact this

/-- The hypotheses of `stable_is_shortest` hold for the ring. -/
example (v : Fin 3) : Shortest ring v (ring.best (sync ring 1024) v) := by
  refine stable_is_shortest ring ring_ok [0, 1, 2] (by decide) ?_ (fun _ => by simp [ring]) _ (stable_exists ring_ok) v
  intro v c hc _
  simp only [ring] at hc
  split at hc
  · simp at hc; subst hc; simp
  · simp at hc

/-- One link, on which sending and receiving alternate. -/
def pair : Net Bool Unit where
  lim _ := ⟨100, 16⟩
  loc v := if v then [⟨0, 0, some .self⟩] else []
  ins v := if v then [] else [()]
  src _ := true
  dst _ := false
  w _ := 4
  out _ := .nbr 1

def pairEv (t : Nat) : Ev Unit := if t % 2 = 0 then .send () else .recv ()

def pairSt : Nat → St Bool Unit
  | 0 => ⟨fun _ => (7, 9), fun v => pair.best (fun _ => (7, 9)) v, fun _ => [], 0, fun _ => 0⟩
  | t + 1 => pair.step (pairSt t) (pairEv t)

theorem pair_send (s : St Bool Unit) (h : s.chan () = []) :
    ∃ m, (pair.step s (.send ())).chan () = [m] ∧ m.stamp = s.now + 1 := by
  refine ⟨⟨(s.best true).hops, (s.best true).cost, s.now + 1⟩, ?_, rfl⟩
  simp [Net.step, Net.act, setf, h, pair]

theorem pair_recv (s : St Bool Unit) (m : Msg) (h : s.chan () = [m]) : (pair.step s (.recv ())).chan () = [] := by
  simp only [Net.step, Net.act, h]
  rw [(receive_chan _ _ _).1]
  simp [setf]

/-- There are fair runs. -/
example : ∃ R : Run pair, R.Fair := by
  refine ⟨⟨pairSt, pairEv, fun _ => rfl, rfl, fun _ => rfl, (fun _ m hm => nomatch hm), fun _ => rfl⟩, ?_⟩
  have hnow : ∀ t, (pairSt t).now = t := by
    intro t
    induction t with
    | zero => rfl
    | succ t ih => simp [pairSt, Net.step, ih]
  have hs1 : ∀ t, pairSt (t + 1) = pair.step (pairSt t) (pairEv t) := fun _ => rfl
  have odd : ∀ n, (pairSt (2 * n)).chan () = [] →
      ∃ m, (pairSt (2 * n + 1)).chan () = [m] ∧ m.stamp = 2 * n + 1 := by
    intro n h
    have e : pairEv (2 * n) = .send () := by simp [pairEv]
    rw [hs1, e]
    have := pair_send _ h
    rw [hnow] at this
    exact this
  have key : ∀ n, (pairSt (2 * n)).chan () = [] := by
    intro n
    induction n with
    | zero => rfl
    | succ n ih =>
      obtain ⟨m, hm, _⟩ := odd n ih
      have e : 2 * (n + 1) = (2 * n + 1) + 1 := by omega
      have e2 : (2 * n + 1) % 2 = 1 := by omega
      have e3 : pairEv (2 * n + 1) = .recv () := by simp [pairEv, e2]
      rw [e, hs1, e3]
      exact pair_recv _ m hm
  intro l T
  obtain ⟨m, hm, hs⟩ := odd T (key T)
  refine ⟨2 * T + 1, m, [], ?_, hm, by omega⟩
  show pairEv (2 * T + 1) = _
  have e2 : (2 * T + 1) % 2 = 1 := by omega
  simp [pairEv, e2]

end Verif.Conv
