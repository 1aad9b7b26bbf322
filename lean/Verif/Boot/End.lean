import Verif.Boot.Props

/-!
# C132: what is stopped at the end, and the socket
-/

namespace Verif.Boot

/-- Acts of the end that stop nothing and of the start that start nothing. -/
theorem before_stops (ss : List Sys) (api : Option Api) : stops (before ss api) = [] := by
  unfold before
  rw [stops_append, stops_startNodes]
  cases api <;> rfl

theorem before_starts (ss : List Sys) (api : Option Api) : starts (before ss api) = starts (startNodes 0 ss) := by
  unfold before
  rw [starts_append]
  cases api <;> simp [starts]

theorem after_starts (ss : List Sys) (api : Option Api) : starts (after ss api) = [] := by
  unfold after
  rw [starts_append, starts_append, starts_stopNodes]
  cases api <;> rfl

theorem after_stops (ss : List Sys) (api : Option Api) : stops (after ss api) = (starts (startNodes 0 ss)).reverse := by
  unfold after
  rw [stops_append, stops_append, reversed]
  cases api <;> simp [stops]

theorem filterMap_prefix {α β : Type} (f : α → Option β) {a b : List α} (h : a <+: b) :
    a.filterMap f <+: b.filterMap f := by
  obtain ⟨c, rfl⟩ := h
  rw [List.filterMap_append]
  exact List.prefix_append _ _

theorem starts_prefix {a b : List Act} (h : a <+: b) : starts a <+: starts b := filterMap_prefix _ h
theorem stops_prefix' {a b : List Act} (h : a <+: b) : stops a <+: stops b := filterMap_prefix _ h

theorem prefix_nil {α : Type} {a : List α} (h : a <+: []) : a = [] := List.prefix_nil.mp h

theorem no_apiStop_before (ss : List Sys) (api : Option Api) : .apiStop ∉ before ss api := by
  have : ∀ ss n, Act.apiStop ∉ startNodes n ss := by
    intro ss
    induction ss with
    | nil => intro n; simp [startNodes]
    | cons s l ih =>
      intro n
      rw [startNodes, List.mem_append, not_or]
      exact ⟨by simp [startNode], ih _⟩
  unfold before
  rw [List.mem_append, not_or]
  refine ⟨this ss 0, ?_⟩
  cases api <;> simp

theorem no_apiStop_nodes (ss : List Sys) : ∀ n, Act.apiStop ∉ stopNodes n ss := by
  induction ss with
  | nil => intro n; simp [stopNodes]
  | cons s l ih =>
    intro n
    rw [stopNodes, List.mem_append, not_or]
    exact ⟨ih _, by simp [stopNode]⟩

/-- A run with an exception before `try`. -/
theorem run_early {ss : List Sys} {api : Option Api} {env : Nat → Option Exc} {x : Exc}
    (h : (exec api env 0 (before ss api)).2 = some x) : run ss api env = ((exec api env 0 (before ss api)).1, some x) := by
  unfold run; simp only [h]

/-- Any other run. -/
theorem run_late {ss : List Sys} {api : Option Api} {env : Nat → Option Exc}
    (h : (exec api env 0 (before ss api)).2 = none) :
    starts (run ss api env).1 = starts (startNodes 0 ss) ∧
    stops (run ss api env).1 = stops (exec api env ((before ss api).length + 2) (after ss api)).1 := by
  have hb := exec_all api env _ 0 h
  unfold run
  simp only [h, starts_append, stops_append]
  have h1 : ∀ i, starts (exec api env i [.serve]).1 = [] ∧ stops (exec api env i [.serve]).1 = [] := fun i =>
    ⟨prefix_nil (starts_prefix (exec_prefix api env [.serve] i)), prefix_nil (stops_prefix' (exec_prefix api env [.serve] i))⟩
  have h2 : ∀ i, starts (exec api env i [.say]).1 = [] ∧ stops (exec api env i [.say]).1 = [] := fun i =>
    ⟨prefix_nil (starts_prefix (exec_prefix api env [.say] i)), prefix_nil (stops_prefix' (exec_prefix api env [.say] i))⟩
  have h3 : ∀ i, starts (exec api env i (after ss api)).1 = [] := fun i =>
    prefix_nil (by have := starts_prefix (exec_prefix api env (after ss api) i); rwa [after_starts] at this)
  rw [hb, (h1 _).1, (h1 _).2, (h2 _).1, (h2 _).2, h3, before_starts, before_stops]
  simp

/-- Whatever happens: only what was started is stopped, each element once, in the reverse order. -/
theorem stops_in_order (ss : List Sys) (api : Option Api) (env : Nat → Option Exc) :
    stops (run ss api env).1 <+: (starts (run ss api env).1).reverse := by
  cases h : (exec api env 0 (before ss api)).2 with
  | some x =>
    rw [run_early h]
    have := stops_prefix' (exec_prefix api env (before ss api) 0)
    rw [before_stops] at this
    rw [prefix_nil this]
    exact List.nil_prefix
  | none =>
    rw [(run_late h).1, (run_late h).2, ← after_stops ss api]
    exact stops_prefix' (exec_prefix api env _ _)

/-- An exception, such as that of a signal, before the program says that it is running: nothing is stopped. -/
theorem early_nothing (ss : List Sys) (api : Option Api) (env : Nat → Option Exc) (i : Nat) (x : Exc)
    (hi : i < (before ss api).length) (hx : env i = some x) :
    stops (run ss api env).1 = [] ∧ .logStop ∉ (run ss api env).1 := by
  cases h : (exec api env 0 (before ss api)).2 with
  | none =>
    have := ((exec_none api env _ 0).mp h).1 i (Nat.zero_le _) (by omega)
    rw [hx] at this; cases this
  | some y =>
    rw [run_early h]
    have hp := exec_prefix api env (before ss api) 0
    refine ⟨prefix_nil (by have := stops_prefix' hp; rwa [before_stops] at this), fun hm => ?_⟩
    have hm := hp.subset hm
    have : ∀ ss n, Act.logStop ∉ startNodes n ss := by
      intro ss
      induction ss with
      | nil => intro n; simp [startNodes]
      | cons s l ih =>
        intro n
        rw [startNodes, List.mem_append, not_or]
        exact ⟨by simp [startNode], ih _⟩
    unfold before at hm
    rw [List.mem_append] at hm
    rcases hm with hm | hm
    · exact this _ _ hm
    · cases api <;> simp at hm

/-- If the socket of the API could not be made, nothing is ever stopped. -/
theorem unbound_nothing (ss : List Sys) (p : Api) (hp : p.bound = false) (env : Nat → Option Exc) :
    stops (run ss (some p) env).1 = [] := by
  cases h : (exec (some p) env 0 (before ss (some p))).2 with
  | some x =>
    rw [run_early h]
    exact prefix_nil (by have := stops_prefix' (exec_prefix (some p) env (before ss (some p)) 0); rwa [before_stops] at this)
  | none =>
    rw [(run_late h).2]
    show stops (exec (some p) env _ (.apiStop :: _)).1 = []
    unfold exec
    cases env ((before ss (some p)).length + 2) with
    | some x => rfl
    | none => simp [hp, stops]

theorem stops_length (ss : List Sys) : ∀ n, (stops (stopNodes n ss)).length = (stopNodes n ss).length := by
  have hm : ∀ l : List Act, (∀ a ∈ l, ∃ n e, a = .stop n e) → (stops l).length = l.length := by
    intro l
    induction l with
    | nil => intro _; rfl
    | cons a l ih =>
      intro h
      obtain ⟨n, e, rfl⟩ := h a (by simp)
      have := ih fun b hb => h b (by simp [hb])
      simpa [stops] using this
  intro n
  apply hm
  induction ss generalizing n with
  | nil => intro a ha; cases ha
  | cons s l ih =>
    intro a ha
    rw [stopNodes, List.mem_append] at ha
    rcases ha with ha | ha
    · exact ih _ a ha
    · simp only [stopNode, List.mem_append, List.mem_map, List.mem_singleton] at ha
      rcases ha with ⟨e, _, rfl⟩ | rfl
      · exact ⟨_, _, rfl⟩
      · exact ⟨_, _, rfl⟩

theorem stops_le (l : List Act) : (stops l).length ≤ l.length := List.length_filterMap_le _ _

/-- Exactly when all that was started is stopped, if anything was: no exception comes before the program is
running, the API (if any) has its socket, and no exception, such as that of a second signal, comes
while it is ended. -/
theorem all_stopped_iff (ss : List Sys) (hs : ss ≠ []) (api : Option Api) (env : Nat → Option Exc) (h0 : env 0 = none) :
    stops (run ss api env).1 = (starts (run ss api env).1).reverse ↔
      (∀ i, i < (before ss api).length → env i = none) ∧ (∀ p, api = some p → p.bound = true) ∧
      (∀ j, (before ss api).length + 2 ≤ j → j + 1 < (before ss api).length + 2 + (after ss api).length → env j = none) := by
  cases h : (exec api env 0 (before ss api)).2 with
  | some x =>
    have hno := (exec_none api env (before ss api) 0).not.mp (by rw [h]; simp)
    have hex : ¬ ∀ i, i < (before ss api).length → env i = none := fun hall =>
      hno ⟨fun j _ hj => hall j (by omega), fun hm => absurd hm (no_apiStop_before ss api)⟩
    rw [run_early h]
    have hp := exec_prefix api env (before ss api) 0
    have hst : stops (exec api env 0 (before ss api)).1 = [] :=
      prefix_nil (by have := stops_prefix' hp; rwa [before_stops] at this)
    rw [hst]
    constructor
    · intro he
      exfalso
      match ss, hs with
      | s :: l, _ =>
        have hb : ∃ r, before (s :: l) api = .start 0 .timers :: r := ⟨_, by unfold before startNodes startNode; rfl⟩
        obtain ⟨r, hr⟩ := hb
        rw [hr] at he
        unfold exec at he
        rw [h0] at he
        simp [starts] at he
    · rintro ⟨hall, _⟩; exact absurd hall hex
  | none =>
    obtain ⟨hb1, _⟩ := (exec_none api env (before ss api) 0).mp h
    rw [(run_late h).1, (run_late h).2, ← reversed]
    have hpre : ∀ i, i < (before ss api).length → env i = none := fun i hi => hb1 i (Nat.zero_le _) (by omega)
    have hnolog : ∀ i, stops (exec api env i [.logStop]).1 = [] := fun i =>
      prefix_nil (stops_prefix' (exec_prefix api env [.logStop] i))
    -- the nodes, after an API that is stopped
    have key : ∀ k, stops (exec api env k (stopNodes 0 ss ++ [.logStop])).1 = stops (stopNodes 0 ss) ↔
        ∀ j, k ≤ j → j < k + (stopNodes 0 ss).length → env j = none := by
      intro k
      have hn : (exec api env k (stopNodes 0 ss)).2 = none ↔ ∀ j, k ≤ j → j < k + (stopNodes 0 ss).length → env j = none := by
        rw [exec_none]
        exact ⟨fun h => h.1, fun h => ⟨h, fun hm => absurd hm (no_apiStop_nodes ss 0)⟩⟩
      rw [← hn, exec_append]
      split
      · next he => simp only [stops_append, hnolog, List.append_nil, he]
      · next he =>
        simp only [he, iff_false]
        intro hc
        have h1 := exec_short api env _ (no_apiStop_nodes ss 0) k he
        have h2 := stops_le (exec api env k (stopNodes 0 ss)).1
        rw [hc, stops_length] at h2
        omega
    cases api with
    | none =>
      have ha : after ss none = stopNodes 0 ss ++ [.logStop] := rfl
      rw [ha, key]
      constructor
      · intro hh
        exact ⟨hpre, fun p hp => (by cases hp), fun j h1 h2 => hh j h1 (by simp at h2; omega)⟩
      · rintro ⟨_, _, hh⟩ j h1 h2
        exact hh j h1 (by simp; omega)
    | some p =>
      have ha : after ss (some p) = .apiStop :: (stopNodes 0 ss ++ [.logStop]) := rfl
      by_cases hbd : p.bound = true
      · cases he : env ((before ss (some p)).length + 2) with
        | some x =>
          have h1 : (exec (some p) env ((before ss (some p)).length + 2) (after ss (some p))).1 = [] := by
            rw [ha]; unfold exec; rw [he]
          have hne : stops (stopNodes 0 ss) ≠ [] := by
            rw [reversed]
            match ss, hs with
            | s :: l, _ => simp [startNodes, startNode, starts]
          rw [h1]
          constructor
          · intro e; exact absurd e.symm hne
          · rintro ⟨_, _, hh⟩
            have := hh _ (Nat.le_refl _) (by rw [ha]; simp)
            rw [he] at this; cases this
        | none =>
          have h1 : stops (exec (some p) env ((before ss (some p)).length + 2) (after ss (some p))).1 =
              stops (exec (some p) env ((before ss (some p)).length + 2 + 1) (stopNodes 0 ss ++ [.logStop])).1 := by
            rw [ha, exec, he]; simp [hbd, stops]
          rw [h1, key]
          constructor
          · intro hh
            refine ⟨hpre, fun q hq => by injection hq with hq; rw [← hq]; exact hbd, fun j hj1 hj2 => ?_⟩
            rcases Nat.eq_or_lt_of_le hj1 with rfl | hlt
            · exact he
            · exact hh j (by omega) (by rw [ha] at hj2; simp at hj2; omega)
          · rintro ⟨_, _, hh⟩ j hj1 hj2
            exact hh j (by omega) (by rw [ha]; simp; omega)
      · have hbf : p.bound = false := by simpa using hbd
        have := unbound_nothing ss p hbf env
        rw [(run_late h).2] at this
        rw [this]
        have hne : stops (stopNodes 0 ss) ≠ [] := by
          rw [reversed]
          match ss, hs with
          | s :: l, _ => simp [startNodes, startNode, starts]
        constructor
        · intro e; exact absurd e.symm hne
        · rintro ⟨_, hh, _⟩; exact absurd (hh p rfl) hbd

/-- All elements of all systems are started, if nothing comes in between. -/
theorem all_started (ss : List Sys) (api : Option Api) (env : Nat → Option Exc)
    (h : ∀ i, i < (before ss api).length → env i = none) (k : Nat) (e : Elem) :
    (k, e) ∈ starts (run ss api env).1 ↔ ∃ s, ss[k]? = some s ∧ (e = .timers ∨ s e = true ∧ e ≠ .timers) := by
  have hn : (exec api env 0 (before ss api)).2 = none :=
    (exec_none api env _ 0).mpr ⟨fun j _ hj => h j (by omega), fun hm => absurd hm (no_apiStop_before ss api)⟩
  rw [(run_late hn).1, started]
  have : e ∈ startlist ↔ e ≠ .timers := by cases e <;> simp [startlist]
  simp [this]

/-! ## The socket -/

/-- A run with an API is refused exactly if one before it left the file of its socket. -/
theorem refused_iff (h : List Life) (l : Life) :
    (life (lives false h).2 l).1 = .refused ↔ ∃ r ∈ h, Leaves r := by
  have hf : ∀ (h : List Life) (f : Bool), (lives f h).2 = true ↔ f = true ∨ ∃ r ∈ h, Leaves r := by
    intro h
    induction h with
    | nil => intro f; simp [lives]
    | cons r h ih =>
      intro f
      rw [lives, ih]
      have : (life f r).2 = true ↔ f = true ∨ Leaves r := by
        unfold life Leaves
        cases f <;> cases r.bindFails <;> cases r.orderly <;> cases r.wakes <;> simp
      rw [this]
      simp only [List.mem_cons, exists_eq_or_imp, or_assoc]
  have : (life (lives false h).2 l).1 = .refused ↔ (lives false h).2 = true := by
    unfold life
    cases (lives false h).2 <;> cases l.bindFails <;> simp
  rw [this, hf]
  simp

/-- Where closing a socket does not end `accept`, the API works in one run, however it ends, and in no run
after it. -/
theorem once_only (h : List Life) (hw : ∀ r ∈ h, r.wakes = false ∧ r.bindFails = false) (hne : h ≠ []) (l : Life) :
    (life (lives false h).2 l).1 = .refused := by
  rw [refused_iff]
  match h, hne with
  | r :: _, _ => exact ⟨r, by simp, (hw r (by simp)).2, Or.inr (hw r (by simp)).1⟩

/-! ## Cases -/

def exNode : Sys := fun e => e ≠ .bridge
def exBridge : Sys := fun e => e = .datalink ∨ e = .bridge

/-- A signal while two systems run. -/
def exEnv : Nat → Option Exc := fun i => if i = (before [exNode, exBridge] none).length then some .interrupt else none

example : (before [exNode, exBridge] none).length = 13 ∧
    stops (run [exNode, exBridge] none exEnv).1 = [(1, .bridge), (1, .datalink), (1, .timers), (0, .eventLogger),
      (0, .session), (0, .nsp), (0, .routing), (0, .mop), (0, .datalink), (0, .timers)] := by decide +kernel

/-- A signal while they are started. -/
example : starts (run [exNode, exBridge] none (fun i => if i = 3 then some .interrupt else none)).1 =
    [(0, .timers), (0, .datalink), (0, .mop)] ∧
    stops (run [exNode, exBridge] none (fun i => if i = 3 then some .interrupt else none)).1 = [] := by decide +kernel

example : (lives false [⟨true, false, false⟩, ⟨true, false, false⟩]).1 = [.serving, .refused] := by decide

end Verif.Boot
