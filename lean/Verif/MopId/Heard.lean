import Verif.MopId.Lemmas
import Verif.MopId.Spec

/-!
# C120: the stations heard
-/

namespace Verif.MopId

theorem find_map {l : List (Bytes × SysId × Int)} {k k' : Bytes} {v : SysId × Int}
    (h : k ∈ l.map (·.1)) :
    get (l.map fun x => if x.1 = k then (k, v) else x) k' = if k' = k then some v else get l k' := by
  induction l with
  | nil => simp at h
  | cons a l ih =>
    simp only [get] at ih ⊢
    by_cases ha : a.1 = k
    · by_cases hk : k' = k
      · subst hk; simp [ha]
      · rw [if_neg hk]
        have h1 : ¬ k = k' := fun e => hk e.symm
        by_cases hl : k ∈ l.map (·.1)
        · have := ih hl
          rw [if_neg hk] at this
          simp only [List.map_cons, ha, if_pos, List.find?_cons, h1, decide_false]
          exact this
        · have e : (l.map fun x => if x.1 = k then (k, v) else x) = l := by
            refine Eq.trans ?_ (List.map_id l)
            apply List.map_congr_left
            intro x hx
            rw [if_neg]; rfl
            intro e; exact hl (List.mem_map.mpr ⟨x, hx, e⟩)
          rw [List.map_cons, e]
          simp [ha, h1]
    · have hl : k ∈ l.map (·.1) := by
        simp only [List.map_cons, List.mem_cons] at h
        rcases h with h | h
        · exact absurd h.symm ha
        · exact h
      have := ih hl
      rw [List.map_cons, if_neg ha]
      by_cases h2 : a.1 = k'
      · have : ¬ k' = k := fun e => ha (h2.trans e)
        rw [if_neg this]
        simp [h2]
      · simp only [List.find?_cons, h2, decide_false]
        exact this

theorem get_put (l : List (Bytes × SysId × Int)) (k k' : Bytes) (v : SysId × Int) :
    get (put l k v) k' = if k' = k then some v else get l k' := by
  unfold put
  split
  · rename_i h; exact find_map h
  · rename_i h
    simp only [get, List.find?_append]
    by_cases hk : k' = k
    · subst hk
      rw [if_pos rfl]
      have : l.find? (fun x => decide (x.1 = k')) = none := by
        rw [List.find?_eq_none]
        intro x hx hd
        exact h (List.mem_map.mpr ⟨x, hx, by simpa using hd⟩)
      rw [this]; simp
    · rw [if_neg hk]
      have h1 : ¬ k = k' := fun e => hk e.symm
      simp [h1]

theorem put_keys (l : List (Bytes × SysId × Int)) (k : Bytes) (v : SysId × Int)
    (h : (l.map (·.1)).Nodup) : ((put l k v).map (·.1)).Nodup := by
  unfold put
  split
  · have : (l.map fun x => if x.1 = k then (k, v) else x).map (·.1) = l.map (·.1) := by
      rw [List.map_map]
      apply List.map_congr_left
      intro x _
      simp only [Function.comp]
      split
      · rename_i e; exact e.symm
      · rfl
    rw [this]; exact h
  · rename_i hk
    rw [List.map_append, List.nodup_append]
    refine ⟨h, by simp, ?_⟩
    intro a ha b hb
    simp only [List.map_cons, List.map_nil, List.mem_singleton] at hb
    subst hb
    intro e; subst e; exact hk ha

theorem deliver_heard (c : Circ) (r : Nat) : (deliver c r).1.heard = c.heard := by
  unfold deliver; split <;> rfl

/-- What one event does to the table. -/
theorem step_heard (c : Circ) (e : Ev) :
    (step c e).1.heard = c.heard ∨
    ∃ s b now dt w n m, e = .frame s b now dt w n ∧ parse b = some (.sysId m) ∧
      (step c e).1.heard = put c.heard s (m, now) := by
  cases e with
  | frame s b now dt w n =>
    cases hp : parse b with
    | none => left; simp [step, hp]
    | some x =>
      cases x with
      | sysId m =>
        right
        exact ⟨s, b, now, dt, w, n, m, rfl, hp, by simp only [step, hp, deliver_heard]⟩
      | counters => left; simp only [step, hp, deliver_heard]
      | _ => left; simp only [step, hp]
  | _ => left; rfl

theorem lastOf_one (src : Bytes) (e : Ev) : lastOf src [e] =
    match e with
      | .frame s b now _ _ _ =>
        if s = src then
          match parse b with
          | some (.sysId m) => some (m, now)
          | _ => none
        else none
      | _ => none := rfl

theorem lastOf_cons (src : Bytes) (e : Ev) (es : List Ev) :
    lastOf src (e :: es) = (lastOf src es).or (lastOf src [e]) := by
  rw [lastOf_one]
  cases h : lastOf src es <;> simp only [lastOf, h] <;> rfl

theorem get_step (c : Circ) (e : Ev) (src : Bytes) :
    get (step c e).1.heard src = (lastOf src [e]).or (get c.heard src) := by
  cases e with
  | frame s b now dt w n =>
    rw [lastOf_one]
    cases hp : parse b with
    | none => simp [step, hp]
    | some x =>
      cases x with
      | sysId m =>
        simp only [step, hp, deliver_heard, get_put]
        by_cases h : s = src
        · subst h; simp
        · have : ¬ src = s := fun e => h e.symm
          simp [h, this]
      | counters => simp [step, hp, deliver_heard]
      | _ => simp [step, hp]
  | _ => simp [step, lastOf_one]

theorem or_assoc' {α : Type} (a b c : Option α) : (a.or b).or c = a.or (b.or c) := by
  cases a <;> rfl

/-- For every station the table has what it said last, whatever came before, after or in between. -/
theorem heard_last (c : Circ) (es : List Ev) (src : Bytes) :
    get (run c es).heard src = (lastOf src es).or (get c.heard src) := by
  induction es generalizing c with
  | nil => rfl
  | cons e es ih =>
    rw [run, ih, get_step, lastOf_cons src e es, or_assoc']

theorem heard_nodup (c : Circ) (es : List Ev) (h : (c.heard.map (·.1)).Nodup) :
    ((run c es).heard.map (·.1)).Nodup := by
  induction es generalizing c with
  | nil => exact h
  | cons e es ih =>
    rw [run]
    apply ih
    rcases step_heard c e with h1 | ⟨s, _, now, _, _, _, m, _, _, h1⟩ <;> rw [h1]
    · exact h
    · exact put_keys _ _ _ h

theorem get_mem {l : List (Bytes × SysId × Int)} (h : (l.map (·.1)).Nodup) (k : Bytes)
    (v : SysId × Int) : get l k = some v ↔ (k, v) ∈ l := by
  induction l with
  | nil => simp [get]
  | cons a l ih =>
    rw [List.map_cons, List.nodup_cons] at h
    simp only [get, List.find?_cons] at ih ⊢
    by_cases ha : a.1 = k
    · simp only [ha, decide_true, Option.map_some, Option.some.injEq, List.mem_cons]
      constructor
      · rintro rfl; left; rw [← ha]
      · rintro (e | e)
        · rw [← e]
        · exact absurd (List.mem_map.mpr ⟨(k, v), e, ha.symm⟩) h.1
    · simp only [ha, decide_false, List.mem_cons]
      rw [ih h.2]
      constructor
      · exact Or.inr
      · rintro (e | e)
        · exact absurd (by rw [← e]) ha
        · exact e

/-! ## The list -/

theorem services_mem (m : SysId) (f : Funcs) (hf : m.funcs = some f) :
    ∃ l, services m = some l ∧ ∀ s, s ∈ l ↔
    (s = "loop" ∧ f.loop) ∨ (s = "dump" ∧ f.dump) ∨ (s = "ploader" ∧ f.ploader) ∨
    (s = "sloader" ∧ f.sloader) ∨ (s = "boot" ∧ f.boot) ∨ (s = "carrier" ∧ f.carrier) ∨
    (s = "counters" ∧ f.counters) := by
  refine ⟨_, by unfold services; rw [hf]; rfl, ?_⟩
  intro s
  obtain ⟨a, b, c, d, e, f, g, h⟩ := f
  cases a <;> cases b <;> cases c <;> cases d <;> cases e <;> cases f <;> cases g <;> simp

theorem timeOk_iff (t : Time) : timeOk t = false ↔ NoTime t := by
  unfold timeOk NoTime
  simp only [Bool.and_eq_false_iff, decide_eq_false_iff_not]
  omega

theorem entry_some (src : Bytes) (m : SysId) (hf : m.funcs ≠ none)
    (ht : ∀ t, m.time = some t → ¬ NoTime t) : ∃ e, entry src m = some e ∧ Shows src m e := by
  obtain ⟨f, hf⟩ := Option.ne_none_iff_exists'.mp hf
  obtain ⟨l, h1, h2⟩ := services_mem m f hf
  have hb : ∀ n, m.bufsize.filter (fun x => decide (x ≠ 0)) = some n ↔ m.bufsize = some n ∧ n ≠ 0 := by
    intro n
    rw [Option.filter_eq_some_iff]
    simp
  cases hm : m.time with
  | none =>
    refine ⟨_, by unfold entry; rw [hm, h1], ?_⟩
    exact ⟨rfl, rfl, rfl, rfl, by rw [hm]; rfl, rfl, rfl, rfl, hb, rfl, rfl, ⟨f, hf, h2⟩⟩
  | some t =>
    have : timeOk t = true := by
      cases he : timeOk t with
      | true => rfl
      | false => exact absurd ((timeOk_iff t).mp he) (ht t hm)
    refine ⟨_, by unfold entry; rw [hm, h1]; simp only [this, if_true]; rfl, ?_⟩
    exact ⟨rfl, rfl, rfl, rfl, by rw [hm]; rfl, rfl, rfl, rfl, hb, rfl, rfl, ⟨f, hf, h2⟩⟩

theorem apiList_some : ∀ l : List (Bytes × SysId × Int),
    (∀ x ∈ l, x.2.1.funcs ≠ none ∧ ∀ t, x.2.1.time = some t → ¬ NoTime t) →
    ∃ L, apiList l = some L ∧ L.map (·.src) = l.map (·.1) ∧
      (∀ x ∈ l, ∃ e ∈ L, Shows x.1 x.2.1 e) ∧ (∀ e ∈ L, ∃ x ∈ l, Shows x.1 x.2.1 e)
  | [], _ => ⟨[], rfl, rfl, by simp, by simp⟩
  | (k, m, now) :: l, h => by
    obtain ⟨L, h1, h2, h3, h4⟩ := apiList_some l fun x hx => h x (List.mem_cons_of_mem _ hx)
    obtain ⟨e, e1, e2⟩ := entry_some k m (h (k, m, now) (by simp)).1 (h (k, m, now) (by simp)).2
    refine ⟨e :: L, by simp only [apiList, e1, h1], by simp [h2, e2.src], ?_, ?_⟩
    · intro x hx
      rcases List.mem_cons.mp hx with rfl | hx
      · exact ⟨e, by simp, e2⟩
      · obtain ⟨y, y1, y2⟩ := h3 x hx
        exact ⟨y, List.mem_cons_of_mem _ y1, y2⟩
    · intro y hy
      rcases List.mem_cons.mp hy with rfl | hy
      · exact ⟨(k, m, now), by simp, e2⟩
      · obtain ⟨x, x1, x2⟩ := h4 y hy
        exact ⟨x, List.mem_cons_of_mem _ x1, x2⟩

/-- The list has exactly one entry for every station that was heard, which shows what it said last;
provided that what every station said last has a list of functions and a time that exists, if any. -/
theorem list_partial (c : Circ) (es : List Ev) (h0 : c.heard = [])
    (h : ∀ src m now, lastOf src es = some (m, now) →
      m.funcs ≠ none ∧ ∀ t, m.time = some t → ¬ NoTime t) :
    ∃ L, apiList (run c es).heard = some L ∧ (L.map (·.src)).Nodup ∧
      (∀ src m now, lastOf src es = some (m, now) → ∃ e ∈ L, Shows src m e) ∧
      (∀ e ∈ L, ∃ m now, lastOf e.src es = some (m, now) ∧ Shows e.src m e) := by
  have hn := heard_nodup c es (by rw [h0]; simp)
  have hl : ∀ src m now, lastOf src es = some (m, now) ↔ (src, m, now) ∈ (run c es).heard := by
    intro src m now
    rw [← get_mem hn, heard_last, h0]
    have : get [] src = none := rfl
    rw [this]; cases lastOf src es <;> rfl
  obtain ⟨L, h1, h2, h3, h4⟩ := apiList_some (run c es).heard (by
    rintro ⟨src, m, now⟩ hx
    exact h src m now ((hl src m now).mpr hx))
  refine ⟨L, h1, by rw [h2]; exact hn, ?_, ?_⟩
  · intro src m now hs
    exact h3 (src, m, now) ((hl src m now).mp hs)
  · intro e he
    obtain ⟨⟨src, m, now⟩, hx, hs⟩ := h4 e he
    have := hs.src
    simp only at this hs
    rw [this]
    exact ⟨m, now, (hl src m now).mpr hx, hs⟩

theorem entry_none (src : Bytes) (m : SysId)
    (h : m.funcs = none ∨ ∃ t, m.time = some t ∧ NoTime t) : entry src m = none := by
  rcases h with h | ⟨t, h1, h2⟩
  · unfold entry services; rw [h]; cases m.time <;> rfl
  · unfold entry
    rw [h1]
    cases services m with
    | none => rfl
    | some s =>
      simp only
      rw [(timeOk_iff t).mpr h2]; rfl

theorem apiList_none : ∀ (l : List (Bytes × SysId × Int)) (x : Bytes × SysId × Int), x ∈ l →
    entry x.1 x.2.1 = none → apiList l = none
  | [], x, h, _ => by simp at h
  | (k, m, now) :: l, x, h, he => by
    rcases List.mem_cons.mp h with rfl | h
    · simp only at he
      simp only [apiList, he]
    · simp only [apiList, apiList_none l x h he]
      cases entry k m <;> rfl

/-- Finding: one message of one station that lists no functions, or has a time that does not exist, takes
away the whole list, until that station says something better. -/
theorem one_breaks_all (c : Circ) (es : List Ev) (h0 : c.heard = []) (src : Bytes) (m : SysId) (now : Int)
    (hl : lastOf src es = some (m, now)) (h : m.funcs = none ∨ ∃ t, m.time = some t ∧ NoTime t) :
    apiList (run c es).heard = none := by
  have hn := heard_nodup c es (by rw [h0]; simp)
  have hm : (src, m, now) ∈ (run c es).heard := by
    rw [← get_mem hn, heard_last, hl]; rfl
  exact apiList_none _ _ hm (entry_none src m h)

/-- Both kinds can be sent. -/
example : parse [7, 0, 0, 0] = some (.sysId { receipt := 0 }) := by decide +kernel
example : parse [7, 0, 0, 0, 2, 0, 1, 1, 8, 0, 10, 20, 26, 13, 1, 0, 0, 0, 0, 0, 0] = some (.sysId
    { receipt := 0, funcs := some { loop := true },
      time := some { year := 2026, mon := 13, mday := 1, hour := 0, min := 0, sec := 0, tz := 0 } }) := by
  decide +kernel

example : lastOf [1] [.frame [1] [7, 0, 0, 0, 2, 0, 1, 1] 5 0 [] [], .timer] =
    some ({ receipt := 0, funcs := some { loop := true } }, 5) := by decide +kernel

/-- The zone is shown as it is, except west of Greenwich if it is not a whole number of hours: the
half hours are then added instead of subtracted. -/
theorem zone_right_iff (q : Int) (hq : q ≠ 0) :
    ∃ h m, zone (60 * q) = some (h, m) ∧ (zoneSpec (60 * q) h m ↔ 0 ≤ q ∨ q % 60 = 0) := by
  refine ⟨q / 60, q % 60, ?_, ?_⟩
  · unfold zone
    rw [if_neg (by omega), show 60 * q / 60 = q by omega]
  · unfold zoneSpec
    constructor
    · rintro ⟨_, _, h1, h2⟩
      by_cases h : 0 ≤ q
      · exact Or.inl h
      · have := h2 (by omega)
        right; omega
    · intro h
      refine ⟨by omega, by omega, by omega, by omega⟩

/-- Newfoundland, three and a half hours west, is shown as four and a half. -/
example : zone (-12600) = some (-4, 30) := by decide

end Verif.MopId
