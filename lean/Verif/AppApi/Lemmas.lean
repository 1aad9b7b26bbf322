import Verif.AppApi.Model

namespace Verif.AppApi

/-! ## Dictionaries -/

theorem get_put {α β} [DecidableEq α] (d : List (α × β)) (k : α) (v : β) (x : α) :
    get (put d k v) x = if x = k then some v else get d x := by
  unfold get put
  by_cases h : x = k
  · subst h; simp
  · have hk : ¬ k = x := fun e => h e.symm
    rw [List.find?_cons_of_neg (by simpa using hk), List.find?_filter, if_neg h]
    congr 1
    apply congrArg (fun p => List.find? p d)
    funext y
    by_cases hy : y.1 = x
    · simp [hy, h]
    · simp [hy]

theorem get_filter {α β} [DecidableEq α] (d : List (α × β)) (k x : α) :
    get (d.filter (·.1 ≠ k)) x = if x = k then none else get d x := by
  unfold get
  rw [List.find?_filter]
  by_cases h : x = k
  · subst h
    rw [if_pos rfl]
    simp only [Option.map_eq_none_iff, List.find?_eq_none]
    intro y _
    by_cases hy : y.1 = x <;> simp [hy]
  · rw [if_neg h]
    congr 1
    apply congrArg (fun p => List.find? p d)
    funext y
    by_cases hy : y.1 = x
    · simp [hy, h]
    · simp [hy]

theorem get_mem {α β} [DecidableEq α] {d : List (α × β)} {k : α} {v : β} (h : get d k = some v) :
    (k, v) ∈ d := by
  unfold get at h
  cases hf : d.find? (·.1 = k) with
  | none => rw [hf] at h; cases h
  | some y =>
    rw [hf] at h
    have h1 := List.find?_some hf
    have h2 := List.mem_of_find?_eq_some hf
    simp only [decide_eq_true_eq] at h1
    cases h
    rw [← h1]
    exact h2

theorem get_none {α β} [DecidableEq α] {d : List (α × β)} {k : α} :
    get d k = none ↔ ∀ v, (k, v) ∉ d := by
  unfold get
  simp only [Option.map_eq_none_iff, List.find?_eq_none, decide_eq_true_eq]
  constructor
  · intro h v hm; exact h _ hm rfl
  · rintro h ⟨a, b⟩ hm rfl; exact h b hm

theorem get_of_nodup {α β} [DecidableEq α] : ∀ {d : List (α × β)} {k : α} {v : β},
    (d.map (·.1)).Nodup → (k, v) ∈ d → get d k = some v := by
  intro d
  induction d with
  | nil => intro k v _ h; cases h
  | cons y d ih =>
    intro k v hn hm
    simp only [List.map_cons, List.nodup_cons] at hn
    simp only [List.mem_cons] at hm
    unfold get
    by_cases hy : y.1 = k
    · rw [List.find?_cons_of_pos (by simpa using hy)]
      rcases hm with rfl | hm
      · rfl
      · exact absurd (List.mem_map.2 ⟨_, hm, rfl⟩) (by rw [hy] at hn; exact hn.1)
    · rw [List.find?_cons_of_neg (by simpa using hy)]
      rcases hm with rfl | hm
      · exact absurd rfl hy
      · exact ih hn.2 hm

theorem get_append {α β} [DecidableEq α] (d : List (α × β)) (k x : α) (v : β) :
    get (d ++ [(k, v)]) x = match get d x with
      | some w => some w
      | none => if x = k then some v else none := by
  unfold get
  rw [List.find?_append]
  cases h : d.find? (·.1 = x) with
  | some y => simp
  | none =>
    by_cases hx : k = x
    · subst hx; simp
    · have : ¬ x = k := fun e => hx e.symm
      simp [this, hx]

theorem del_some {α β} [DecidableEq α] {d e : List (α × β)} {k : α} :
    del d k = some e ↔ (∃ v, get d k = some v) ∧ e = d.filter (·.1 ≠ k) := by
  unfold del
  cases get d k with
  | none => simp
  | some v => simp [eq_comm]

theorem mem_entries {s : State} {k h : Nat} {e : Entry} : (h, e) ∈ entries s k ↔ (k, h, e) ∈ s.owned := by
  unfold entries
  simp only [List.mem_map, List.mem_filter, decide_eq_true_eq]
  constructor
  · rintro ⟨⟨a, b⟩, ⟨h1, rfl⟩, rfl⟩; exact h1
  · intro h1; exact ⟨_, ⟨h1, rfl⟩, rfl⟩

theorem mem_connsOf {s : State} {k c : Nat} : c ∈ connsOf s k ↔ (k, c, .conn) ∈ s.owned := by
  unfold connsOf
  simp only [List.mem_map, List.mem_filter, decide_eq_true_eq]
  constructor
  · rintro ⟨⟨a, b⟩, ⟨h1, h2⟩, rfl⟩
    simp only at h2; subst h2; exact mem_entries.1 h1
  · intro h1; exact ⟨(c, .conn), ⟨mem_entries.2 h1, rfl⟩, rfl⟩

theorem entries_nodup {s : State} (h : (s.owned.map (·.2.1)).Nodup) (k : Nat) :
    ((entries s k).map (·.1)).Nodup := by
  unfold entries
  rw [List.map_map]
  exact h.sublist (List.filter_sublist.map _)

theorem get_entries {s : State} (hn : (s.owned.map (·.2.1)).Nodup) {k h : Nat} {e : Entry} :
    get (entries s k) h = some e ↔ (k, h, e) ∈ s.owned :=
  ⟨fun x => mem_entries.1 (get_mem x), fun x => get_of_nodup (entries_nodup hn k) (mem_entries.2 x)⟩

theorem upper_upper (s : Str) : upper (upper s) = upper s := by
  unfold upper
  rw [List.map_map]
  apply List.map_congr_left
  intro c _
  simp only [Function.comp]
  by_cases h : 97 ≤ c ∧ c ≤ 122
  · have : ¬ (97 ≤ c - 32 ∧ c - 32 ≤ 122) := by omega
    rw [if_pos h, if_neg this]
  · rw [if_neg h, if_neg h]

theorem upper_nil {s : Str} : upper s = [] ↔ s = [] := by simp [upper]

end Verif.AppApi
