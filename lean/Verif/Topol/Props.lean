import Verif.Topol.Model

/-!
# C124: the topology server
-/

namespace Verif.Topol

/-! ## Specification: doc/protocols/topol.txt -/

/-- One name item: code 1, length, the name. -/
def readName : Bytes → Option (Bytes × Bytes)
  | 1 :: n :: r => if r.length < n.toNat then none else some (r.take n.toNat, r.drop n.toNat)
  | _ => none

/-- "As many as the count says". -/
def readNames : Nat → Bytes → Option (List Bytes)
  | 0, _ => some []
  | k + 1, b => (readName b).bind fun x => (readNames k x.2).map (x.1 :: ·)

/-- What a client makes of a reply: header, count, names. -/
def client (b : Bytes) : Option (List Bytes) :=
  match b with
  | 2 :: 6 :: 1 :: 0 :: 0 :: 7 :: k :: r => readNames k.toNat r
  | _ => none

/-- Names that can be sent: at most six characters of one byte. -/
def Sendable (n : Name) : Prop := n.length ≤ 6 ∧ ∀ c ∈ n, c < 256

/-- The bytes of such a name. -/
def bytes (n : Name) : Bytes := n.map UInt8.ofNat

/-! ## Lemmas -/

theorem latin1_ok (n : Name) (h : ∀ c ∈ n, c < 256) : latin1 n = some (bytes n) := by
  induction n with
  | nil => rfl
  | cons a r ih =>
    simp only [latin1, if_pos (h a (by simp)), ih (fun c hc => h c (by simp [hc]))]
    rfl

theorem latin1_some (n : Name) (b : Bytes) (h : latin1 n = some b) :
    (∀ c ∈ n, c < 256) ∧ b = bytes n := by
  induction n generalizing b with
  | nil => simp only [latin1, Option.some.injEq] at h; subst h; simp [bytes]
  | cons a r ih =>
    simp only [latin1] at h
    split at h
    · rename_i ha
      cases hr : latin1 r with
      | none => rw [hr] at h; cases h
      | some q =>
        rw [hr] at h
        simp only [Option.map_some, Option.some.injEq] at h
        obtain ⟨h1, h2⟩ := ih q hr
        refine ⟨?_, ?_⟩
        · intro c hc
          rcases List.mem_cons.1 hc with rfl | hc
          · exact ha
          · exact h1 c hc
        · rw [← h, h2]; rfl
    · cases h

theorem entry_iff (n : Name) : (∃ b, entry n = some b) ↔ Sendable n := by
  constructor
  · rintro ⟨b, h⟩
    unfold entry at h
    cases hl : latin1 n with
    | none => rw [hl] at h; cases h
    | some q =>
      rw [hl] at h
      simp only at h
      obtain ⟨h1, h2⟩ := latin1_some n q hl
      split at h
      · rename_i hle
        exact ⟨by simpa [h2, bytes] using hle, h1⟩
      · cases h
  · rintro ⟨h1, h2⟩
    unfold entry
    rw [latin1_ok n h2]
    exact ⟨_, if_pos (by simpa [bytes] using h1)⟩

theorem entry_eq (n : Name) (h : Sendable n) :
    entry n = some (1 :: UInt8.ofNat n.length :: bytes n) := by
  unfold entry
  rw [latin1_ok n h.2]
  simp only [bytes, List.length_map]
  rw [if_pos h.1]

theorem entries_eq (l : List Name) (h : ∀ n ∈ l, Sendable n) :
    entries l = some (l.flatMap fun n => 1 :: UInt8.ofNat n.length :: bytes n) := by
  induction l with
  | nil => rfl
  | cons a r ih =>
    simp only [entries, entry_eq a (h a (by simp)), ih (fun n hn => h n (by simp [hn]))]
    simp

theorem entries_none (l : List Name) (n : Name) (hn : n ∈ l) (h : ¬ Sendable n) : entries l = none := by
  induction l with
  | nil => simp at hn
  | cons a r ih =>
    simp only [entries]
    rcases List.mem_cons.1 hn with rfl | hn
    · have : entry n = none := by
        cases he : entry n with
        | none => rfl
        | some b => exact absurd ((entry_iff n).1 ⟨b, he⟩) h
      rw [this]
    · rw [ih hn]
      cases entry a <;> rfl

theorem readName_entry (n : Name) (h : Sendable n) (r : Bytes) :
    readName (1 :: UInt8.ofNat n.length :: bytes n ++ r) = some (bytes n, r) := by
  have hl : (UInt8.ofNat n.length).toNat = n.length := by
    have := h.1
    simp only [UInt8.toNat_ofNat']
    omega
  have hb : (bytes n).length = n.length := by simp [bytes]
  simp only [List.cons_append, readName, hl, List.length_append, hb]
  rw [if_neg (by omega), ← hb, List.take_left, List.drop_left]

theorem readNames_entries (l : List Name) (h : ∀ n ∈ l, Sendable n) (r : Bytes) :
    readNames l.length ((l.flatMap fun n => 1 :: UInt8.ofNat n.length :: bytes n) ++ r) =
      some (l.map bytes) := by
  induction l with
  | nil => rfl
  | cons a q ih =>
    simp only [List.flatMap_cons, List.length_cons, readNames, List.append_assoc]
    rw [readName_entry a (h a (by simp))]
    simp only [Option.bind_some, ih (fun n hn => h n (by simp [hn])), Option.map_some, List.map_cons]

theorem mem_add (s : List Name) (n x : Name) : x ∈ add s n ↔ x ∈ s ∨ x = n := by
  unfold add
  split
  · rename_i h
    constructor
    · exact Or.inl
    · rintro (h' | rfl)
      · exact h'
      · exact h
  · simp

theorem nodup_add (s : List Name) (n : Name) (h : s.Nodup) : (add s n).Nodup := by
  unfold add
  split
  · exact h
  · rename_i hn
    rw [List.nodup_append]
    refine ⟨h, by simp, ?_⟩
    intro a ha b hb
    simp only [List.mem_singleton] at hb
    subst hb
    intro e
    exact hn (e ▸ ha)

theorem fold_arg (up : Name → Name) (l : List Name) : ∀ s : List Name, s.Nodup →
    (l.foldl (fun s n => add s (up n)) s).Nodup ∧
    ∀ x, x ∈ l.foldl (fun s n => add s (up n)) s ↔ x ∈ s ∨ ∃ n ∈ l, x = up n := by
  induction l with
  | nil => intro s h; exact ⟨h, by simp⟩
  | cons a r ih =>
    intro s h
    obtain ⟨h1, h2⟩ := ih _ (nodup_add s (up a) h)
    refine ⟨h1, fun x => ?_⟩
    rw [List.foldl_cons, h2, mem_add]
    simp only [List.mem_cons, exists_eq_or_imp, or_assoc]

theorem fold_active (up : Name → Name) (l : List Name) : ∀ s : List Name, s.Nodup →
    (l.foldl (fun s n => if n = [] then s else add s (up n)) s).Nodup ∧
    ∀ x, x ∈ l.foldl (fun s n => if n = [] then s else add s (up n)) s ↔
      x ∈ s ∨ ∃ n ∈ l, n ≠ [] ∧ x = up n := by
  induction l with
  | nil => intro s h; exact ⟨h, by simp⟩
  | cons a r ih =>
    intro s h
    rw [List.foldl_cons]
    by_cases ha : a = []
    · rw [if_pos ha]
      obtain ⟨h1, h2⟩ := ih s h
      refine ⟨h1, fun x => ?_⟩
      rw [h2]
      simp [ha]
    · rw [if_neg ha]
      obtain ⟨h1, h2⟩ := ih _ (nodup_add s (up a) h)
      refine ⟨h1, fun x => ?_⟩
      rw [h2, mem_add]
      simp only [List.mem_cons, exists_eq_or_imp, ha, ne_eq, not_false_eq_true, true_and, or_assoc]

/-! ## C124 -/

/-- What the names of the object's argument are: the pieces between commas,
which have none. -/
theorem split_pieces (a : Name) : (∀ p ∈ split a, 44 ∉ p) ∧
    a = (split a).head! ++ (split a).tail.flatMap (44 :: ·) := by
  induction a with
  | nil => exact ⟨by simp [split], rfl⟩
  | cons c r ih =>
    simp only [split]
    split
    · rename_i h
      refine ⟨?_, ?_⟩
      · intro p hp
        rcases List.mem_cons.1 hp with rfl | hp
        · simp
        · exact ih.1 p hp
      · rw [h]
        have : split r = (split r).head! :: (split r).tail := by
          cases hs : split r with
          | nil =>
            exfalso
            cases r with
            | nil => simp [split] at hs
            | cons x y =>
              simp only [split] at hs
              split at hs
              · cases hs
              · split at hs <;> cases hs
          | cons a b => rfl
        rw [List.tail_cons]
        show 44 :: r = (split r).flatMap (44 :: ·)
        rw [this, List.flatMap_cons, List.cons_append]
        exact congrArg _ ih.2
    · rename_i h
      split
      · rename_i hs
        rw [hs] at ih
        refine ⟨?_, ?_⟩
        · intro p hp
          simp only [List.mem_singleton] at hp
          subst hp
          simpa using Ne.symm h
        · rw [ih.2]; rfl
      · rename_i x y hs
        rw [hs] at ih
        refine ⟨?_, ?_⟩
        · intro p hp
          rcases List.mem_cons.1 hp with rfl | hp
          · have := ih.1 x (by simp)
            simp only [List.mem_cons, not_or]
            exact ⟨Ne.symm h, this⟩
          · exact ih.1 p (by simp [hp])
        · rw [ih.2]; rfl

/-- C124.  The names are those of the argument and of the active nodes that
have names, in upper case, each once; of more than 50, just 50 of them. -/
theorem names_right (up : Name → Name) (arg active : List Name) (order : List Name → List Name)
    (ho : ∀ l, (order l).Perm l) :
    let s := collect up arg active
    let sent := names order s
    sent.Nodup ∧
    (∀ x ∈ sent, (∃ a, arg.head? = some a ∧ ∃ n ∈ split a, x = up n) ∨ ∃ n ∈ active, n ≠ [] ∧ x = up n) ∧
    (s.length ≤ 50 → ∀ x, ((∃ a, arg.head? = some a ∧ ∃ n ∈ split a, x = up n) ∨
      ∃ n ∈ active, n ≠ [] ∧ x = up n) → x ∈ sent) ∧
    (50 ≤ s.length → sent.length = 50) := by
  intro s sent
  have hs : s.Nodup ∧ ∀ x, x ∈ s ↔ (∃ a, arg.head? = some a ∧ ∃ n ∈ split a, x = up n) ∨
      ∃ n ∈ active, n ≠ [] ∧ x = up n := by
    show (collect up arg active).Nodup ∧ _
    unfold collect
    cases arg with
    | nil =>
      obtain ⟨h1, h2⟩ := fold_active up active [] (by simp)
      exact ⟨h1, fun x => (h2 x).trans (by simp)⟩
    | cons a r =>
      obtain ⟨g1, g2⟩ := fold_arg up (split a) [] (by simp)
      obtain ⟨h1, h2⟩ := fold_active up active _ g1
      exact ⟨h1, fun x => (h2 x).trans (by rw [g2]; simp)⟩
  refine ⟨?_, ?_, ?_, ?_⟩
  · exact List.Nodup.sublist (List.take_sublist _ _) ((ho s).nodup_iff.2 hs.1)
  · intro x hx
    exact (hs.2 x).1 ((ho s).mem_iff.1 (List.mem_of_mem_take hx))
  · intro hle x hx
    have hl : (order s).length ≤ 50 := by rw [(ho s).length_eq]; exact hle
    show x ∈ (order s).take 50
    rw [List.take_of_length_le hl]
    exact (ho s).mem_iff.2 ((hs.2 x).2 hx)
  · intro hle
    show ((order s).take 50).length = 50
    rw [List.length_take, (ho s).length_eq]
    omega

/-- C124, the part that holds: behind the count, the reply has all the names
in their order; it fits in a page of 2048 bytes. -/
theorem reply_partial (l : List Name) (hl : l.length ≤ 50) (h : ∀ n ∈ l, Sendable n) (req : Bytes) :
    ∃ r, dispatch l (.data req) = .data ([2, 6, 1, 0, 0, 7, 0] ++ r) ∧
      readNames l.length r = some (l.map bytes) ∧ 7 + r.length ≤ 2048 := by
  refine ⟨l.flatMap fun n => 1 :: UInt8.ofNat n.length :: bytes n, ?_, ?_, ?_⟩
  · simp only [dispatch, reply, entries_eq l h, Option.map_some]
  · simpa using readNames_entries l h []
  · have : ∀ l : List Name, (∀ n ∈ l, Sendable n) →
        (l.flatMap fun n => (1 : UInt8) :: UInt8.ofNat n.length :: bytes n).length ≤ 8 * l.length := by
      intro l
      induction l with
      | nil => simp
      | cons a q ih =>
        intro h
        have h1 := (h a (by simp)).1
        have h2 := ih (fun n hn => h n (by simp [hn]))
        simp only [List.flatMap_cons, List.length_append, List.length_cons, bytes, List.length_map]
        simp only [bytes] at h2
        omega
    have := this l h
    omega

/-- C124, what is not so: that a client learns the names.  The count is always
0, so that a client that keeps to the protocol reads none. -/
theorem reads_none (l : List Name) (req b : Bytes) (h : dispatch l (.data req) = .data b) :
    client b = some [] := by
  simp only [dispatch] at h
  cases hr : reply l with
  | none => rw [hr] at h; cases h
  | some c =>
    rw [hr] at h
    simp only [Out.data.injEq] at h
    subst h
    unfold reply at hr
    cases he : entries l with
    | none => rw [he] at hr; cases hr
    | some p =>
      rw [he] at hr
      simp only [Option.map_some, Option.some.injEq] at hr
      subst hr
      rfl

/-- One name that cannot be sent ends the connection of every client, and only
such a name does. -/
theorem aborts_iff (l : List Name) (req : Bytes) :
    dispatch l (.data req) = .abort ↔ ∃ n ∈ l, ¬ Sendable n := by
  constructor
  · intro h
    apply Classical.byContradiction
    intro hne
    have hall : ∀ n ∈ l, Sendable n := fun n hn => Classical.byContradiction fun hs => hne ⟨n, hn, hs⟩
    simp only [dispatch, reply, entries_eq l hall, Option.map_some] at h
    cases h
  · rintro ⟨n, hn, hs⟩
    simp only [dispatch, reply, entries_none l n hn hs, Option.map_none]

example : dispatch [[65], [66, 67]] (.data [1, 6, 1, 0, 0]) =
    .data [2, 6, 1, 0, 0, 7, 0, 1, 1, 65, 1, 2, 66, 67] := by decide
example : client [2, 6, 1, 0, 0, 7, 2, 1, 1, 65, 1, 2, 66, 67] = some [[65], [66, 67]] := by decide
example : collect id [[65, 44, 66]] [[66], [], [67]] = [[65], [66], [67]] := by decide
example : dispatch [[65, 65, 65, 65, 65, 65, 65]] (.data []) = .abort := by decide

end Verif.Topol
