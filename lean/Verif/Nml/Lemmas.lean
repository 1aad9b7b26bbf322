import Verif.Nml.Spec

/-!
# Lemmas on answers
-/

namespace Verif.Nml

theorem sent_map (rs : List Reply) : sent (rs.map .reply) = rs := by
  induction rs with
  | nil => rfl
  | cons r rs ih => simp [sent, ih]

theorem sent_append (a b : List Out) : sent (a ++ b) = sent a ++ sent b := by
  induction a with
  | nil => rfl
  | cons x a ih => cases x <;> simp [sent, ih]

theorem more_many (es : List Nat) (e : Nat) (cur : List Nat) (rs : List Reply) :
    more cur (es.map (.ent 3) ++ .ent 1 e :: rs) = (more [] rs).map ((cur ++ es ++ [e]) :: ·) := by
  induction es generalizing cur with
  | nil => simp [more]
  | cons x es ih => simp [more, ih]

theorem more_entry (x : Entry) (rs : List Reply) :
    more [] (entryReplies x ++ rs) = if x.records = [] then more [] rs else
      (more [] rs).map (x.records :: ·) := by
  cases x with
  | one e => simp [entryReplies, more, Entry.records]
  | many es =>
    cases es with
    | nil => simp [entryReplies, Entry.records]
    | cons e es =>
      have h := more_many (e :: es).dropLast ((e :: es).getLast (by simp)) [] rs
      simp only [entryReplies, Entry.records, List.append_assoc, List.singleton_append,
        List.nil_append] at h ⊢
      rw [h, List.dropLast_concat_getLast]
      simp

theorem more_list (l : List Entry) :
    more [] (l.flatMap entryReplies ++ [.status (-128) 0]) = some (present l) := by
  induction l with
  | nil => simp [more, present]
  | cons x l ih =>
    rw [List.flatMap_cons, List.append_assoc, more_entry, ih]
    unfold present
    by_cases h : x.records = []
    · simp [h]
    · simp [h]

theorem oldRecords_map (l : List Nat) : oldRecords (l.map .oldEnt) = some (l.map fun e => [e]) := by
  induction l with
  | nil => rfl
  | cons e l ih => simp [oldRecords, ih]

/-- The listener's answer for a list of entries is read as those entries. -/
theorem client_list (l : List Entry) :
    client (listReplies false l) = some (.entities (present l)) := by
  unfold listReplies
  simp only [Bool.false_eq_true, if_false]
  split
  · simp [client, present, Entry.records]
  · simp [client, present, Entry.records]
  · have h := more_list l
    have hne : l.flatMap entryReplies ++ [Reply.status (-128) 0] ≠ [] := by simp
    generalize hg : l.flatMap entryReplies ++ [Reply.status (-128) 0] = rs at h hne
    cases rs with
    | nil => exact absurd rfl hne
    | cons r rs =>
      rw [List.cons_append, hg]
      simp only [client]
      simp [h]

theorem oldClient_list (l : List Entry) (h : ∀ x ∈ l, ∃ e, x = .one e) :
    oldClient (listReplies true l) = some (.entities (l.map Entry.records)) := by
  have : ∃ es : List Nat, l = es.map .one := by
    induction l with
    | nil => exact ⟨[], rfl⟩
    | cons x l ih =>
      obtain ⟨e, rfl⟩ := h x (by simp)
      obtain ⟨es, hes⟩ := ih fun y hy => h y (by simp [hy])
      exact ⟨e :: es, by simp [hes]⟩
  obtain ⟨es, rfl⟩ := this
  have hm : (es.map Entry.one).map oldReply = es.map .oldEnt := by simp [oldReply]
  have hr : (es.map Entry.one).map Entry.records = es.map fun e => [e] := by simp [Entry.records]
  unfold listReplies
  simp only [if_true, hm, hr]
  cases es with
  | nil => simp [oldClient, oldRecords]
  | cons e es => simp [oldClient, oldRecords, oldRecords_map]

theorem replies_open {st : St} (h : st.nice = true) (rs : List Reply) :
    replies st rs = rs.map .reply := by simp [replies, h]

theorem crash_replies {st : St} (h : st.nice = true) (rs : List Reply) : Out.crash ∉ replies st rs := by
  simp [replies, h]

end Verif.Nml
