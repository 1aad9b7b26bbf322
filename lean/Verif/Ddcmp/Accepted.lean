import Verif.Ddcmp.Inv
/-! The `accepted` log only grows by client sends. -/
namespace Verif.Ddcmp

theorem acc_send {qmax m queue s s'} (h : send qmax m queue s = some s') :
    s'.accepted = s.accepted := by
  unfold send at h
  split at h
  · split at h
    · simp at h; rw [← h]
    · simp only at h
      split at h
      · simp at h
      · split at h <;> (simp at h; subst h; rfl)
  · simp at h; rw [← h]

theorem acc_release {k s s'} (h : release k s = some s') : s'.accepted = s.accepted := by
  induction k generalizing s with
  | zero => simp [release] at h; rw [← h]
  | succ k ih =>
    simp only [release] at h
    split at h
    · simp at h
    · have := ih h; exact this

theorem acc_flush {qmax queue l s s'} (h : flush qmax queue l s = some s') :
    s'.accepted = s.accepted := by
  induction l generalizing s with
  | nil => simp [flush] at h; rw [← h]
  | cons m rest ih =>
    simp only [flush] at h
    split at h
    · rw [Option.bind_eq_some_iff] at h
      obtain ⟨s1, e1, e2⟩ := h
      rw [ih e2, acc_send e1]
    · simp at h; rw [← h]

theorem acc_processAck {qmax b resp s s'} (h : processAck qmax b resp s = some s') :
    s'.1.accepted = s.accepted := by
  unfold processAck at h
  simp only at h
  split at h
  · simp at h; rw [← h]
  · rw [Option.bind_eq_some_iff] at h
    obtain ⟨s1, e1, h⟩ := h
    rw [Option.bind_eq_some_iff] at h
    obtain ⟨s2, e2, h⟩ := h
    simp at h; rw [← h]
    simp only
    rw [acc_flush e2, acc_release e1]

theorem acc_resend {k t s s'} (h : resend k t s = some s') : s'.accepted = s.accepted := by
  induction k generalizing s t with
  | zero => simp [resend] at h; rw [← h]
  | succ k ih =>
    simp only [resend] at h
    split at h
    · simp at h
    · rw [ih h]; rfl

theorem acc_ack (s : Stn) : (ackIfNeeded s).accepted = s.accepted := by
  unfold ackIfNeeded; split <;> rfl

theorem acc_running {qmax s i s'} (h : running qmax s i = some s') :
    s'.accepted = s.accepted ∨ (i = .packet .start ∧ s'.accepted = []) := by
  unfold running at h
  split at h
  · rw [Option.bind_eq_some_iff] at h
    obtain ⟨⟨s1, b⟩, e1, h⟩ := h
    have := acc_processAck e1
    left
    simp only at h this
    split at h
    · simp at h; rw [← h, this]
    · simp at h; rw [← h, acc_ack]; exact this
  · rw [Option.bind_eq_some_iff] at h
    obtain ⟨⟨s1, b⟩, e1, h⟩ := h
    left; simp at h; rw [← h, acc_ack]; exact acc_processAck e1
  · rw [Option.bind_eq_some_iff] at h
    obtain ⟨⟨s1, b⟩, e1, h⟩ := h
    have := acc_processAck e1
    left
    simp only at h this
    split at h
    · rw [Option.bind_eq_some_iff] at h
      obtain ⟨s2, e2, h⟩ := h
      simp at h; rw [← h, acc_ack, acc_resend e2, this]
    · simp at h; rw [← h, acc_ack, this]
  · left
    split at h
    · simp at h; rw [← h, acc_ack]
    · simp at h; rw [← h, acc_ack]; rfl
  · right; simp at h; rw [← h]; exact ⟨rfl, rfl⟩
  · left; simp at h; rw [← h, acc_ack]
  · left; simp at h; rw [← h, acc_ack]; rfl
  · rw [Option.bind_eq_some_iff] at h
    obtain ⟨⟨s1, b⟩, e1, h⟩ := h
    left; simp at h; rw [← h, acc_ack]; exact acc_processAck e1
  · left; simp at h; rw [← h, acc_ack]; rfl

theorem acc_handle {qmax s i s'} (h : handle qmax s i = some s') :
    s'.accepted = s.accepted ∨ s'.accepted = [] := by
  unfold handle at h
  split at h
  · left
    simp at h; rw [← h]
    unfold istart
    split <;> rfl
  · unfold astart at h
    split at h
    · left; simp at h; rw [← h]; rfl
    · left; simp at h; rw [← h]; rfl
    · split at h
      · have := acc_running h; exact this.imp id And.right
      · left; simp at h; rw [← h]
    · split at h
      · have := acc_running h; exact this.imp id And.right
      · left; simp at h; rw [← h]
    · left; simp at h; rw [← h]
  · exact (acc_running h).imp id And.right

/-- What one action does to the two logs. -/
theorem acc_act {qmax p q x p' q'} (h : act qmax p q x = some (p', q')) :
    q'.accepted = q.accepted ∧
    (p'.accepted = p.accepted ∨ p'.accepted = [] ∨
      ∃ m, x = .send m ∧ p'.accepted = p.accepted ++ [m]) := by
  have wrap : ∀ {i q2}, (handle qmax p i).map (fun p' => (p', q2)) = some (p', q') →
      q2.accepted = q.accepted →
      q'.accepted = q.accepted ∧
      (p'.accepted = p.accepted ∨ p'.accepted = [] ∨
        ∃ m, x = .send m ∧ p'.accepted = p.accepted ++ [m]) := by
    intro i q2 hm hq
    rw [Option.map_eq_some_iff] at hm
    obtain ⟨p1, e1, e2⟩ := hm
    simp at e2
    obtain ⟨rfl, rfl⟩ := e2
    refine ⟨hq, ?_⟩
    rcases acc_handle e1 with h | h
    · exact Or.inl h
    · exact Or.inr (Or.inl h)
  cases x with
  | send m =>
    simp only [act] at h
    rw [Option.map_eq_some_iff] at h
    obtain ⟨p1, e1, e2⟩ := h
    simp at e2
    obtain ⟨rfl, rfl⟩ := e2
    refine ⟨rfl, ?_⟩
    have := acc_send e1
    split at this
    · right; right; exact ⟨m, rfl, this⟩
    · left; exact this
  | timeout => exact wrap h rfl
  | noise => exact wrap h rfl
  | lose => simp [act] at h; obtain ⟨rfl, rfl⟩ := h; exact ⟨rfl, Or.inl rfl⟩
  | recv =>
    simp only [act] at h
    split at h
    · simp at h; obtain ⟨rfl, rfl⟩ := h; exact ⟨rfl, Or.inl rfl⟩
    · exact wrap h rfl
  | badHeader =>
    simp only [act] at h
    split at h
    · simp at h; obtain ⟨rfl, rfl⟩ := h; exact ⟨rfl, Or.inl rfl⟩
    · exact wrap h rfl
  | badData =>
    simp only [act] at h
    split at h
    · simp at h; obtain ⟨rfl, rfl⟩ := h; exact ⟨rfl, Or.inl rfl⟩
    · exact wrap h rfl

end Verif.Ddcmp
