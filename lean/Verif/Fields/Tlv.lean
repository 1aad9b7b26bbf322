import Verif.Fields.Roundtrip

/-! What a successful TLV decode says about the buffer. -/

namespace Verif.Fields

/-- The wire form of a list of tagged values: tag, length, value, nothing
between them. -/
def wire (tlen llen : Nat) : List (Nat × Bytes) → Bytes
  | [] => []
  | (t, v) :: items => le tlen t ++ (le llen v.length ++ (v ++ wire tlen llen items))

/-- Every item was looked at once, in order, each seeing only its own value. -/
inductive Applied (c : PktClass) (wild : Bool) (cd : List (Nat × TRow)) :
    List (Nat × Bytes) → Attrs → Attrs → Prop
  | nil (p : Attrs) : Applied c wild cd [] p p
  | cons {t : Nat} {v : Bytes} {items : List (Nat × Bytes)} {p q r : Attrs} :
      tDec c wild cd t v p = .ok q → Applied c wild cd items q r →
      Applied c wild cd ((t, v) :: items) p r

theorem tlvDec_exact (c : PktClass) (tlen llen : Nat) (wild : Bool)
    (cd : List (Nat × TRow)) : ∀ (n : Nat) (buf : Bytes) (p q : Attrs), buf.length ≤ n →
      tlvDec c tlen llen wild cd buf p = .ok q →
      ∃ items tail, buf = wire tlen llen items ++ tail ∧
        Applied c wild cd items p q ∧
        (∀ i ∈ items, i.1 < 256 ^ tlen ∧ i.2.length < 256 ^ llen) ∧
        (c.tolerant = false → tail = []) ∧ tail.length < tlen + llen := by
  intro n
  induction n with
  | zero =>
    intro buf p q hn h
    have : buf = [] := by
      cases buf with
      | nil => rfl
      | cons _ _ => simp at hn
    subst this
    rw [tlvDec] at h
    split at h
    · cases h
    · rw [if_pos rfl] at h
      injection h with h
      subst h
      exact ⟨[], [], rfl, .nil _, by simp, by simp, by simp; omega⟩
  | succ n ih =>
    intro buf p q hn h
    rw [tlvDec] at h
    split at h
    · cases h
    rename_i h0
    split at h
    · rename_i hb
      injection h with h
      subst h hb
      exact ⟨[], [], rfl, .nil _, by simp, by simp, by simp; omega⟩
    split at h
    · rename_i hlt
      split at h
      · rename_i htol
        injection h with h
        subst h
        exact ⟨[], buf, rfl, .nil _, by simp, by simp [htol], hlt⟩
      · cases h
    rename_i hge
    simp only at h
    split at h
    · cases h
    rename_i hv
    split at h
    · cases h
    rename_i p' hp'
    have hl1 : (buf.take tlen).length = tlen := by simp; omega
    have hl2 : ((buf.drop tlen).take llen).length = llen := by simp; omega
    obtain ⟨items, tail, h1, h2, h3, h4, h5⟩ := ih _ p' q (by
      simp only [List.length_drop]; omega) h
    have hv1 : ((buf.drop (tlen + llen)).take
        (fromLe ((buf.drop tlen).take llen))).length = fromLe ((buf.drop tlen).take llen) := by
      simp only [List.length_take]; omega
    refine ⟨(_, _) :: items, tail, ?_, .cons hp' h2, ?_, h4, h5⟩
    · simp only [wire, hv1, List.append_assoc]
      rw [le_fromLe' hl1, le_fromLe' hl2, ← h1, List.take_append_drop, ← List.drop_drop,
        List.take_append_drop, List.take_append_drop]
    · intro i hi
      rcases List.mem_cons.1 hi with rfl | hi
      · simp only
        have b1 := fromLe_lt (buf.take tlen)
        have b2 := fromLe_lt ((buf.drop tlen).take llen)
        rw [hl1] at b1
        rw [hl2] at b2
        exact ⟨b1, by rw [hv1]; exact b2⟩
      · exact h3 i hi

/-- One item: the tag is known (or the group is open), and unless the class is
tolerant the value is consumed completely. -/
theorem tDec_ok {c : PktClass} {wild : Bool} {cd : List (Nat × TRow)} {t : Nat} {v : Bytes}
    {p q : Attrs} (h : tDec c wild cd t v p = .ok q) :
    (wild = true ∨ ∃ r, cd.lookup t = some r) ∧
    (c.tolerant = false → ∀ n codec, cd.lookup t = some (.simple n codec) →
      ∃ x, codec.dec v = .ok (x, []) ∧ c.set p n x = .ok q) ∧
    (c.tolerant = false → ∀ es, cd.lookup t = some (.bm es) → bmDec c es v p = .ok (q, [])) := by
  unfold tDec at h
  cases hl : cd.lookup t with
  | none =>
    rw [hl] at h
    cases wild with
    | false => simp [throw, throwThe, MonadExceptOf.throw, bind, Except.bind] at h
    | true => simp
  | some r =>
    rw [hl] at h
    simp only [pure_eq_ok, ok_bind] at h
    refine ⟨.inr ⟨r, rfl⟩, ?_, ?_⟩
    · intro htol n codec hr
      injection hr with hr
      subst hr
      simp only [bind_ok] at h
      obtain ⟨⟨x, b2⟩, hx, q', hq', h⟩ := h
      simp only [htol, and_true] at h
      by_cases hb : b2 = []
      · subst hb
        simp at h
        subst h
        exact ⟨x, hx, hq'⟩
      · simp [hb, throw, throwThe, MonadExceptOf.throw, bind, Except.bind] at h
    · intro htol es hr
      injection hr with hr
      subst hr
      simp only [bind_ok] at h
      obtain ⟨⟨a, b⟩, hx, h⟩ := h
      simp only [htol, and_true] at h
      by_cases hb : b = []
      · subst hb
        simp at h
        subst h
        exact hx
      · simp [hb, throw, throwThe, MonadExceptOf.throw, bind, Except.bind] at h

end Verif.Fields
