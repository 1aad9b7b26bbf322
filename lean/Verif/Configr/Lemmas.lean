import Verif.Configr.Spec
import Verif.Nice.Props

/-!
# Lemmas about the configurator
-/

namespace Verif.Configr

open Nice (Simple Val Item)

/-! ## Sorting -/

theorem before_total : ∀ a b : Bytes, before a b = true ∨ before b a = true
  | [], _ => Or.inl rfl
  | _ :: _, [] => Or.inr rfl
  | a :: s, b :: t => by
    unfold before
    have := before_total s t
    split
    · exact Or.inl rfl
    · split
      · exact Or.inr rfl
      · exact this

theorem before_less : ∀ a b : Bytes, a.length = b.length → before a b = true → a ≠ b → Less a b
  | [], [], _, _, h => absurd rfl h
  | [], _ :: _, h, _, _ => by simp at h
  | _ :: _, [], h, _, _ => by simp at h
  | a :: s, b :: t, hl, h, hn => by
    unfold before at h
    split at h
    · next hlt => exact ⟨[], s, t, a, b, rfl, rfl, hlt⟩
    · split at h
      · cases h
      · have e : a = b := UInt8.toNat_inj.mp (by omega)
        subst e
        obtain ⟨p, x, y, c, d, h1, h2, h3⟩ := before_less s t (by simpa using hl) h (fun e => hn (by rw [e]))
        exact ⟨a :: p, x, y, c, d, by rw [h1]; rfl, by rw [h2]; rfl, h3⟩

theorem Less.not_before {a b : Bytes} (h : Less a b) : before b a = false := by
  obtain ⟨p, s, t, x, y, rfl, rfl, hxy⟩ := h
  induction p with
  | nil => simp only [List.nil_append]; unfold before; rw [if_neg (by omega), if_pos hxy]
  | cons c p ih => simp only [List.cons_append]; unfold before; rw [if_neg (by omega), if_neg (by omega)]; exact ih

theorem before_trans : ∀ a b c : Bytes, before a b = true → before b c = true → before a c = true
  | [], _, _, _, _ => rfl
  | _ :: _, [], _, h, _ => by cases h
  | _ :: _, _ :: _, [], _, h => by cases h
  | a :: s, b :: t, c :: u, h1, h2 => by
    unfold before at h1 h2 ⊢
    split at h1
    · split at h2
      · rw [if_pos (by omega)]
      · split at h2
        · cases h2
        · rw [if_pos (by omega)]
    · split at h1
      · cases h1
      · split at h2
        · rw [if_pos (by omega)]
        · split at h2
          · cases h2
          · rw [if_neg (by omega), if_neg (by omega)]
            exact before_trans s t u h1 h2

abbrev Heard := Bytes × MopId.SysId × Int

theorem insert_perm (x : Heard) (l : List Heard) : (insert x l).Perm (x :: l) := by
  induction l with
  | nil => exact List.Perm.refl _
  | cons y r ih =>
    unfold insert
    split
    · exact List.Perm.refl _
    · exact (List.Perm.cons y ih).trans (List.Perm.swap x y r)

theorem sorted_perm (l : List Heard) : (sorted l).Perm l := by
  induction l with
  | nil => exact List.Perm.refl _
  | cons x r ih =>
    show (insert x (sorted r)).Perm _
    exact (insert_perm x _).trans (List.Perm.cons x ih)

theorem insert_pairwise (x : Heard) (l : List Heard) (h : l.Pairwise fun a b => before a.1 b.1 = true) :
    (insert x l).Pairwise fun a b => before a.1 b.1 = true := by
  induction l with
  | nil => simp [insert]
  | cons y r ih =>
    unfold insert
    rw [List.pairwise_cons] at h
    split
    · next hb =>
      rw [List.pairwise_cons, List.pairwise_cons]
      refine ⟨?_, h.1, h.2⟩
      intro z hz
      rcases List.mem_cons.mp hz with rfl | hz
      · exact hb
      · exact before_trans _ _ _ hb (h.1 z hz)
    · next hb =>
      rw [List.pairwise_cons]
      refine ⟨?_, ih h.2⟩
      intro z hz
      rcases List.mem_cons.mp ((insert_perm x r).mem_iff.mp hz) with rfl | hz
      · exact (before_total z.1 y.1).resolve_left hb
      · exact h.1 z hz

theorem sorted_pairwise (l : List Heard) : (sorted l).Pairwise fun a b => before a.1 b.1 = true := by
  induction l with
  | nil => exact List.Pairwise.nil
  | cons x r ih => exact insert_pairwise x _ ih

theorem sorted_less (l : List Heard) (hn : (l.map (·.1)).Nodup) (h6 : ∀ x ∈ l, x.1.length = 6) :
    ((sorted l).map (·.1)).Pairwise Less := by
  have hn' : ((sorted l).map (·.1)).Nodup := ((sorted_perm l).map _).nodup_iff.mpr hn
  rw [List.pairwise_map]
  have hp := sorted_pairwise l
  have hd : (sorted l).Pairwise fun a b => a.1 ≠ b.1 := by
    have := hn'; unfold List.Nodup at this; rwa [List.pairwise_map] at this
  have hm : ∀ x ∈ sorted l, x.1.length = 6 := fun x hx => h6 x ((sorted_perm l).mem_iff.mp hx)
  generalize sorted l = s at hp hd hm
  induction s with
  | nil => exact List.Pairwise.nil
  | cons x r ih =>
    rw [List.pairwise_cons] at hp hd ⊢
    refine ⟨fun y hy => ?_, ih hp.2 hd.2 fun y hy => hm y (List.mem_cons_of_mem _ hy)⟩
    exact before_less _ _ (by rw [hm x (by simp), hm y (List.mem_cons_of_mem _ hy)]) (hp.1 y hy) (hd.1 y hy)

theorem insert_map (f : Heard → Heard) (hf : ∀ x, (f x).1 = x.1) (x : Heard) (l : List Heard) :
    insert (f x) (l.map f) = (insert x l).map f := by
  induction l with
  | nil => rfl
  | cons y r ih =>
    simp only [List.map_cons, insert, hf]
    split
    · rfl
    · rw [ih]; rfl

theorem sorted_map (f : Heard → Heard) (hf : ∀ x, (f x).1 = x.1) (l : List Heard) :
    sorted (l.map f) = (sorted l).map f := by
  induction l with
  | nil => rfl
  | cons x r ih =>
    show insert (f x) (sorted (r.map f)) = _
    rw [ih, insert_map f hf]; rfl

/-! ## Parameters -/

theorem mem_opt {α : Type} {p q : Nat} {f : α → Val} {x : Option α} {v : Val} :
    Item.par p v ∈ opt q f x ↔ p = q ∧ ∃ a, x = some a ∧ v = f a := by
  cases x <;> simp [opt]

theorem functions_eq (m : MopId.SysId) : functions m = (List.range 7).filter (hasFunction m) := by
  unfold functions hasFunction
  cases m.funcs with
  | none => decide
  | some f =>
    obtain ⟨a, b, c, d, e, g, h, i⟩ := f
    cases a <;> cases b <;> cases c <;> cases d <;> cases e <;> cases g <;> cases h <;> rfl

theorem three {v : Bytes} (h : v.length = 3) : ∃ a b c, v = [a, b, c] := by
  match v, h with
  | [a, b, c], _ => exact ⟨a, b, c, rfl⟩

theorem station_says (tm : Int → Tm) (c : Circ) (k : Bytes) (m : MopId.SysId) (t : Int) (hs : Sized m)
    (p : Nat) (v : Val) : Item.par p v ∈ (station tm c (k, m, t)).params ↔ Says tm c k m t p v := by
  unfold Rec.params station
  simp only [List.mem_append, mem_opt, List.mem_singleton, Item.par.injEq]
  constructor
  · intro h
    rcases h with (((((((((((((((⟨rfl, rfl⟩ | ⟨rfl, a, ha, rfl⟩) | ⟨rfl, a, ha, rfl⟩) | ⟨rfl, a, ha, rfl⟩) | ⟨rfl, a, ha, rfl⟩) | ⟨rfl, a, ha, rfl⟩) | ⟨rfl, a, ha, rfl⟩) | ⟨rfl, a, ha, rfl⟩) | ⟨rfl, a, ha, rfl⟩) | ⟨rfl, a, ha, rfl⟩) | ⟨rfl, a, ha, rfl⟩) | ⟨rfl, a, ha, rfl⟩) | ⟨rfl, a, ha, rfl⟩) | ⟨rfl, a, ha, rfl⟩) | ⟨rfl, a, ha, rfl⟩) | ⟨rfl, a, ha, rfl⟩) | ⟨rfl, a, ha, rfl⟩
    · exact .circuit
    · cases ha
    · cases ha
    · injection ha with ha; subst ha; exact .addr
    · injection ha with ha; subst ha; exact .report
    · obtain ⟨x, y, z, rfl⟩ := three (hs.version a ha); exact .version x y z ha
    · split at ha
      · cases ha
      · next hne =>
        injection ha with ha; subst ha
        rw [functions_eq] at hne ⊢
        obtain ⟨n, hn⟩ := List.exists_mem_of_ne_nil _ hne
        rw [List.mem_filter, List.mem_range] at hn
        exact .functions n hn.1 hn.2
    · exact .user a ha
    · exact .resTimer a ha
    · exact .cmdSize a ha
    · exact .respSize a ha
    · exact .hwaddr a ha
    · exact .device a ha
    · cases ha
    · exact .processor a ha
    · exact .datalink a ha
    · exact .bufsize a ha
  · intro h
    cases h with
    | circuit => simp
    | addr => simp
    | report => simp [du1, c1]
    | version a b d h => simp [h, du1]
    | functions n h1 h2 =>
      simp [functions_eq, c1]
      exact ⟨n, h1, h2⟩
    | user v h => simp [h]
    | resTimer v h => simp [h]
    | cmdSize v h => simp [h]
    | respSize v h => simp [h]
    | hwaddr v h => simp [h]
    | device v h => simp [h, c1]
    | processor v h => simp [h, c1]
    | datalink v h => simp [h, c1]
    | bufsize v h => simp [h]

end Verif.Configr
