import Verif.Ncp.Spec
import Verif.Addr.Props

/-!
# From dictionaries to phrases
-/

namespace Verif.Ncp

open Verif.Nml (Bytes Ent Value PVal NameB NodeB AreaB Pars LoopPar CircPar NodeQual CircQual ModQual)

/-! ## Dictionaries -/

theorem get_ofList {α : Type} {l : List (Str × α)} (hl : l.Pairwise fun p q => ¬ Alike p.1 q.1) {tok : Str} {v : α} :
    I3.get (I3.ofList l) tok = some v ↔ ∃ name, (name, v) ∈ l ∧ Abbr tok name := abbreviation_iff l hl tok v

theorem get_ofList_none {α : Type} {l : List (Str × α)} (hl : l.Pairwise fun p q => ¬ Alike p.1 q.1) {tok : Str} :
    I3.get (I3.ofList l) tok = none ↔ ∀ name v, (name, v) ∈ l → ¬ Abbr tok name := by
  rw [Option.eq_none_iff_forall_ne_some]
  constructor
  · intro h name v hm ha
    exact h v ((get_ofList hl).2 ⟨name, hm, ha⟩)
  · intro h v hv
    obtain ⟨name, hm, ha⟩ := (get_ofList hl).1 hv
    exact h name v hm ha

/-- Words that are not alike have no abbreviation in common. -/
theorem abbr_alike {tok a b : Str} (ha : Abbr tok a) (hb : Abbr tok b) : Alike a b :=
  ((alike_of_abbr ha.1).2 ha.2).trans ((alike_of_abbr hb.1).2 hb.2).symm

theorem edict_get {tok : Str} {x : EntD} : edict.get tok = some x ↔
    (x = .executor ∧ Abbr tok k!"executor") ∨ (∃ w c, x = .plural c ∧ (w, c) ∈ selectors ∧ Abbr tok w) ∨
      ∃ w t, x = .cls t ∧ (w, t) ∈ singles ∧ Abbr tok w := by
  unfold edict
  rw [get_ofList (by decide)]
  constructor
  · rintro ⟨w, hm, ha⟩
    simp only [List.mem_cons, List.not_mem_nil, or_false, Prod.mk.injEq] at hm
    rcases hm with ⟨rfl, rfl⟩ | ⟨rfl, rfl⟩ | ⟨rfl, rfl⟩ | ⟨rfl, rfl⟩ | ⟨rfl, rfl⟩ | ⟨rfl, rfl⟩ | ⟨rfl, rfl⟩ |
      ⟨rfl, rfl⟩ | ⟨rfl, rfl⟩ | ⟨rfl, rfl⟩ | ⟨rfl, rfl⟩ | ⟨rfl, rfl⟩
    · exact .inr (.inl ⟨_, _, rfl, by decide, ha⟩)
    · exact .inr (.inl ⟨_, _, rfl, by decide, ha⟩)
    · exact .inr (.inl ⟨_, _, rfl, by decide, ha⟩)
    · exact .inr (.inl ⟨_, _, rfl, by decide, ha⟩)
    · exact .inr (.inl ⟨_, _, rfl, by decide, ha⟩)
    · exact .inl ⟨rfl, ha⟩
    · exact .inr (.inr ⟨_, _, rfl, by decide, ha⟩)
    · exact .inr (.inr ⟨_, _, rfl, by decide, ha⟩)
    · exact .inr (.inr ⟨_, _, rfl, by decide, ha⟩)
    · exact .inr (.inr ⟨_, _, rfl, by decide, ha⟩)
    · exact .inr (.inr ⟨_, _, rfl, by decide, ha⟩)
    · exact .inr (.inr ⟨_, _, rfl, by decide, ha⟩)
  · rintro (⟨rfl, ha⟩ | ⟨w, c, rfl, hm, ha⟩ | ⟨w, t, rfl, hm, ha⟩)
    · exact ⟨_, by decide, ha⟩
    · refine ⟨w, ?_, ha⟩
      simp only [selectors, List.mem_cons, List.not_mem_nil, or_false, Prod.mk.injEq] at hm
      rcases hm with ⟨rfl, rfl⟩ | ⟨rfl, rfl⟩ | ⟨rfl, rfl⟩ | ⟨rfl, rfl⟩ | ⟨rfl, rfl⟩ <;> decide
    · refine ⟨w, ?_, ha⟩
      simp only [singles, List.mem_cons, List.not_mem_nil, or_false, Prod.mk.injEq] at hm
      rcases hm with ⟨rfl, rfl⟩ | ⟨rfl, rfl⟩ | ⟨rfl, rfl⟩ | ⟨rfl, rfl⟩ | ⟨rfl, rfl⟩ | ⟨rfl, rfl⟩ <;> decide

theorem edict2_get {tok : Str} {t : Nat} : edict2.get tok = some t ↔ ∃ w, (w, t) ∈ plurals ∧ Abbr tok w := by
  unfold edict2
  rw [get_ofList (by decide)]
  rfl

theorem info_get {tok : Str} {i : Nat} : info.get tok = some i ↔ ∃ w, (w, i) ∈ kinds ∧ Abbr tok w := by
  unfold info
  rw [get_ofList (by decide)]
  rfl

theorem loopedict_get {tok : Str} {x : EntD} : loopedict.get tok = some x ↔
    ∃ w t, x = .cls t ∧ (w, t) ∈ singles ∧ (t = 0 ∨ t = 1 ∨ t = 3) ∧ Abbr tok w := by
  unfold loopedict
  rw [get_ofList (by decide)]
  constructor
  · rintro ⟨w, hm, ha⟩
    simp only [List.mem_cons, List.not_mem_nil, or_false, Prod.mk.injEq] at hm
    rcases hm with ⟨rfl, rfl⟩ | ⟨rfl, rfl⟩ | ⟨rfl, rfl⟩
    · exact ⟨_, _, rfl, by decide, by decide, ha⟩
    · exact ⟨_, _, rfl, by decide, by decide, ha⟩
    · exact ⟨_, _, rfl, by decide, by decide, ha⟩
  · rintro ⟨w, t, rfl, hm, ht, ha⟩
    refine ⟨w, ?_, ha⟩
    simp only [singles, List.mem_cons, List.not_mem_nil, or_false, Prod.mk.injEq] at hm
    rcases hm with ⟨rfl, rfl⟩ | ⟨rfl, rfl⟩ | ⟨rfl, rfl⟩ | ⟨rfl, rfl⟩ | ⟨rfl, rfl⟩ | ⟨rfl, rfl⟩
    · decide
    · decide
    · omega
    · decide
    · omega
    · omega

/-- No entity begins with the name of a system. -/
theorem sysspecific_not {a : List Str} {t : Nat} {e : Ent} (h : EntPhrase a t e) :
    ∃ tok r, a = tok :: r ∧ sysspecific.contains tok = false := by
  have hn : ∀ tok w, Abbr tok w → (∀ p ∈ [k!"rsx", k!"rsts", k!"vms"], ¬ Alike w p) →
      sysspecific.contains tok = false := by
    intro tok w ha hw
    unfold I3.contains
    have : sysspecific.get tok = none := by
      unfold sysspecific
      rw [get_ofList_none (by decide)]
      intro name v hm hb
      refine hw name ?_ (abbr_alike ha hb)
      simp only [List.mem_cons, List.not_mem_nil, or_false, Prod.mk.injEq] at hm ⊢
      rcases hm with ⟨h, -⟩ | ⟨h, -⟩ | ⟨h, -⟩ <;> simp [h]
    rw [this]; rfl
  cases h with
  | executor tok ha => exact ⟨_, _, rfl, hn _ _ ha (by decide)⟩
  | several a b w c v t hw hv ha hb =>
    refine ⟨_, _, rfl, hn _ _ ha ?_⟩
    simp only [selectors, List.mem_cons, List.not_mem_nil, or_false, Prod.mk.injEq] at hw
    rcases hw with ⟨rfl, -⟩ | ⟨rfl, -⟩ | ⟨rfl, -⟩ | ⟨rfl, -⟩ | ⟨rfl, -⟩ <;> decide
  | one a s w t e hw ha ho =>
    refine ⟨_, _, rfl, hn _ _ ha ?_⟩
    simp only [singles, List.mem_cons, List.not_mem_nil, or_false, Prod.mk.injEq] at hw
    rcases hw with ⟨rfl, -⟩ | ⟨rfl, -⟩ | ⟨rfl, -⟩ | ⟨rfl, -⟩ | ⟨rfl, -⟩ | ⟨rfl, -⟩ <;> decide

/-! ## Addresses in letters -/

/-- Digits and dots. -/
def Plain (s : Str) : Prop := ∀ c ∈ s, ('0' ≤ c ∧ c ≤ '9') ∨ c = '.'

theorem digits_of_fold (s : Str) (acc : Option Nat) (n : Nat) (h : s.foldl Addr.addDigit acc = some n) :
    (∀ c ∈ s, '0' ≤ c ∧ c ≤ '9') ∧ acc.isSome := by
  induction s generalizing acc with
  | nil => simp at h; simp [h]
  | cons c s ih =>
    rw [List.foldl_cons] at h
    obtain ⟨h1, h2⟩ := ih _ h
    unfold Addr.addDigit Addr.digitVal at h2
    cases acc with
    | none => simp at h2
    | some a =>
      by_cases hc : '0' ≤ c ∧ c ≤ '9'
      · refine ⟨?_, rfl⟩
        intro x hx
        rcases List.mem_cons.1 hx with rfl | hx
        · exact hc
        · exact h1 x hx
      · simp [hc] at h2

theorem digits_of_parse {s : Str} {n : Nat} (h : Addr.parseNat s = some n) : ∀ c ∈ s, '0' ≤ c ∧ c ≤ '9' := by
  unfold Addr.parseNat at h
  split at h
  · cases h
  · exact (digits_of_fold s _ n h).1

theorem span_append (p : Char → Bool) (s : Str) : (s.span p).1 ++ (s.span p).2 = s := by
  rw [List.span_eq_takeWhile_dropWhile]
  exact List.takeWhile_append_dropWhile

theorem span_head {p : Char → Bool} {s a r : Str} {c : Char} (h : s.span p = (a, c :: r)) : p c = false := by
  rw [List.span_eq_takeWhile_dropWhile, Prod.mk.injEq] at h
  have := List.head?_dropWhile_not p s
  rw [h.2] at this
  simpa using this

theorem plain_of_address {s : Str} {n : Int} (h : Addr.ofText s = .ok n) : Plain s := by
  have hp : ∃ x, Addr.parseId s = some x := by
    unfold Addr.ofText at h
    cases hx : Addr.parseId s with
    | none => rw [hx] at h; cases h
    | some x => exact ⟨x, rfl⟩
  obtain ⟨x, hx⟩ := hp
  unfold Addr.parseId at hx
  have happ := span_append (fun c => decide (c ≠ '.')) s
  cases hs : s.span (fun c => decide (c ≠ '.')) with
  | mk a r =>
    rw [hs] at hx happ
    intro c hc
    rw [← happ, List.mem_append] at hc
    cases r with
    | nil =>
      simp only [Option.map_eq_some_iff] at hx
      obtain ⟨m, hm, -⟩ := hx
      rcases hc with hc | hc
      · exact .inl (digits_of_parse hm c hc)
      · cases hc
    | cons d r =>
      simp only at hx
      have hd : d = '.' := by simpa using span_head hs
      split at hx
      · rename_i u v hu hv
        rcases hc with hc | hc
        · exact .inl (digits_of_parse hu c hc)
        · rcases List.mem_cons.1 hc with rfl | hc
          · exact .inr hd
          · exact .inl (digits_of_parse hv c hc)
      · cases hx

theorem up_lower_range (c : Char) (h : 'a' ≤ c ∧ c ≤ 'z') : (up c).toNat = c.toNat - 32 := by
  have h1 : 97 ≤ c.toNat := h.1
  have h2 : c.toNat ≤ 122 := h.2
  unfold up
  rw [if_pos h]
  have hv : (c.toNat - 32).isValidChar := by left; omega
  rw [Char.ofNat, dif_pos hv]; rfl

theorem up_plain {c : Char} (h : ('0' ≤ up c ∧ up c ≤ '9') ∨ up c = '.') : up c = c := by
  by_cases hc : 'a' ≤ c ∧ c ≤ 'z'
  · exfalso
    have h1 : 97 ≤ c.toNat := hc.1
    have h2 := up_lower_range c hc
    rcases h with h | h
    · have : (up c).toNat ≤ 57 := h.2
      omega
    · rw [h] at h2
      have : ('.' : Char).toNat = 46 := by decide
      omega
  · unfold up; rw [if_neg hc]

theorem up_of_plain {c : Char} (h : ('0' ≤ c ∧ c ≤ '9') ∨ c = '.') : up c = c := by
  unfold up
  rw [if_neg]
  rintro ⟨h1, -⟩
  have h1 : 97 ≤ c.toNat := h1
  rcases h with h | h
  · have : c.toNat ≤ 57 := h.2
    omega
  · have : ('.' : Char).toNat = 46 := by decide
    rw [h] at h1
    omega

/-- A name is not an address in either case. -/
theorem address_upper (s : Str) : (∀ n, Addr.ofText s ≠ .ok n) ↔ ∀ n, Addr.ofText (upper s) ≠ .ok n := by
  constructor
  · intro h n hn
    have hp := plain_of_address hn
    have : upper s = s := by
      unfold upper at hp ⊢
      conv_rhs => rw [← List.map_id s]
      apply List.map_congr_left
      intro c hc
      exact up_plain (hp (up c) (List.mem_map.2 ⟨c, hc, rfl⟩))
    exact h n (this ▸ hn)
  · intro h n hn
    have hp := plain_of_address hn
    have : upper s = s := by
      unfold upper
      conv_rhs => rw [← List.map_id s]
      apply List.map_congr_left
      intro c hc
      exact up_of_plain (hp c hc)
    exact h n (this.symm ▸ hn)

theorem upper_length (s : Str) : (upper s).length = s.length := by simp [upper]

theorem not_ok {α β : Type} {x : Except α β} (h : ∀ n, x ≠ .ok n) : ∃ e, x = .error e := by
  cases x with
  | ok n => exact absurd rfl (h n)
  | error e => exact ⟨e, rfl⟩

/-! ## Entities -/

theorem oneEnt_iff {t : Nat} {s : Str} {e : Ent} : oneEnt t s = .ok e ↔ One t s e := by
  unfold oneEnt
  constructor
  · intro h
    split at h
    · rename_i ht
      subst ht
      cases ho : Addr.ofText s with
      | ok n =>
        rw [ho] at h
        cases h
        exact .address s n ho
      | error x =>
        rw [ho] at h
        have hno : ∀ n, Addr.ofText s ≠ .ok n := by rw [ho]; intro n; simp
        obtain ⟨y, hy⟩ := not_ok ((address_upper s).1 hno)
        simp only [nodeEnt, hy, nameEnt, upper_length, Except.ok.injEq] at h
        subst h
        exact .name 0 s (by decide) fun _ => hno
    · rename_i ht
      split at h
      · rename_i h5
        subst h5
        cases hp : Addr.parseNat s with
        | none => rw [hp] at h; cases h
        | some n => rw [hp] at h; cases h; exact .area s n hp
      · rename_i h5
        simp only [nameEnt, upper_length, Except.ok.injEq] at h
        subst h
        exact .name t s h5 fun h => absurd h ht
  · intro h
    cases h with
    | address s n ho => rw [if_pos rfl, ho]
    | area s n hp => rw [if_neg (by decide), if_pos rfl, hp]
    | name t s h5 h0 =>
      by_cases ht : t = 0
      · subst ht
        rw [if_pos rfl]
        obtain ⟨y, hy⟩ := not_ok (h0 rfl)
        obtain ⟨z, hz⟩ := not_ok ((address_upper s).1 (h0 rfl))
        simp only [hy, nodeEnt, hz, nameEnt, upper_length]
      · rw [if_neg ht, if_neg h5, nameEnt, upper_length]

theorem getent_edict {toks rest : List Str} {t : Nat} {e : Ent} :
    getent edict toks = .ok ((t, e), rest) ↔ ∃ a, EntPhrase a t e ∧ toks = a ++ rest := by
  constructor
  · intro h
    cases toks with
    | nil => cases h
    | cons tok r =>
      simp only [getent] at h
      cases hg : edict.get tok with
      | none => rw [hg] at h; cases h
      | some x =>
        rw [hg] at h
        rcases edict_get.1 hg with ⟨rfl, ha⟩ | ⟨w, c, rfl, hm, ha⟩ | ⟨w, u, rfl, hm, ha⟩
        · cases h
          exact ⟨_, .executor tok ha, rfl⟩
        · cases r with
          | nil => cases h
          | cons tok2 r =>
            simp only [entArg] at h
            cases h2 : edict2.get tok2 with
            | none => rw [h2] at h; cases h
            | some u =>
              rw [h2] at h
              cases h
              obtain ⟨v, hv, hb⟩ := edict2_get.1 h2
              exact ⟨_, .several tok tok2 w c v t hm hv ha hb, rfl⟩
        · cases r with
          | nil => cases h
          | cons tok2 r =>
            simp only [entArg] at h
            cases h2 : oneEnt u tok2 with
            | error x => rw [h2] at h; cases h
            | ok y =>
              rw [h2] at h
              cases h
              exact ⟨_, .one tok tok2 w t e hm ha (oneEnt_iff.1 h2), rfl⟩
  · rintro ⟨a, h, rfl⟩
    cases h with
    | executor tok ha => simp only [List.cons_append, List.nil_append, getent, edict_get.2 (.inl ⟨rfl, ha⟩)]
    | several a b w c v t hw hv ha hb =>
      simp only [List.cons_append, List.nil_append, getent, edict_get.2 (.inr (.inl ⟨w, c, rfl, hw, ha⟩)), entArg,
        edict2_get.2 ⟨v, hv, hb⟩, Except.map]
    | one a s w t e hw ha ho =>
      simp only [List.cons_append, List.nil_append, getent, edict_get.2 (.inr (.inr ⟨w, t, rfl, hw, ha⟩)), entArg,
        oneEnt_iff.2 ho, Except.map]

theorem getent_loop {toks rest : List Str} {t : Nat} {e : Ent} :
    getent loopedict toks = .ok ((t, e), rest) ↔ ∃ a, LoopEnt a t e ∧ toks = a ++ rest := by
  constructor
  · intro h
    cases toks with
    | nil => cases h
    | cons tok r =>
      simp only [getent] at h
      cases hg : loopedict.get tok with
      | none => rw [hg] at h; cases h
      | some x =>
        rw [hg] at h
        obtain ⟨w, u, rfl, hm, hu, ha⟩ := loopedict_get.1 hg
        cases r with
        | nil => cases h
        | cons tok2 r =>
          simp only [entArg] at h
          cases h2 : oneEnt u tok2 with
          | error x => rw [h2] at h; cases h
          | ok y =>
            rw [h2] at h
            cases h
            exact ⟨_, .one tok tok2 w t e hm hu ha (oneEnt_iff.1 h2), rfl⟩
  · rintro ⟨a, h, rfl⟩
    cases h with
    | one a s w t e hw hu ha ho =>
      simp only [List.cons_append, List.nil_append, getent, loopedict_get.2 ⟨w, t, rfl, hw, hu, ha⟩, entArg,
        oneEnt_iff.2 ho, Except.map]

/-! ## Values -/

theorem hex_no_dash {s : Str} {n : Nat} (h : Addr.parseHex s = some n) : s ≠ [] := by
  rintro rfl; simp [Addr.parseHex] at h

theorem splitDash_ne (s : Str) : splitDash s ≠ [] := by
  induction s with
  | nil => simp [splitDash]
  | cons c s ih => unfold splitDash; split <;> [simp; (split <;> simp)]

theorem splitDash_nodash {s : Str} (h : '-' ∉ s) : splitDash s = [s] := by
  induction s with
  | nil => rfl
  | cons c s ih =>
    have hc : c ≠ '-' := fun e => h (by simp [e])
    unfold splitDash
    rw [if_neg hc, ih (fun hm => h (List.mem_cons_of_mem _ hm))]

theorem splitDash_append {s : Str} (h : '-' ∉ s) (r : Str) : splitDash (s ++ '-' :: r) = s :: splitDash r := by
  induction s with
  | nil => simp [splitDash]
  | cons c s ih =>
    have hc : c ≠ '-' := fun e => h (by simp [e])
    rw [List.cons_append, splitDash, if_neg hc, ih (fun hm => h (List.mem_cons_of_mem _ hm))]

theorem hexByte_iff {s : Str} {b : UInt8} :
    hexByte s = some b ↔ ∃ n, Addr.parseHex s = some n ∧ n < 256 ∧ b = UInt8.ofNat n := by
  unfold hexByte
  cases h : Addr.parseHex s with
  | none => simp
  | some n =>
    simp only [Option.some.injEq, exists_eq_left']
    split
    · rename_i hn; simp [hn, eq_comm]
    · rename_i hn; simp [hn]

theorem hexBytes_iff {s : Str} {b : Bytes} : hexBytes s = some b ↔ Station s b := by
  unfold hexBytes
  constructor
  · intro h
    generalize hk : s.length = k
    induction k using Nat.strongRecOn generalizing s b with
    | ind k ih =>
      by_cases hd : '-' ∈ s
      · obtain ⟨a, r, rfl, ha⟩ := List.eq_append_cons_of_mem hd
        rw [splitDash_append ha, List.mapM_cons] at h
        simp only [bind, Option.bind_eq_some_iff, pure, Option.some.injEq] at h
        obtain ⟨x, hx, y, hy, rfl⟩ := h
        obtain ⟨n, hn, hlt, rfl⟩ := hexByte_iff.1 hx
        exact .more a n r y ha hn hlt (ih r.length (by rw [← hk]; simp; omega) hy rfl)
      · rw [splitDash_nodash hd] at h
        simp only [List.mapM_cons, List.mapM_nil, bind, Option.bind_eq_some_iff, pure, Option.some.injEq] at h
        obtain ⟨x, hx, y, rfl, rfl⟩ := h
        obtain ⟨n, hn, hlt, rfl⟩ := hexByte_iff.1 hx
        exact .last s n hd hn hlt
  · intro h
    induction h with
    | last s n hd hn hlt =>
      rw [splitDash_nodash hd]
      simp [hexByte_iff.2 ⟨n, hn, hlt, rfl⟩]
    | more s n r b hd hn hlt hr ih =>
      rw [splitDash_append hd, List.mapM_cons, hexByte_iff.2 ⟨n, hn, hlt, rfl⟩, ih]
      rfl

theorem conv_iff {k : Kind} {s : Str} {v : PVal} : conv k s = .ok v ↔ Reads k s v := by
  cases k with
  | du2 =>
    simp only [conv]
    cases h : Addr.parseNat s with
    | none =>
      simp only [reduceCtorEq, false_iff]
      intro hr; cases hr with | du2 s n hn => rw [h] at hn; cases hn
    | some n =>
      simp only [Except.ok.injEq]
      constructor
      · rintro rfl; exact .du2 s n h
      · intro hr; cases hr with | du2 s n hn => rw [h] at hn; cases hn; rfl
  | hi =>
    simp only [conv]
    cases h : hexBytes s with
    | none =>
      simp only [reduceCtorEq, false_iff]
      intro hr; cases hr with | hi s b hb => rw [hexBytes_iff.2 hb] at h; cases h
    | some b =>
      simp only [Except.ok.injEq]
      constructor
      · rintro rfl; exact .hi s b (hexBytes_iff.1 h)
      · intro hr; cases hr with | hi s b hb => rw [hexBytes_iff.2 hb] at h; cases h; rfl
  | ai =>
    simp only [conv, Except.ok.injEq]
    constructor
    · rintro rfl; exact .ai s
    · intro hr; cases hr; rfl
  | strQual =>
    simp only [conv, Except.ok.injEq, nameEnt]
    constructor
    · rintro rfl; exact .strQual s
    · intro hr; cases hr; rfl
  | nodeQual =>
    simp only [conv, Except.ok.injEq, nodeEnt]
    cases h : Addr.ofText s with
    | ok n =>
      simp only
      constructor
      · rintro rfl; exact .nodeAddr s n h
      · intro hr
        cases hr with
        | nodeAddr s n hn => rw [h] at hn; cases hn; rfl
        | nodeName s hn => exact absurd h (hn n)
    | error x =>
      simp only [nameEnt]
      constructor
      · rintro rfl; exact .nodeName s (by rw [h]; intro n; simp)
      · intro hr
        cases hr with
        | nodeAddr s n hn => rw [h] at hn; cases hn
        | nodeName s hn => rfl

end Verif.Ncp
