import Verif.Dap.Carry

/-!
# Protection of a file

`Prot.setmode`, `Prot.unixmode_s`: a Unix mode as a DAP protection message and back.
-/

namespace Verif.Dap

open Verif.Fields

/-- The table in `setmode`, dap_packets.py 1228-1233. -/
def modeTable : List (Nat × String) :=
  [(0o400, "o_noread"), (0o200, "o_nowrite"), (0o200, "o_nodel"), (0o100, "o_noexec"),
   (0o040, "g_noread"), (0o020, "g_nowrite"), (0o020, "g_nodel"), (0o010, "g_noexec"),
   (0o004, "w_noread"), (0o002, "w_nowrite"), (0o002, "w_nodel"), (0o001, "w_noexec")]

/-- The loop, dap_packets.py 1228-1235. -/
def modeLoop (mode : Nat) : List (Nat × String) → Attrs → Attrs
  | [], p => p
  | (b, f) :: t, p => modeLoop mode t (if mode &&& b = 0 then setTo p [(f, .int 1)] else p)

/-- `setmode`, dap_packets.py 1224-1236. -/
def setmode (p : Attrs) (mode : Nat) : Attrs :=
  setTo (modeLoop mode modeTable p) [("m_protown", .int 1), ("m_protgrp", .int 1), ("m_protwld", .int 1)]

/-- `getattr`; `AttributeError` if there is none. -/
def attr (p : Attrs) (n : String) : Except Err Bool :=
  match p n with
  | some v => .ok (truthy (some v))
  | none => .error .other

/-- `unixmode_s`, dap_packets.py 1209-1222. -/
def unixmode (p : Attrs) : Except Err (List Char) := do
  let all ← (do
    if ← attr p "m_protown" then
      if ← attr p "m_protgrp" then attr p "m_protwld" else return false
    else return false)
  if !all then return "---------".toList
  ([('r', "o_noread"), ('w', "o_nowrite"), ('x', "o_noexec"), ('r', "g_noread"), ('w', "g_nowrite"),
    ('x', "g_noexec"), ('r', "w_noread"), ('w', "w_nowrite"), ('x', "w_noexec")] : List (Char × String)).mapM
      fun x => do return if ← attr p x.2 then '-' else x.1

/-! ## Specification -/

/-- The permissions as `ls -l` shows them: nine places, bit 8 of the mode first. -/
def permString (mode : Nat) : List Char :=
  [('r', 8), ('w', 7), ('x', 6), ('r', 5), ('w', 4), ('x', 3), ('r', 2), ('w', 1), ('x', 0)].map
    fun x => if mode.testBit x.2 then x.1 else '-'

/-! ## Proof -/

/-- A deny bit. -/
def deny (mode i : Nat) : Option Val := if mode.testBit i then none else some (.int 1)

theorem modeLoop_get (mode : Nat) {n : String} : ∀ {t : List (Nat × String)} {p : Attrs},
    (t.map (·.2)).Nodup → modeLoop mode t p n = match t.find? fun x => x.2 == n with
      | some x => if mode &&& x.1 = 0 then some (.int 1) else p n
      | none => p n := by
  intro t
  induction t with
  | nil => intro p _; rfl
  | cons x t ih =>
    intro p hnd
    obtain ⟨b, f⟩ := x
    rw [List.map_cons, List.nodup_cons] at hnd
    simp only [modeLoop]
    rw [ih hnd.2, List.find?_cons]
    by_cases hf : f = n
    · subst hf
      have : (t.find? fun x => x.2 == f) = none := by
        rw [List.find?_eq_none]
        intro x hx hxf
        simp only [beq_iff_eq] at hxf
        exact hnd.1 (List.mem_map.2 ⟨x, hx, hxf⟩)
      rw [this]
      simp only [beq_self_eq_true]
      by_cases hm : mode &&& b = 0
      · rw [if_pos hm, if_pos hm]; simp [setTo]
      · rw [if_neg hm, if_neg hm]
    · have hne : (f == n) = false := by simpa using hf
      simp only [hne]
      have : (if mode &&& b = 0 then setTo p [(f, .int 1)] else p) n = p n := by
        by_cases hm : mode &&& b = 0
        · rw [if_pos hm]
          exact setTo_other p _ (by simp [List.lookup, show (n == f) = false by simpa using Ne.symm hf])
        · rw [if_neg hm]
      rw [this]

theorem and_two_pow_zero (mode i : Nat) : mode &&& 2 ^ i = 0 ↔ mode.testBit i = false := by
  constructor
  · intro h
    have := congrArg (·.testBit i) h
    simpa [Nat.testBit_and, Nat.testBit_two_pow_self] using this
  · intro h
    apply Nat.eq_of_testBit_eq
    intro j
    rw [Nat.testBit_and, Nat.zero_testBit, Nat.testBit_two_pow]
    by_cases hj : i = j
    · subst hj; rw [h]; rfl
    · simp [hj]

theorem mode_bit {p : Attrs} {mode : Nat} {n : String} {b i : Nat}
    (h : (modeTable.find? fun x => x.2 == n) = some (b, n)) (hb : b = 2 ^ i)
    (hm : n ∉ ["m_protown", "m_protgrp", "m_protwld"]) (hp : p n = none) :
    setmode p mode n = deny mode i := by
  unfold setmode
  rw [setTo_other, modeLoop_get mode (by decide), h]
  · simp only [hb, and_two_pow_zero, hp, deny]
    cases mode.testBit i <;> rfl
  · cases hl : List.lookup n [("m_protown", Val.int 1), ("m_protgrp", .int 1), ("m_protwld", .int 1)] with
    | none => rfl
    | some v =>
      exfalso
      apply hm
      rw [List.lookup_eq_some_iff] at hl
      obtain ⟨a, c, h1, _⟩ := hl
      have : (n, v) ∈ [("m_protown", Val.int 1), ("m_protgrp", .int 1), ("m_protwld", .int 1)] := by
        rw [h1]; simp
      simp only [List.mem_cons, Prod.mk.injEq, List.not_mem_nil, or_false] at this ⊢
      rcases this with h | h | h <;> simp [h.1]

theorem mode_other {p : Attrs} {mode : Nat} {n : String}
    (h : (modeTable.find? fun x => x.2 == n) = none)
    (hm : List.lookup n [("m_protown", Val.int 1), ("m_protgrp", .int 1), ("m_protwld", .int 1)] = none) :
    setmode p mode n = p n := by
  unfold setmode
  rw [setTo_other _ _ hm, modeLoop_get mode (by decide), h]

/-- One of the three groups of bits. -/
def protBits (a : List String) : List Elem :=
  (a.zip [(0, 1), (1, 1), (2, 1), (3, 1), (4, 1), (5, 1), (6, 1), (7, 1), (8, 1), (0, 2)]).map
    fun x => ⟨x.1, x.2.1, x.2.2⟩

theorem bmField_cons {c : PktClass} {p : Attrs} {e : Elem} {es : List Elem} {f v : Nat}
    (h : (c.get p e.name).getD (.int 0) = .int v) (hv : v < 2 ^ e.bits) :
    bmField c p (e :: es) f = bmField c p es (f ||| v <<< e.start) := by
  simp only [bmField, h]
  rw [if_neg]
  · rw [Int.toNat_natCast]
  · intro hn
    apply hn
    have : ((2 : Int) ^ e.bits) = ((2 ^ e.bits : Nat) : Int) := by simp
    rw [this, ← Int.natCast_ediv, Nat.div_eq_of_lt hv]; rfl

theorem deny_getD (b : Bool) : (if b then none else some (Val.int 1)).getD (.int 0) =
    .int ((if b then 0 else 1 : Nat) : Int) := by cases b <;> rfl

theorem deny_lt (b : Bool) : (if b then 0 else 1 : Nat) < 2 ^ 1 := by cases b <;> decide

theorem protBits_word {c : PktClass} {p : Attrs} {n1 n2 n3 n4 n5 n6 n7 n8 n9 n10 : String} {r w x : Bool}
    (h1 : c.get p n1 = if r then none else some (.int 1)) (h2 : c.get p n2 = if w then none else some (.int 1))
    (h3 : c.get p n3 = if x then none else some (.int 1)) (h4 : c.get p n4 = if w then none else some (.int 1))
    (h5 : c.get p n5 = none) (h6 : c.get p n6 = none) (h7 : c.get p n7 = none) (h8 : c.get p n8 = none)
    (h9 : c.get p n9 = none) (h10 : c.get p n10 = none) :
    ∃ k : Nat, bmField c p (protBits [n1, n2, n3, n4, n5, n6, n7, n8, n9, n10]) 0 = .ok k ∧ k < 128 ∧
      (k % 2 = 0 ↔ r = true) ∧ (k / 2 % 2 = 0 ↔ w = true) ∧ (k / 4 % 2 = 0 ↔ x = true) := by
  refine ⟨(if r then 0 else 1) + 2 * (if w then 0 else 1) + 4 * (if x then 0 else 1) + 8 * (if w then 0 else 1),
    ?_, ?_⟩
  · simp only [protBits, List.zip_cons_cons, List.zip_nil_right, List.map_cons, List.map_nil]
    rw [bmField_cons (by rw [h1]; exact deny_getD r) (deny_lt r),
      bmField_cons (by rw [h2]; exact deny_getD w) (deny_lt w),
      bmField_cons (by rw [h3]; exact deny_getD x) (deny_lt x),
      bmField_cons (by rw [h4]; exact deny_getD w) (deny_lt w),
      bmField_cons (v := 0) (by rw [h5]; rfl) (by simp), bmField_cons (v := 0) (by rw [h6]; rfl) (by simp),
      bmField_cons (v := 0) (by rw [h7]; rfl) (by simp), bmField_cons (v := 0) (by rw [h8]; rfl) (by simp),
      bmField_cons (v := 0) (by rw [h9]; rfl) (by simp), bmField_cons (v := 0) (by rw [h10]; rfl) (by simp)]
    simp only [bmField]
    cases r <;> cases w <;> cases x <;> simp
  · cases r <;> cases w <;> cases x <;> decide

/-- The names in a group. -/
def protNames (x : String) : List String :=
  ["noread", "nowrite", "noexec", "nodel", "noappend", "nodir", "noupdate", "nochprot", "noextend", "rw"].map
    fun s => x ++ "_" ++ s

theorem prot_body : prot.body =
    [⟨.always, .bmex 6 [⟨"m_owner", 0, 1⟩, ⟨"m_protsys", 1, 1⟩, ⟨"m_protown", 2, 1⟩, ⟨"m_protgrp", 3, 1⟩,
      ⟨"m_protwld", 4, 1⟩]⟩,
     ⟨.when "m_owner", .fld "owner" (.a 40)⟩,
     ⟨.when "m_protsys", .bmex 3 (protBits (protNames "s"))⟩,
     ⟨.when "m_protown", .bmex 3 (protBits (protNames "o"))⟩,
     ⟨.when "m_protgrp", .bmex 3 (protBits (protNames "g"))⟩,
     ⟨.when "m_protwld", .bmex 3 (protBits (protNames "w"))⟩] := by decide +kernel

theorem group_word {p : Attrs} {mode i : Nat} {x : String} (hp : ∀ n ∈ protNames x, p n = none)
    (hx : (x = "o" ∧ i = 6) ∨ (x = "g" ∧ i = 3) ∨ (x = "w" ∧ i = 0)) :
    ∃ k : Nat, bmField prot.cls (setmode p mode) (protBits (protNames x)) 0 = .ok k ∧ k < 128 ∧
      (k % 2 = 0 ↔ mode.testBit (i + 2) = true) ∧ (k / 2 % 2 = 0 ↔ mode.testBit (i + 1) = true) ∧
      (k / 4 % 2 = 0 ↔ mode.testBit i = true) := by
  have g : ∀ n ∈ protNames x, prot.cls.get (setmode p mode) n = setmode p mode n := by
    rcases hx with ⟨rfl, _⟩ | ⟨rfl, _⟩ | ⟨rfl, _⟩ <;>
      exact fun n hn => get_free (L := prot) _
        (by rintro rfl; revert hn; decide) (by rintro rfl; revert hn; decide) (by rintro rfl; revert hn; decide)
  rcases hx with ⟨rfl, rfl⟩ | ⟨rfl, rfl⟩ | ⟨rfl, rfl⟩
  all_goals
    simp only [protNames, List.map_cons, List.map_nil, List.mem_cons, List.not_mem_nil, or_false,
      forall_eq_or_imp, forall_eq] at hp g
    obtain ⟨p1, p2, p3, p4, p5, p6, p7, p8, p9, p10⟩ := hp
    obtain ⟨g1, g2, g3, g4, g5, g6, g7, g8, g9, g10⟩ := g
    refine protBits_word ?_ ?_ ?_ ?_ ?_ ?_ ?_ ?_ ?_ ?_
    · rw [g1]; exact mode_bit (by rfl) (by rfl) (by decide) p1
    · rw [g2]; exact mode_bit (by rfl) (by rfl) (by decide) p2
    · rw [g3]; exact mode_bit (by rfl) (by rfl) (by decide) p3
    · rw [g4]; exact mode_bit (by rfl) (by rfl) (by decide) p4
    · rw [g5]; exact (mode_other (by rfl) (by rfl)).trans p5
    · rw [g6]; exact (mode_other (by rfl) (by rfl)).trans p6
    · rw [g7]; exact (mode_other (by rfl) (by rfl)).trans p7
    · rw [g8]; exact (mode_other (by rfl) (by rfl)).trans p8
    · rw [g9]; exact (mode_other (by rfl) (by rfl)).trans p9
    · rw [g10]; exact (mode_other (by rfl) (by rfl)).trans p10

end Verif.Dap
