import Verif.Nml.Props
import Verif.Nice.Lemmas
import Verif.Fields.Lemmas

/-!
# The request messages, byte by byte

The formats of the requests as the Network Management Functional Specification lays them out, independent
of the decoder, and the proof that the listener takes exactly those apart, and how.
-/

namespace Verif.Nml

open Verif.Nice (Ty Simple decSimple)
open Verif.Fields (fromLe latin1Dec)

/-! ## Formats -/

/-- Text as the codes of its characters. -/
def text (s : Bytes) : Str := s.map UInt8.toNat

/-- A number in two bytes. -/
def two (a b : UInt8) : Nat := a.toNat + 256 * b.toNat

/-- An entity given by name: a count of 1 to 127 and the characters; or a code for several. -/
inductive NameB : Ent → Bytes → Prop
  | several (c : UInt8) : 128 ≤ c.toNat → NameB ⟨(c.toNat : Int) - 256, .none⟩ [c]
  | name (s : Bytes) : 1 ≤ s.length → s.length ≤ 127 →
      NameB ⟨s.length, .str (text s)⟩ (UInt8.ofNat s.length :: s)

/-- A node: by address after a zero; by name, unless the name reads as an address; or a code for several,
those below -5 with an address. -/
inductive NodeB : Ent → Bytes → Prop
  | address (a b : UInt8) : NodeB ⟨0, .num (two a b)⟩ [0, a, b]
  | several (c : UInt8) : 251 ≤ c.toNat → NodeB ⟨(c.toNat : Int) - 256, .none⟩ [c]
  | adjacent (c a b : UInt8) : 128 ≤ c.toNat → c.toNat ≤ 250 →
      NodeB ⟨(c.toNat : Int) - 256, .num (two a b)⟩ [c, a, b]
  | name (s : Bytes) : 1 ≤ s.length → s.length ≤ 127 →
      (∀ n, Addr.ofText ((text s).map Char.ofNat) ≠ .ok n) →
      NodeB ⟨s.length, .str (text s)⟩ (UInt8.ofNat s.length :: s)
  | written (s : Bytes) (n : Int) : 1 ≤ s.length → s.length ≤ 127 →
      Addr.ofText ((text s).map Char.ofNat) = .ok n →
      NodeB ⟨0, .num n.toNat⟩ (UInt8.ofNat s.length :: s)

/-- An area: by number after a zero, or a code for several. -/
inductive AreaB : Ent → Bytes → Prop
  | number (n : UInt8) : AreaB ⟨0, .num n.toNat⟩ [0, n]
  | several (c : UInt8) : 128 ≤ c.toNat → AreaB ⟨(c.toNat : Int) - 256, .none⟩ [c]

/-- Parameters of a loop test: count, length, data. -/
inductive LoopPar : Nat → PVal → Bytes → Prop
  | count (a b : UInt8) : LoopPar 150 (.simple (.num .du 2 (two a b))) [a, b]
  | length (a b : UInt8) : LoopPar 151 (.simple (.num .du 2 (two a b))) [a, b]
  | data (a : UInt8) : LoopPar 152 (.simple (.num .c 1 a.toNat)) [a]

/-- Those of a loop test over a circuit: also the station and the assistant, by address or by name, and the
kind of help. -/
inductive CircPar : Nat → PVal → Bytes → Prop
  | loop (n v d) : LoopPar n v d → CircPar n v d
  | station (s : Bytes) : s.length ≤ 255 → CircPar 10 (.simple (.hi s)) (UInt8.ofNat s.length :: s)
  | assistant (s : Bytes) : s.length ≤ 255 → CircPar 153 (.simple (.hi s)) (UInt8.ofNat s.length :: s)
  | help (a : UInt8) : CircPar 154 (.simple (.num .c 1 a.toNat)) [a]
  | node (s : Bytes) : s.length ≤ 255 → CircPar 155 (.simple (.ai (text s))) (UInt8.ofNat s.length :: s)
  | assistNode (s : Bytes) : s.length ≤ 255 →
      CircPar 156 (.simple (.ai (text s))) (UInt8.ofNat s.length :: s)

/-- Qualifiers for nodes: circuit and owner. -/
inductive NodeQual : Nat → PVal → Bytes → Prop
  | circuit (e d) : NameB e d → NodeQual 822 (.ent e) d
  | owner (e d) : NameB e d → NodeQual 501 (.ent e) d

/-- Qualifier for circuits: the adjacent node. -/
inductive CircQual : Nat → PVal → Bytes → Prop
  | adjacent (e d) : NodeB e d → CircQual 800 (.ent e) d

/-- Qualifiers for modules. -/
inductive ModQual : Nat → PVal → Bytes → Prop
  | named (n e d) : n ∈ [100, 300, 1100, 1101, 1110] → NameB e d → ModQual n (.ent e) d
  | address (s : Bytes) : s.length ≤ 255 → ModQual 120 (.simple (.hi s)) (UInt8.ofNat s.length :: s)

/-- A sequence of parameters: the number, of which bits 12 to 14 do not count, and the value. -/
inductive Pars (P : Nat → PVal → Bytes → Prop) : List (Nat × PVal) → Bytes → Prop
  | nil : Pars P [] []
  | cons (a b : UInt8) (v d ps r) : b.toNat < 128 → P (two a b % 4096) v d → Pars P ps r →
      Pars P ((two a b % 4096, v) :: ps) (a :: b :: (d ++ r))

/-- An entity and parameters. -/
def Both (E : Ent → Bytes → Prop) (P : Nat → PVal → Bytes → Prop) (e : Ent) (ps : List (Nat × PVal))
    (b : Bytes) : Prop := ∃ d p, E e d ∧ Pars P ps p ∧ b = d ++ p

/-- Access control information: at most 39 characters. -/
inductive AccB : Str → Bytes → Prop
  | mk (s : Bytes) : s.length ≤ 39 → AccB (text s) (UInt8.ofNat s.length :: s)

/-- A line in a Phase II request: none, four bytes of identification, or a counted string (the last two
may be cut short). -/
inductive LineB : Bytes → Prop
  | all : LineB [0]
  | id (s : Bytes) : s.length ≤ 4 → LineB (1 :: s)
  | name (l : UInt8) (s : Bytes) : s.length ≤ l.toNat → LineB (2 :: l :: s)

/-- The requests.  `t` is the option byte: entity in bits 0 to 2, kind of information in bits 4 to 6. -/
inductive ReqB : Req → Bytes → Prop
  | loopNode (t : UInt8) (e ps b) : t.toNat % 8 = 0 → t.toNat < 128 → Both NodeB LoopPar e ps b →
      ReqB (.loopNode e [] [] [] ps) (18 :: t :: b)
  | loopNodeAs (t : UInt8) (e u p a ps de du dp da dr) : t.toNat % 8 = 0 → 128 ≤ t.toNat → NodeB e de →
      AccB u du → AccB p dp → AccB a da → Pars LoopPar ps dr →
      ReqB (.loopNode e u p a ps) (18 :: t :: (de ++ (du ++ (dp ++ (da ++ dr)))))
  | loopLine (t : UInt8) (e ps b) : t.toNat % 8 = 1 → Both NameB LoopPar e ps b →
      ReqB .loopLine (18 :: t :: b)
  | loopCircuit (t : UInt8) (e ps b) : t.toNat % 8 = 3 → Both NameB CircPar e ps b →
      ReqB (.loopCircuit e ps) (18 :: t :: b)
  | readNode (t : UInt8) (e ps b) : t.toNat % 8 = 0 → Both NodeB NodeQual e ps b →
      ReqB (.read 0 (t.toNat / 16 % 8) (decide (128 ≤ t.toNat)) e) (20 :: t :: b)
  | readLine (t : UInt8) (e d r) : t.toNat % 8 = 1 → NameB e d →
      ReqB (.read 1 (t.toNat / 16 % 8) (decide (128 ≤ t.toNat)) e) (20 :: t :: (d ++ r))
  | readLogging (t : UInt8) (e d r) : t.toNat % 8 = 2 → NameB e d →
      ReqB (.read 2 (t.toNat / 16 % 8) (decide (128 ≤ t.toNat)) e) (20 :: t :: (d ++ r))
  | readCircuit (t : UInt8) (e ps b) : t.toNat % 8 = 3 → Both NameB CircQual e ps b →
      ReqB (.read 3 (t.toNat / 16 % 8) (decide (128 ≤ t.toNat)) e) (20 :: t :: b)
  | readModule (t : UInt8) (e ps b) : t.toNat % 8 = 4 → Both NameB ModQual e ps b →
      ReqB (.read 4 (t.toNat / 16 % 8) (decide (128 ≤ t.toNat)) e) (20 :: t :: b)
  | readArea (t : UInt8) (e d r) : t.toNat % 8 = 5 → AreaB e d →
      ReqB (.read 5 (t.toNat / 16 % 8) (decide (128 ≤ t.toNat)) e) (20 :: t :: (d ++ r))
  | zeroNode (t : UInt8) (e d r) : t.toNat % 8 = 0 → NodeB e d → ReqB (.zero 0 e) (21 :: t :: (d ++ r))
  | zero (t : UInt8) (e d r) : t.toNat % 8 = 1 ∨ t.toNat % 8 = 3 ∨ t.toNat % 8 = 4 → NameB e d →
      ReqB (.zero (t.toNat % 8) e) (21 :: t :: (d ++ r))
  | oldNode : ReqB (.readOld 1) [8, 1]
  | oldLine (t : UInt8) (b) : t = 4 ∨ t = 5 → LineB b → ReqB (.readOld t.toNat) (8 :: t :: b)

/-! ## Entities -/

theorem ofNat_len {n : Nat} (h : n ≤ 255) : (UInt8.ofNat n).toNat = n := by
  rw [UInt8.toNat_ofNat']; omega

theorem decEnt_iff {b r : Bytes} {e : Ent} : decEnt b = .ok (e, r) ↔ ∃ d, NameB e d ∧ b = d ++ r := by
  cases b with
  | nil =>
    simp only [decEnt, reduceCtorEq, false_iff, not_exists, not_and]
    intro d h; cases h <;> simp
  | cons c b =>
    have hc : c.toNat < 256 := c.toNat_lt
    have h0 : c = 0 ↔ c.toNat = 0 := by rw [← UInt8.toNat_inj]; rfl
    simp only [decEnt]
    constructor
    · intro h
      split at h
      · rename_i hs
        have hn : ¬ c.toNat < 128 := by unfold signed at hs; split at hs <;> omega
        have he : signed c = (c.toNat : Int) - 256 := by simp [signed, hn]
        rw [he] at h
        cases h
        exact ⟨[c], .several c (by omega), rfl⟩
      · rename_i hs
        have hn : c.toNat < 128 := by unfold signed at hs; split at hs <;> omega
        split at h
        · cases h
        · split at h
          · cases h
          · rename_i hz hl
            cases h
            have hlen : (b.take c.toNat).length = c.toNat := by simp; omega
            refine ⟨c :: b.take c.toNat, ?_, by simp⟩
            rw [h0] at hz
            have := NameB.name (b.take c.toNat) (by omega) (by omega)
            simp only [hlen, UInt8.ofNat_toNat] at this
            exact this
    · rintro ⟨d, hd, hb⟩
      cases hd with
      | several c' h =>
        simp only [List.singleton_append, List.cons.injEq] at hb
        obtain ⟨rfl, rfl⟩ := hb
        have he : signed c = (c.toNat : Int) - 256 := by simp [signed]; omega
        rw [if_pos (by omega), he]
      | name s h1 h2 =>
        simp only [List.cons_append, List.cons.injEq] at hb
        obtain ⟨rfl, rfl⟩ := hb
        have hl := ofNat_len (n := s.length) (by omega)
        have he : signed (UInt8.ofNat s.length) = s.length := by simp [signed, hl]; omega
        rw [if_neg (by omega), if_neg (by rw [h0]; omega), if_neg (by simp [hl]), hl]
        simp [latin1Dec, text]

theorem decEnt_err {b : Bytes} {x : Err} (h : decEnt b = .error x) : x = .decode := by
  cases b with
  | nil => cases h; rfl
  | cons c b =>
    simp only [decEnt] at h
    repeat' split at h
    all_goals first | cases h; rfl | cases h

theorem decNodeEnt_iff {b r : Bytes} {e : Ent} :
    decNodeEnt b = .ok (e, r) ↔ ∃ d, NodeB e d ∧ b = d ++ r := by
  cases b with
  | nil =>
    simp only [decNodeEnt, reduceCtorEq, false_iff, not_exists, not_and]
    intro d h; cases h <;> simp
  | cons c b =>
    have hc : c.toNat < 256 := c.toNat_lt
    have h0 : c = 0 ↔ c.toNat = 0 := by rw [← UInt8.toNat_inj]; rfl
    have hsig : signed c < -5 ↔ 128 ≤ c.toNat ∧ c.toNat ≤ 250 := by unfold signed; split <;> omega
    simp only [decNodeEnt]
    constructor
    · intro h
      split at h
      · rename_i hs
        match b, h with
        | [], h => simp at h
        | [x], h => simp at h
        | x :: y :: b, h =>
          simp only [List.length_cons, List.take_succ_cons, List.take_zero, List.drop_succ_cons,
            List.drop_zero] at h
          rw [if_neg (by omega)] at h
          cases h
          have hf : fromLe [x, y] = two x y := by simp [fromLe, two]
          rw [hf]
          by_cases hz : c = 0
          · subst hz
            exact ⟨[0, x, y], .address x y, rfl⟩
          · have hn := hsig.1 (hs.resolve_left hz)
            have he : signed c = (c.toNat : Int) - 256 := by simp [signed]; omega
            rw [he]
            exact ⟨[c, x, y], .adjacent c x y hn.1 hn.2, rfl⟩
      · rename_i hs
        cases hx : decEnt (c :: b) with
        | error x => rw [hx] at h; simp [Except.map] at h
        | ok y =>
          obtain ⟨e', r'⟩ := y
          rw [hx] at h
          simp only [Except.map, Except.ok.injEq, Prod.mk.injEq] at h
          obtain ⟨rfl, rfl⟩ := h
          obtain ⟨d, hd, hb⟩ := decEnt_iff.1 hx
          refine ⟨d, ?_, hb⟩
          cases hd with
          | several c' hc' =>
            simp only [List.singleton_append, List.cons.injEq] at hb
            obtain ⟨rfl, rfl⟩ := hb
            have : ¬ signed c < -5 := fun hh => hs (.inr hh)
            rw [hsig] at this
            exact .several c (by omega)
          | name s h1 h2 =>
            simp only [nodeEnt]
            split
            · rename_i n hn; exact .written s n h1 h2 hn
            · rename_i hn; exact .name s h1 h2 (by rw [hn]; simp)
    · rintro ⟨d, hd, hb⟩
      cases hd with
      | address x y =>
        simp only [List.cons_append, List.nil_append, List.cons.injEq] at hb
        obtain ⟨rfl, rfl⟩ := hb
        have hs0 : signed 0 = 0 := by decide
        rw [if_pos (.inl rfl), if_neg (by simp), hs0]
        simp [fromLe, two]
      | several c' h =>
        simp only [List.singleton_append, List.cons.injEq] at hb
        obtain ⟨rfl, rfl⟩ := hb
        have he : decEnt (c :: b) = .ok (⟨(c.toNat : Int) - 256, .none⟩, b) :=
          decEnt_iff.2 ⟨[c], .several c (by omega), rfl⟩
        rw [if_neg (by rw [hsig, h0]; omega), he]
        rfl
      | adjacent c' x y h1 h2 =>
        simp only [List.cons_append, List.nil_append, List.cons.injEq] at hb
        obtain ⟨rfl, rfl⟩ := hb
        have he : signed c = (c.toNat : Int) - 256 := by simp [signed]; omega
        rw [if_pos (.inr (hsig.2 ⟨h1, h2⟩)), if_neg (by simp), he]
        simp [fromLe, two]
      | name s h1 h2 h3 =>
        simp only [List.cons_append, List.cons.injEq] at hb
        obtain ⟨rfl, rfl⟩ := hb
        have hl := ofNat_len (n := s.length) (by omega)
        rw [if_neg (by rw [hsig, h0]; omega)]
        have : decEnt (UInt8.ofNat s.length :: (s ++ r)) = _ := decEnt_iff.2 ⟨_, NameB.name s h1 h2, rfl⟩
        rw [this]
        simp only [Except.map, nodeEnt]
        split
        · rename_i n hn; exact absurd hn (h3 n)
        · rfl
      | written s n h1 h2 h3 =>
        simp only [List.cons_append, List.cons.injEq] at hb
        obtain ⟨rfl, rfl⟩ := hb
        have hl := ofNat_len (n := s.length) (by omega)
        rw [if_neg (by rw [hsig, h0]; omega)]
        have : decEnt (UInt8.ofNat s.length :: (s ++ r)) = _ := decEnt_iff.2 ⟨_, NameB.name s h1 h2, rfl⟩
        rw [this]
        simp only [Except.map, nodeEnt, h3]

theorem decNodeEnt_err {b : Bytes} {x : Err} (h : decNodeEnt b = .error x) : x = .decode := by
  cases b with
  | nil => cases h; rfl
  | cons c b =>
    simp only [decNodeEnt] at h
    split at h
    · split at h <;> cases h; rfl
    · cases hx : decEnt (c :: b) with
      | error y => rw [hx] at h; cases h; exact decEnt_err hx
      | ok y => rw [hx] at h; cases h

theorem decAreaEnt_iff {b r : Bytes} {e : Ent} :
    decAreaEnt b = .ok (e, r) ↔ ∃ d, AreaB e d ∧ b = d ++ r := by
  cases b with
  | nil =>
    simp only [decAreaEnt, reduceCtorEq, false_iff, not_exists, not_and]
    intro d h; cases h <;> simp
  | cons c b =>
    have hc : c.toNat < 256 := c.toNat_lt
    have h0 : c = 0 ↔ c.toNat = 0 := by rw [← UInt8.toNat_inj]; rfl
    simp only [decAreaEnt]
    constructor
    · intro h
      split at h
      · rename_i hz
        subst hz
        cases b with
        | nil => cases h
        | cons n b => cases h; exact ⟨_, .number n, rfl⟩
      · rename_i hz
        split at h
        · cases h
        · rename_i hs
          have hn : ¬ c.toNat < 128 := by rw [h0] at hz; unfold signed at hs; split at hs <;> omega
          have he : signed c = (c.toNat : Int) - 256 := by simp [signed, hn]
          rw [he] at h
          cases h
          exact ⟨_, .several c (by omega), rfl⟩
    · rintro ⟨d, hd, hb⟩
      cases hd with
      | number n =>
        simp only [List.cons_append, List.nil_append, List.cons.injEq] at hb
        obtain ⟨rfl, rfl⟩ := hb
        simp
      | several c' h =>
        simp only [List.cons_append, List.nil_append, List.cons.injEq] at hb
        obtain ⟨rfl, rfl⟩ := hb
        have he : signed c = (c.toNat : Int) - 256 := by simp [signed]; omega
        rw [if_neg (by rw [h0]; omega), if_neg (by omega), he]

theorem decAreaEnt_err {b : Bytes} {x : Err} (h : decAreaEnt b = .error x) : x = .decode := by
  cases b with
  | nil => cases h; rfl
  | cons c b =>
    simp only [decAreaEnt] at h
    repeat' split at h
    all_goals first | cases h; rfl | cases h

theorem decLine_iff {b : Bytes} : decLine b = .ok [] ↔ LineB b := by
  constructor
  · intro h
    match b, h with
    | [], h => cases h
    | c :: b, h =>
      simp only [decLine] at h
      split at h
      · rename_i hc; subst hc; cases h; exact .all
      · split at h
        · rename_i hc; subst hc
          simp only [Except.ok.injEq, List.drop_eq_nil_iff] at h
          exact .id b h
        · split at h
          · rename_i hc; subst hc
            cases b with
            | nil => cases h
            | cons l b =>
              simp only [Except.ok.injEq, List.drop_eq_nil_iff] at h
              exact .name l b h
          · cases h
  · intro h
    cases h with
    | all => rfl
    | id s h => simp [decLine, h]
    | name l s h => simp [decLine, h]

theorem decLine_err {b : Bytes} {x : Err} (h : decLine b = .error x) : x = .decode := by
  cases b with
  | nil => cases h; rfl
  | cons c b =>
    simp only [decLine] at h
    split at h
    · cases h
    · split at h
      · cases h
      · split at h
        · cases b with
          | nil => cases h; rfl
          | cons l b => cases h
        · cases h; rfl

/-! ## Parameters -/

theorem and_8fff {x n : Nat} (hx : x < 65536) (hn : n < 4096) :
    x &&& 0x8fff = n ↔ x < 32768 ∧ x % 4096 = n := by
  have h1 : (x &&& 0x8fff) % 2 ^ 12 = x % 4096 := by
    rw [Nat.and_mod_two_pow]
    have : (0x8fff % 2 ^ 12) = 2 ^ 12 - 1 := by decide
    rw [this, Nat.and_two_pow_sub_one_eq_mod]
    omega
  have h2 : (x &&& 0x8fff) / 2 ^ 12 = x / 4096 &&& 8 := by
    rw [Nat.and_div_two_pow]
  have h3 : ∀ k : Fin 16, (k.1 &&& 8 = if k.1 < 8 then 0 else 8) := by decide
  have h4 := h3 ⟨x / 4096, by omega⟩
  simp only at h4
  rw [h4] at h2
  simp only [Nat.reducePow] at h1 h2
  split at h2 <;> omega

theorem two_lt (a b : UInt8) : two a b < 65536 := by
  have := a.toNat_lt; have := b.toNat_lt; unfold two; omega

theorem fromLe_two (a b : UInt8) : fromLe [a, b] = two a b := by simp [fromLe, two]

/-- What a table of the code says about the values of parameters. -/
structure Table.Is (table : Table) (P : Nat → PVal → Bytes → Prop) : Prop where
  small : ∀ n ty, table n = some ty → n < 4096
  value : ∀ n b v r, (∃ ty, table n = some ty ∧ decPVal ty b = .ok (v, r)) ↔ ∃ d, P n v d ∧ b = d ++ r
  pos : ∀ n v d, P n v d → d ≠ []
  error : ∀ n ty b x, table n = some ty → decPVal ty b = .error x → x = .decode

theorem decParams_iff {table : Table} {P} (h : table.Is P) : ∀ (k : Nat) (b : Bytes), b.length ≤ k →
    ∀ ps, decParams table k b = .ok ps ↔ Pars P ps b := by
  intro k
  induction k with
  | zero =>
    intro b hb ps
    have : b = [] := by simpa using hb
    subst this
    simp only [decParams, Except.ok.injEq]
    constructor
    · rintro rfl; exact .nil
    · intro h; cases h; rfl
  | succ k ih =>
    intro b hb ps
    cases b with
    | nil =>
      simp only [decParams, Except.ok.injEq]
      constructor
      · rintro rfl; exact .nil
      · intro h; cases h; rfl
    | cons a b =>
      simp only [decParams]
      constructor
      · intro hd
        split at hd
        · cases hd
        · rename_i p r hp
          cases hr : decParams table k r with
          | error e => rw [hr] at hd; cases hd
          | ok qs =>
            rw [hr] at hd
            simp only [Except.map, Except.ok.injEq] at hd
            subst hd
            match b, hp with
            | [], hp => simp [decParam] at hp
            | [x], hp => simp [decParam] at hp
            | x :: y :: tl, hp =>
              simp only [decParam, fromLe_two] at hp
              split at hp
              · cases hp
              · rename_i ty hty
                have hsm := h.small _ _ hty
                obtain ⟨hx, hm⟩ := (and_8fff (two_lt a x) hsm).1 rfl
                cases hv : decPVal ty (y :: tl) with
                | error e => rw [hv] at hp; cases hp
                | ok z =>
                  obtain ⟨v, r'⟩ := z
                  rw [hv] at hp
                  simp only [Except.map, Except.ok.injEq, Prod.mk.injEq] at hp
                  obtain ⟨rfl, rfl⟩ := hp
                  obtain ⟨d, hd, hb'⟩ := (h.value _ _ _ _).1 ⟨ty, hty, hv⟩
                  rw [hb']
                  have hrl : r'.length ≤ k := by
                    have := congrArg List.length hb'
                    simp only [List.length_cons, List.length_append] at this hb
                    omega
                  rw [← hm] at hd ⊢
                  exact .cons a x v d qs r' (by have := a.toNat_lt; unfold two at hx; omega) hd
                    ((ih r' hrl qs).1 hr)
      · intro hp
        cases hp with
        | cons _ x v d qs r hx hd hr =>
          have hne := h.pos _ _ _ hd
          obtain ⟨ty, hty, hv⟩ := (h.value _ (d ++ r) _ _).2 ⟨d, hd, rfl⟩
          have hrl : r.length ≤ k := by
            simp only [List.length_cons, List.length_append] at hb; omega
          have hm := (and_8fff (two_lt a x) (Nat.mod_lt _ (by decide : 4096 > 0))).2
            ⟨by have := a.toNat_lt; unfold two; omega, rfl⟩
          cases d with
          | nil => exact absurd rfl hne
          | cons y d =>
            simp only [List.cons_append] at hv ⊢
            have : decParam table (a :: x :: y :: (d ++ r)) = .ok ((two a x % 4096, v), r) := by
              simp only [decParam, fromLe_two, hm, hty, hv, Except.map]
            rw [this]
            simp only [(ih r hrl qs).2 hr, Except.map]

/-- What makes the decoder fail with another exception than `DecodeError`: one or two bytes after the last
complete parameter. -/
theorem decParams_other {table : Table} {P} (h : table.Is P) : ∀ (k : Nat) (b : Bytes), b.length ≤ k →
    ∀ x, decParams table k b = .error x →
      (x = .other ↔ ∃ ps p r, Pars P ps p ∧ b = p ++ r ∧ (r.length = 1 ∨ r.length = 2)) := by
  intro k
  induction k with
  | zero =>
    intro b hb x hx
    have : b = [] := by simpa using hb
    subst this
    cases hx
  | succ k ih =>
    intro b hb x hx
    cases b with
    | nil => cases hx
    | cons a b =>
      simp only [decParams] at hx
      match b, hb, hx with
      | [], _, hx => simp only [decParam, Except.error.injEq] at hx; subst hx; simp; exact ⟨[], [], .nil, [a], rfl, .inl rfl⟩
      | [y], _, hx => simp only [decParam, Except.error.injEq] at hx; subst hx; simp; exact ⟨[], [], .nil, [a, y], rfl, .inr rfl⟩
      | y :: z :: tl, hb, hx =>
        have key : ∀ ps p r, Pars P ps p → a :: y :: z :: tl = p ++ r → (r.length = 1 ∨ r.length = 2) →
            ∃ v d qs q, y.toNat < 128 ∧ P (two a y % 4096) v d ∧ Pars P qs q ∧ z :: tl = d ++ (q ++ r) := by
          intro ps p r hp he hr
          cases hp with
          | nil => simp only [List.nil_append] at he; rw [← he] at hr; simp at hr
          | cons a' b' v d qs q hb' hP hq =>
            simp only [List.cons_append, List.cons.injEq, List.append_assoc] at he
            obtain ⟨rfl, rfl, he⟩ := he
            exact ⟨v, d, qs, q, hb', hP, hq, he⟩
        simp only [decParam, fromLe_two] at hx
        cases hty : table (two a y &&& 0x8fff) with
        | none =>
          rw [hty] at hx
          cases hx
          simp only [reduceCtorEq, false_iff]
          rintro ⟨ps, p, r, hp, he, hr⟩
          obtain ⟨v, d, qs, q, hy, hP, -, -⟩ := key ps p r hp he hr
          obtain ⟨ty, hty', -⟩ := (h.value _ d v []).2 ⟨d, hP, by simp⟩
          have hm := (and_8fff (two_lt a y) (Nat.mod_lt _ (by decide : 4096 > 0))).2
            ⟨by have := a.toNat_lt; unfold two; omega, rfl⟩
          rw [hm, hty'] at hty
          cases hty
        | some ty =>
          rw [hty] at hx
          have hsm := h.small _ _ hty
          obtain ⟨hlt, hm⟩ := (and_8fff (two_lt a y) hsm).1 rfl
          cases hv : decPVal ty (z :: tl) with
          | error w =>
            simp only [hv, Except.map, Except.error.injEq] at hx
            subst hx
            rw [h.error _ _ _ _ hty hv]
            simp only [reduceCtorEq, false_iff]
            rintro ⟨ps, p, r, hp, he, hr⟩
            obtain ⟨v, d, qs, q, hy, hP, -, he'⟩ := key ps p r hp he hr
            obtain ⟨ty', hty', hv'⟩ := (h.value _ (z :: tl) v (q ++ r)).2 ⟨d, hP, he'⟩
            rw [hm, hty] at hty'
            cases hty'
            rw [hv] at hv'
            cases hv'
          | ok w =>
            obtain ⟨v, r'⟩ := w
            simp only [hv, Except.map] at hx
            cases hr' : decParams table k r' with
            | ok qs => rw [hr'] at hx; cases hx
            | error w =>
              rw [hr'] at hx
              cases hx
              obtain ⟨d, hP, he⟩ := (h.value _ _ _ _).1 ⟨ty, hty, hv⟩
              rw [← hm] at hP
              have hrl : r'.length ≤ k := by
                have := congrArg List.length he
                simp only [List.length_cons, List.length_append] at this hb
                omega
              rw [ih r' hrl _ hr']
              have hy : y.toNat < 128 := by have := a.toNat_lt; unfold two at hlt; omega
              constructor
              · rintro ⟨ps, p, r, hp, rfl, hr⟩
                exact ⟨_, _, r, .cons a y v d ps p hy hP hp, by simp [he], hr⟩
              · rintro ⟨ps, p, r, hp, he2, hr⟩
                obtain ⟨v2, d2, qs, q, -, hP2, hq, he3⟩ := key ps p r hp he2 hr
                obtain ⟨ty', hty', hv'⟩ := (h.value _ (z :: tl) v2 (q ++ r)).2 ⟨d2, hP2, he3⟩
                rw [hm, hty] at hty'
                cases hty'
                rw [hv] at hv'
                cases hv'
                exact ⟨qs, q, r, hq, rfl, hr⟩

theorem decDu2 {b r : Bytes} {v : PVal} : decPVal (.ty (.num .du 2)) b = .ok (v, r) ↔
    ∃ x y, v = .simple (.num .du 2 (two x y)) ∧ b = x :: y :: r := by
  match b with
  | [] => simp [decPVal, decSimple, Nice.decNum, Except.map, Except.mapError]
  | [x] => simp [decPVal, decSimple, Nice.decNum, Except.map, Except.mapError]
  | x :: y :: tl =>
    have : decPVal (.ty (.num .du 2)) (x :: y :: tl) = .ok (.simple (.num .du 2 (two x y)), tl) := by
      have hl : ¬ tl.length + 1 + 1 < 2 := by omega
      simp [decPVal, decSimple, Nice.decNum, Except.map, Except.mapError, Nice.toInt, fromLe_two, hl]
    rw [this]
    constructor
    · intro h; cases h; exact ⟨x, y, rfl, rfl⟩
    · rintro ⟨x', y', rfl, h⟩; cases h; rfl

theorem decC1 {b r : Bytes} {v : PVal} : decPVal (.ty (.num .c 1)) b = .ok (v, r) ↔
    ∃ x, v = .simple (.num .c 1 x.toNat) ∧ b = x :: r := by
  match b with
  | [] => simp [decPVal, decSimple, Nice.decNum, Except.map, Except.mapError]
  | x :: tl =>
    have : decPVal (.ty (.num .c 1)) (x :: tl) = .ok (.simple (.num .c 1 x.toNat), tl) := by
      simp [decPVal, decSimple, Nice.decNum, Except.map, Except.mapError, Nice.toInt, fromLe]
    rw [this]
    constructor
    · intro h; cases h; exact ⟨x, rfl, rfl⟩
    · rintro ⟨x', rfl, h⟩; cases h; rfl

theorem decCounted_iff {b s r : Bytes} : Nice.decCounted b = .ok (s, r) ↔
    s.length ≤ 255 ∧ b = UInt8.ofNat s.length :: s ++ r := by
  cases b with
  | nil => simp [Nice.decCounted]
  | cons l b =>
    have := l.toNat_lt
    simp only [Nice.decCounted, List.cons_append, List.cons.injEq]
    constructor
    · intro h
      split at h
      · cases h
      · cases h
        have hl : (b.take l.toNat).length = l.toNat := by simp; omega
        rw [hl]
        exact ⟨by omega, by simp, by simp⟩
    · rintro ⟨h, rfl, rfl⟩
      have hl := ofNat_len h
      rw [if_neg (by simp [hl]), hl]
      simp

theorem decHi {b r : Bytes} {v : PVal} : decPVal (.ty .hi) b = .ok (v, r) ↔
    ∃ s, v = .simple (.hi s) ∧ s.length ≤ 255 ∧ b = UInt8.ofNat s.length :: s ++ r := by
  simp only [decPVal, decSimple]
  cases h : Nice.decCounted b with
  | error e =>
    simp only [bind, Except.bind, Except.mapError, Except.map, reduceCtorEq, false_iff, not_exists]
    rintro s ⟨-, h1, h2⟩
    rw [decCounted_iff.2 ⟨h1, h2⟩] at h
    cases h
  | ok y =>
    obtain ⟨s, r'⟩ := y
    simp only [bind, Except.bind, Except.mapError, Except.map, pure, Except.pure, Except.ok.injEq,
      Prod.mk.injEq]
    obtain ⟨h1, h2⟩ := decCounted_iff.1 h
    constructor
    · rintro ⟨rfl, rfl⟩; exact ⟨s, rfl, h1, h2⟩
    · rintro ⟨s', rfl, h1', h2'⟩
      rw [decCounted_iff.2 ⟨h1', h2'⟩] at h
      cases h
      exact ⟨rfl, rfl⟩

theorem decAi {b r : Bytes} {v : PVal} : decPVal (.ty .ai) b = .ok (v, r) ↔
    ∃ s, v = .simple (.ai (text s)) ∧ s.length ≤ 255 ∧ b = UInt8.ofNat s.length :: s ++ r := by
  simp only [decPVal, decSimple]
  cases h : Nice.decCounted b with
  | error e =>
    simp only [bind, Except.bind, Except.mapError, Except.map, reduceCtorEq, false_iff, not_exists]
    rintro s ⟨-, h1, h2⟩
    rw [decCounted_iff.2 ⟨h1, h2⟩] at h
    cases h
  | ok y =>
    obtain ⟨s, r'⟩ := y
    simp only [bind, Except.bind, Except.mapError, Except.map, pure, Except.pure, Except.ok.injEq,
      Prod.mk.injEq]
    obtain ⟨h1, h2⟩ := decCounted_iff.1 h
    constructor
    · rintro ⟨rfl, rfl⟩; exact ⟨s, rfl, h1, h2⟩
    · rintro ⟨s', rfl, h1', h2'⟩
      rw [decCounted_iff.2 ⟨h1', h2'⟩] at h
      cases h
      exact ⟨rfl, rfl⟩

theorem decStrQual {b r : Bytes} {v : PVal} : decPVal .strQual b = .ok (v, r) ↔
    ∃ e d, v = .ent e ∧ NameB e d ∧ b = d ++ r := by
  simp only [decPVal]
  cases h : decEnt b with
  | error e =>
    simp only [Except.map, reduceCtorEq, false_iff, not_exists]
    rintro e d ⟨-, h1, h2⟩
    rw [decEnt_iff.2 ⟨d, h1, h2⟩] at h
    cases h
  | ok y =>
    obtain ⟨e, r'⟩ := y
    simp only [Except.map, Except.ok.injEq, Prod.mk.injEq]
    obtain ⟨d, h1, h2⟩ := decEnt_iff.1 h
    constructor
    · rintro ⟨rfl, rfl⟩; exact ⟨e, d, rfl, h1, h2⟩
    · rintro ⟨e', d', rfl, h1', h2'⟩
      rw [decEnt_iff.2 ⟨d', h1', h2'⟩] at h
      cases h
      exact ⟨rfl, rfl⟩

theorem decNodeQual {b r : Bytes} {v : PVal} : decPVal .nodeQual b = .ok (v, r) ↔
    ∃ e d, v = .ent e ∧ NodeB e d ∧ b = d ++ r := by
  simp only [decPVal]
  cases h : decNodeEnt b with
  | error e =>
    simp only [Except.map, reduceCtorEq, false_iff, not_exists]
    rintro e d ⟨-, h1, h2⟩
    rw [decNodeEnt_iff.2 ⟨d, h1, h2⟩] at h
    cases h
  | ok y =>
    obtain ⟨e, r'⟩ := y
    simp only [Except.map, Except.ok.injEq, Prod.mk.injEq]
    obtain ⟨d, h1, h2⟩ := decNodeEnt_iff.1 h
    constructor
    · rintro ⟨rfl, rfl⟩; exact ⟨e, d, rfl, h1, h2⟩
    · rintro ⟨e', d', rfl, h1', h2'⟩
      rw [decNodeEnt_iff.2 ⟨d', h1', h2'⟩] at h
      cases h
      exact ⟨rfl, rfl⟩

theorem NameB.ne {e : Ent} {d : Bytes} (h : NameB e d) : d ≠ [] := by cases h <;> simp

theorem NodeB.ne {e : Ent} {d : Bytes} (h : NodeB e d) : d ≠ [] := by cases h <;> simp

theorem decPVal_err {ty : PTy} {b : Bytes} {x : Err} (hc : ∀ n, ty ≠ .ty (.cm n))
    (h : decPVal ty b = .error x) : x = .decode := by
  have hcount : ∀ (b : Bytes) e, Nice.decCounted b = .error e → e = .decodeError := by
    intro b e h
    cases b with
    | nil => cases h; rfl
    | cons l b => simp only [Nice.decCounted] at h; split at h <;> cases h; rfl
  cases ty with
  | ty t =>
    cases t with
    | num t n =>
      simp only [decPVal, decSimple, Nice.decNum] at h
      split at h <;> cases h
      rfl
    | ai =>
      simp only [decPVal, decSimple] at h
      cases hd : Nice.decCounted b with
      | error e => rw [hd] at h; cases h; rw [hcount _ _ hd]; rfl
      | ok y => rw [hd] at h; cases h
    | hi =>
      simp only [decPVal, decSimple] at h
      cases hd : Nice.decCounted b with
      | error e => rw [hd] at h; cases h; rw [hcount _ _ hd]; rfl
      | ok y => rw [hd] at h; cases h
    | cm n => exact absurd rfl (hc n)
  | strQual =>
    simp only [decPVal] at h
    cases hd : decEnt b with
    | error e => rw [hd] at h; cases h; exact decEnt_err hd
    | ok y => rw [hd] at h; cases h
  | nodeQual =>
    simp only [decPVal] at h
    cases hd : decNodeEnt b with
    | error e => rw [hd] at h; cases h; exact decNodeEnt_err hd
    | ok y => rw [hd] at h; cases h

theorem loopParams_is : loopParams.Is LoopPar where
  small := by
    intro n ty h
    unfold loopParams at h
    split at h <;> first | cases h; done | omega
  value := by
    intro n b v r
    constructor
    · rintro ⟨ty, hty, hv⟩
      unfold loopParams at hty
      split at hty <;> cases hty
      · obtain ⟨x, y, rfl, rfl⟩ := decDu2.1 hv; exact ⟨_, .count x y, rfl⟩
      · obtain ⟨x, y, rfl, rfl⟩ := decDu2.1 hv; exact ⟨_, .length x y, rfl⟩
      · obtain ⟨x, rfl, rfl⟩ := decC1.1 hv; exact ⟨_, .data x, rfl⟩
    · rintro ⟨d, hd, rfl⟩
      cases hd with
      | count x y => exact ⟨_, rfl, decDu2.2 ⟨x, y, rfl, rfl⟩⟩
      | length x y => exact ⟨_, rfl, decDu2.2 ⟨x, y, rfl, rfl⟩⟩
      | data x => exact ⟨_, rfl, decC1.2 ⟨x, rfl, rfl⟩⟩
  pos := by intro n v d h; cases h <;> simp
  error := by
    intro n ty b x hty
    apply decPVal_err
    rintro k rfl
    unfold loopParams at hty
    split at hty <;> cases hty

theorem loopCircParams_is : loopCircParams.Is CircPar where
  small := by
    intro n ty h
    unfold loopCircParams at h
    split at h <;> first | cases h; done | omega
  value := by
    intro n b v r
    constructor
    · rintro ⟨ty, hty, hv⟩
      unfold loopCircParams at hty
      split at hty <;> cases hty
      · obtain ⟨x, y, rfl, rfl⟩ := decDu2.1 hv; exact ⟨_, .loop _ _ _ (.count x y), rfl⟩
      · obtain ⟨x, y, rfl, rfl⟩ := decDu2.1 hv; exact ⟨_, .loop _ _ _ (.length x y), rfl⟩
      · obtain ⟨x, rfl, rfl⟩ := decC1.1 hv; exact ⟨_, .loop _ _ _ (.data x), rfl⟩
      · obtain ⟨s, rfl, h, rfl⟩ := decHi.1 hv; exact ⟨_, .station s h, rfl⟩
      · obtain ⟨s, rfl, h, rfl⟩ := decHi.1 hv; exact ⟨_, .assistant s h, rfl⟩
      · obtain ⟨x, rfl, rfl⟩ := decC1.1 hv; exact ⟨_, .help x, rfl⟩
      · obtain ⟨s, rfl, h, rfl⟩ := decAi.1 hv; exact ⟨_, .node s h, rfl⟩
      · obtain ⟨s, rfl, h, rfl⟩ := decAi.1 hv; exact ⟨_, .assistNode s h, rfl⟩
    · rintro ⟨d, hd, rfl⟩
      cases hd with
      | loop _ _ _ hd =>
        cases hd with
        | count x y => exact ⟨_, rfl, decDu2.2 ⟨x, y, rfl, rfl⟩⟩
        | length x y => exact ⟨_, rfl, decDu2.2 ⟨x, y, rfl, rfl⟩⟩
        | data x => exact ⟨_, rfl, decC1.2 ⟨x, rfl, rfl⟩⟩
      | station s h => exact ⟨_, rfl, decHi.2 ⟨s, rfl, h, rfl⟩⟩
      | assistant s h => exact ⟨_, rfl, decHi.2 ⟨s, rfl, h, rfl⟩⟩
      | help x => exact ⟨_, rfl, decC1.2 ⟨x, rfl, rfl⟩⟩
      | node s h => exact ⟨_, rfl, decAi.2 ⟨s, rfl, h, rfl⟩⟩
      | assistNode s h => exact ⟨_, rfl, decAi.2 ⟨s, rfl, h, rfl⟩⟩
  pos := by
    intro n v d h
    cases h with
    | loop _ _ _ h => cases h <;> simp
    | _ => simp
  error := by
    intro n ty b x hty
    apply decPVal_err
    rintro k rfl
    unfold loopCircParams at hty
    split at hty <;> cases hty

theorem nodeQuals_is : nodeQuals.Is NodeQual where
  small := by
    intro n ty h
    unfold nodeQuals at h
    split at h <;> first | cases h; done | omega
  value := by
    intro n b v r
    constructor
    · rintro ⟨ty, hty, hv⟩
      unfold nodeQuals at hty
      split at hty <;> cases hty
      · obtain ⟨e, d, rfl, h, rfl⟩ := decStrQual.1 hv; exact ⟨_, .owner e d h, rfl⟩
      · obtain ⟨e, d, rfl, h, rfl⟩ := decStrQual.1 hv; exact ⟨_, .circuit e d h, rfl⟩
    · rintro ⟨d, hd, rfl⟩
      cases hd with
      | circuit e _ h => exact ⟨_, rfl, decStrQual.2 ⟨e, d, rfl, h, rfl⟩⟩
      | owner e _ h => exact ⟨_, rfl, decStrQual.2 ⟨e, d, rfl, h, rfl⟩⟩
  pos := by
    intro n v d h
    cases h with
    | circuit e _ h => exact h.ne
    | owner e _ h => exact h.ne
  error := by
    intro n ty b x hty
    apply decPVal_err
    rintro k rfl
    unfold nodeQuals at hty
    split at hty <;> cases hty

theorem circQuals_is : circQuals.Is CircQual where
  small := by
    intro n ty h
    unfold circQuals at h
    split at h <;> first | cases h; done | omega
  value := by
    intro n b v r
    constructor
    · rintro ⟨ty, hty, hv⟩
      unfold circQuals at hty
      split at hty <;> cases hty
      obtain ⟨e, d, rfl, h, rfl⟩ := decNodeQual.1 hv; exact ⟨_, .adjacent e d h, rfl⟩
    · rintro ⟨d, hd, rfl⟩
      cases hd with
      | adjacent e _ h => exact ⟨_, rfl, decNodeQual.2 ⟨e, d, rfl, h, rfl⟩⟩
  pos := by
    intro n v d h
    cases h with
    | adjacent e _ h => exact h.ne
  error := by
    intro n ty b x hty
    apply decPVal_err
    rintro k rfl
    unfold circQuals at hty
    split at hty <;> cases hty

theorem moduleQuals_is : moduleQuals.Is ModQual where
  small := by
    intro n ty h
    unfold moduleQuals at h
    split at h <;> first | cases h; done | omega
  value := by
    intro n b v r
    constructor
    · rintro ⟨ty, hty, hv⟩
      unfold moduleQuals at hty
      split at hty <;> cases hty
      · obtain ⟨e, d, rfl, h, rfl⟩ := decStrQual.1 hv; exact ⟨_, .named _ e d (by simp) h, rfl⟩
      · obtain ⟨s, rfl, h, rfl⟩ := decHi.1 hv; exact ⟨_, .address s h, rfl⟩
      all_goals obtain ⟨e, d, rfl, h, rfl⟩ := decStrQual.1 hv; exact ⟨_, .named _ e d (by simp) h, rfl⟩
    · rintro ⟨d, hd, rfl⟩
      cases hd with
      | named n e _ hn h =>
        simp only [List.mem_cons, List.not_mem_nil, or_false] at hn
        rcases hn with rfl | rfl | rfl | rfl | rfl <;>
          exact ⟨_, rfl, decStrQual.2 ⟨e, d, rfl, h, rfl⟩⟩
      | address s h => exact ⟨_, rfl, decHi.2 ⟨s, rfl, h, rfl⟩⟩
  pos := by
    intro n v d h
    cases h with
    | named n e _ _ h => exact h.ne
    | address s h => simp
  error := by
    intro n ty b x hty
    apply decPVal_err
    rintro k rfl
    unfold moduleQuals at hty
    split at hty <;> cases hty

theorem params_iff {table : Table} {P} (h : table.Is P) {b : Bytes} {ps} :
    params table b = .ok ps ↔ Pars P ps b := decParams_iff h _ _ (Nat.le_refl _) _

theorem withParams_iff {table : Table} {P} {E : Ent → Bytes → Prop} (h : table.Is P) (dec : Bytes → Except Err (Ent × Bytes))
    (hE : ∀ b e r, dec b = .ok (e, r) ↔ ∃ d, E e d ∧ b = d ++ r) (f : Ent → List (Nat × PVal) → Req)
    {b : Bytes} {q : Req} : withParams table f (dec b) = .ok q ↔ ∃ e ps, q = f e ps ∧ Both E P e ps b := by
  unfold withParams
  cases hd : dec b with
  | error x =>
    simp only [reduceCtorEq, false_iff, not_exists]
    rintro e ps ⟨-, d, p, h1, -, h3⟩
    rw [(hE b e p).2 ⟨d, h1, h3⟩] at hd
    cases hd
  | ok y =>
    obtain ⟨e, r⟩ := y
    simp only
    obtain ⟨d, h1, h2⟩ := (hE _ _ _).1 hd
    constructor
    · intro hm
      cases hp : params table r with
      | error x => rw [hp] at hm; cases hm
      | ok ps => rw [hp] at hm; cases hm; exact ⟨e, ps, rfl, d, r, h1, (params_iff h).1 hp, h2⟩
    · rintro ⟨e', ps, rfl, d', p, h1', h2', h3'⟩
      rw [(hE b e' p).2 ⟨d', h1', h3'⟩] at hd
      cases hd
      rw [(params_iff h).2 h2']
      rfl

theorem decStr_iff {b r : Bytes} {s : Str} : decStr b = .ok (s, r) ↔ ∃ d, AccB s d ∧ b = d ++ r := by
  have hm : decStr b = .ok (s, r) ↔ Fields.aDec 39 b = .ok (s, r) := by
    unfold decStr
    cases Fields.aDec 39 b <;> simp [Except.mapError]
  rw [hm, Fields.aDec_ok]
  constructor
  · rintro ⟨v, hv, rfl⟩
    obtain ⟨h1, h2, h3⟩ := Fields.iDec_ok.1 hv
    exact ⟨_, .mk v h1, by simpa using h3⟩
  · rintro ⟨d, hd, rfl⟩
    cases hd with
    | mk v h => exact ⟨v, Fields.iDec_ok.2 ⟨h, by omega, by simp⟩, rfl⟩

theorem map_ent_iff {E : Ent → Bytes → Prop} (dec : Bytes → Except Err (Ent × Bytes))
    (hE : ∀ b e r, dec b = .ok (e, r) ↔ ∃ d, E e d ∧ b = d ++ r) (f : Ent → Req)
    {b : Bytes} {q : Req} :
    ((dec b).map fun x => f x.1) = .ok q ↔ ∃ e d r, q = f e ∧ E e d ∧ b = d ++ r := by
  cases hd : dec b with
  | error x =>
    simp only [Except.map, reduceCtorEq, false_iff, not_exists]
    rintro e d r ⟨-, h1, h2⟩
    rw [(hE b e r).2 ⟨d, h1, h2⟩] at hd
    cases hd
  | ok y =>
    obtain ⟨e, r⟩ := y
    simp only [Except.map, Except.ok.injEq]
    obtain ⟨d, h1, h2⟩ := (hE _ _ _).1 hd
    constructor
    · rintro rfl; exact ⟨e, d, r, rfl, h1, h2⟩
    · rintro ⟨e', d', r', rfl, h1', h2'⟩
      rw [(hE b e' r').2 ⟨d', h1', h2'⟩] at hd
      cases hd
      rfl

/-! ## Requests -/

theorem decLoop_iff {b : Bytes} {q : Req} : decLoop b = .ok q ↔ ReqB q (18 :: b) := by
  cases b with
  | nil =>
    simp only [decLoop, reduceCtorEq, false_iff]
    intro h; cases h
  | cons t b =>
    have hn := withParams_iff (P := LoopPar) loopParams_is decNodeEnt (fun _ _ _ => decNodeEnt_iff)
      (fun e ps => .loopNode e [] [] [] ps) (b := b) (q := q)
    have hl := withParams_iff (P := LoopPar) loopParams_is decEnt (fun _ _ _ => decEnt_iff)
      (fun _ _ => .loopLine) (b := b) (q := q)
    have hc := withParams_iff (P := CircPar) loopCircParams_is decEnt (fun _ _ _ => decEnt_iff)
      (fun e ps => .loopCircuit e ps) (b := b) (q := q)
    simp only [decLoop]
    by_cases h0 : t.toNat % 8 = 0
    · rw [if_pos h0]
      by_cases hs : t.toNat < 128
      · rw [if_pos hs, hn]
        constructor
        · rintro ⟨e, ps, rfl, h⟩; exact .loopNode t e ps b h0 hs h
        · intro h
          cases h with
          | loopNode _ e ps _ _ _ h => exact ⟨e, ps, rfl, h⟩
          | loopNodeAs => omega
          | loopLine => omega
          | loopCircuit => omega
      · rw [if_neg hs]
        constructor
        · intro h
          split at h
          · cases h
          · rename_i e b1 h1
            split at h
            · cases h
            · rename_i u b2 h2
              split at h
              · cases h
              · rename_i p b3 h3
                split at h
                · cases h
                · rename_i a b4 h4
                  cases h5 : params loopParams b4 with
                  | error x => rw [h5] at h; cases h
                  | ok ps =>
                    rw [h5] at h
                    cases h
                    obtain ⟨d1, hd1, rfl⟩ := decNodeEnt_iff.1 h1
                    obtain ⟨d2, hd2, rfl⟩ := decStr_iff.1 h2
                    obtain ⟨d3, hd3, rfl⟩ := decStr_iff.1 h3
                    obtain ⟨d4, hd4, rfl⟩ := decStr_iff.1 h4
                    exact .loopNodeAs t e u p a ps d1 d2 d3 d4 b4 h0 (by omega) hd1 hd2 hd3 hd4
                      ((params_iff loopParams_is).1 h5)
        · intro h
          cases h with
          | loopNode => omega
          | loopNodeAs _ e u p a ps d1 d2 d3 d4 b4 _ _ hd1 hd2 hd3 hd4 hp =>
            rw [decNodeEnt_iff.2 ⟨d1, hd1, rfl⟩]
            simp only
            rw [decStr_iff.2 ⟨d2, hd2, rfl⟩]
            simp only
            rw [decStr_iff.2 ⟨d3, hd3, rfl⟩]
            simp only
            rw [decStr_iff.2 ⟨d4, hd4, rfl⟩]
            simp only
            rw [(params_iff loopParams_is).2 hp]
            rfl
          | loopLine => omega
          | loopCircuit => omega
    · rw [if_neg h0]
      by_cases h1 : t.toNat % 8 = 1
      · rw [if_pos h1, hl]
        constructor
        · rintro ⟨e, ps, rfl, h⟩; exact .loopLine t e ps b h1 h
        · intro h
          cases h with
          | loopLine _ e ps _ _ h => exact ⟨e, ps, rfl, h⟩
          | loopNode => omega
          | loopNodeAs => omega
          | loopCircuit => omega
      · rw [if_neg h1]
        by_cases h3 : t.toNat % 8 = 3
        · rw [if_pos h3, hc]
          constructor
          · rintro ⟨e, ps, rfl, h⟩; exact .loopCircuit t e ps b h3 h
          · intro h
            cases h with
            | loopCircuit _ e ps _ _ h => exact ⟨e, ps, rfl, h⟩
            | loopNode => omega
            | loopNodeAs => omega
            | loopLine => omega
        · rw [if_neg h3]
          simp only [reduceCtorEq, false_iff]
          intro h
          cases h <;> omega

theorem decRead_iff {b : Bytes} {q : Req} : decRead b = .ok q ↔ ReqB q (20 :: b) := by
  cases b with
  | nil =>
    simp only [decRead, reduceCtorEq, false_iff]
    intro h; cases h
  | cons t b =>
    have hn := withParams_iff (P := NodeQual) nodeQuals_is decNodeEnt (fun _ _ _ => decNodeEnt_iff)
      (fun e _ => .read (t.toNat % 8) (t.toNat / 16 % 8) (decide (128 ≤ t.toNat)) e) (b := b) (q := q)
    have hc := withParams_iff (P := CircQual) circQuals_is decEnt (fun _ _ _ => decEnt_iff)
      (fun e _ => .read (t.toNat % 8) (t.toNat / 16 % 8) (decide (128 ≤ t.toNat)) e) (b := b) (q := q)
    have hm := withParams_iff (P := ModQual) moduleQuals_is decEnt (fun _ _ _ => decEnt_iff)
      (fun e _ => .read (t.toNat % 8) (t.toNat / 16 % 8) (decide (128 ≤ t.toNat)) e) (b := b) (q := q)
    have hs := map_ent_iff decEnt (fun _ _ _ => decEnt_iff)
      (fun e => .read (t.toNat % 8) (t.toNat / 16 % 8) (decide (128 ≤ t.toNat)) e) (b := b) (q := q)
    have ha := map_ent_iff decAreaEnt (fun _ _ _ => decAreaEnt_iff)
      (fun e => .read (t.toNat % 8) (t.toNat / 16 % 8) (decide (128 ≤ t.toNat)) e) (b := b) (q := q)
    simp only [decRead]
    by_cases h0 : t.toNat % 8 = 0
    · rw [if_pos h0, hn, h0]
      constructor
      · rintro ⟨e, ps, rfl, h⟩; exact .readNode t e ps b h0 h
      · intro h
        cases h with
        | readNode _ e ps _ _ h => exact ⟨e, ps, rfl, h⟩
        | _ => omega
    · rw [if_neg h0]
      by_cases h1 : t.toNat % 8 = 1 ∨ t.toNat % 8 = 2
      · rw [if_pos h1, hs]
        constructor
        · rintro ⟨e, d, r, rfl, hd, rfl⟩
          rcases h1 with h1 | h1
          · rw [h1]; exact .readLine t e d r h1 hd
          · rw [h1]; exact .readLogging t e d r h1 hd
        · intro h
          cases h with
          | readLine _ e d r ht h => exact ⟨e, d, r, by rw [ht], h, rfl⟩
          | readLogging _ e d r ht h => exact ⟨e, d, r, by rw [ht], h, rfl⟩
          | _ => omega
      · rw [if_neg h1]
        by_cases h3 : t.toNat % 8 = 3
        · rw [if_pos h3, hc, h3]
          constructor
          · rintro ⟨e, ps, rfl, h⟩; exact .readCircuit t e ps b h3 h
          · intro h
            cases h with
            | readCircuit _ e ps _ _ h => exact ⟨e, ps, rfl, h⟩
            | _ => omega
        · rw [if_neg h3]
          by_cases h4 : t.toNat % 8 = 4
          · rw [if_pos h4, hm, h4]
            constructor
            · rintro ⟨e, ps, rfl, h⟩; exact .readModule t e ps b h4 h
            · intro h
              cases h with
              | readModule _ e ps _ _ h => exact ⟨e, ps, rfl, h⟩
              | _ => omega
          · rw [if_neg h4]
            by_cases h5 : t.toNat % 8 = 5
            · rw [if_pos h5, ha]
              constructor
              · rintro ⟨e, d, r, rfl, hd, rfl⟩
                rw [h5]; exact .readArea t e d r h5 hd
              · intro h
                cases h with
                | readArea _ e d r ht h => exact ⟨e, d, r, by rw [ht], h, rfl⟩
                | _ => omega
            · rw [if_neg h5]
              simp only [reduceCtorEq, false_iff]
              intro h
              cases h <;> omega

theorem decZero_iff {b : Bytes} {q : Req} : decZero b = .ok q ↔ ReqB q (21 :: b) := by
  cases b with
  | nil =>
    simp only [decZero, reduceCtorEq, false_iff]
    intro h; cases h
  | cons t b =>
    have hn := map_ent_iff decNodeEnt (fun _ _ _ => decNodeEnt_iff) (fun e => .zero 0 e) (b := b) (q := q)
    have hs := map_ent_iff decEnt (fun _ _ _ => decEnt_iff) (fun e => .zero (t.toNat % 8) e) (b := b) (q := q)
    simp only [decZero]
    by_cases h0 : t.toNat % 8 = 0
    · rw [if_pos h0, hn]
      constructor
      · rintro ⟨e, d, r, rfl, hd, rfl⟩; exact .zeroNode t e d r h0 hd
      · intro h
        cases h with
        | zeroNode _ e d r _ h => exact ⟨e, d, r, rfl, h, rfl⟩
        | zero => omega
    · rw [if_neg h0]
      by_cases h1 : t.toNat % 8 = 1 ∨ t.toNat % 8 = 3 ∨ t.toNat % 8 = 4
      · rw [if_pos h1, hs]
        constructor
        · rintro ⟨e, d, r, rfl, hd, rfl⟩; exact .zero t e d r h1 hd
        · intro h
          cases h with
          | zeroNode => omega
          | zero _ e d r _ h => exact ⟨e, d, r, rfl, h, rfl⟩
      · rw [if_neg h1]
        simp only [reduceCtorEq, false_iff]
        intro h
        cases h <;> omega

theorem decOld_iff {b : Bytes} {q : Req} : decOld b = .ok q ↔ ReqB q (8 :: b) := by
  cases b with
  | nil =>
    simp only [decOld, reduceCtorEq, false_iff]
    intro h; cases h
  | cons t b =>
    simp only [decOld]
    by_cases h1 : t = 1
    · subst h1
      rw [if_pos rfl]
      constructor
      · intro h
        split at h
        · rename_i hb; subst hb; cases h; exact .oldNode
        · cases h
      · intro h
        cases h with
        | oldNode => rfl
        | oldLine _ _ h => exact absurd h (by decide)
    · rw [if_neg h1]
      by_cases h4 : t = 4 ∨ t = 5
      · rw [if_pos h4]
        constructor
        · intro h
          split at h
          · cases h
          · rename_i r hr
            split at h
            · rename_i hn; subst hn; cases h; exact .oldLine t b h4 (decLine_iff.1 hr)
            · cases h
        · intro h
          cases h with
          | oldNode => exact absurd rfl h1
          | oldLine _ _ _ h => rw [decLine_iff.2 h]; rfl
      · rw [if_neg h4]
        simp only [reduceCtorEq, false_iff]
        intro h
        cases h with
        | oldNode => exact h1 rfl
        | oldLine _ _ h => exact h4 h

theorem decSet_ok {b : Bytes} {q : Req} (h : decSet b = .ok q) : q = .unsupported := by
  cases b with
  | nil => cases h
  | cons t b =>
    simp only [decSet] at h
    split at h
    · unfold withParams at h
      split at h
      · cases h
      · rename_i e r _
        cases hp : params circuitParams r with
        | error x => rw [hp] at h; cases h
        | ok ps => rw [hp] at h; cases h; rfl
    · cases h

/-- C83: the listener takes a message for a request exactly if it is one in the format of the specification,
and takes from it what that says. -/
theorem parse_iff {msg : Bytes} {q : Req} (hq : q ≠ .unsupported) : parse msg = .ok q ↔ ReqB q msg := by
  cases msg with
  | nil =>
    simp only [parse, Except.ok.injEq]
    constructor
    · intro h; exact absurd h.symm hq
    · intro h; cases h
  | cons f b =>
    simp only [parse]
    by_cases h18 : f = 18
    · subst h18; rw [if_pos rfl]; exact decLoop_iff
    rw [if_neg h18]
    by_cases h20 : f = 20
    · subst h20; rw [if_pos rfl]; exact decRead_iff
    rw [if_neg h20]
    by_cases h21 : f = 21
    · subst h21; rw [if_pos rfl]; exact decZero_iff
    rw [if_neg h21]
    by_cases h19 : f = 19
    · subst h19
      rw [if_pos rfl]
      constructor
      · intro h; exact absurd (decSet_ok h) hq
      · intro h; cases h
    rw [if_neg h19]
    by_cases h8 : f = 8
    · subst h8; rw [if_pos rfl]; exact decOld_iff
    rw [if_neg h8]
    constructor
    · intro h
      split at h
      · cases h; exact absurd rfl hq
      · cases h
    · intro h
      cases h <;> contradiction

/-- An entity and parameters, and then one or two bytes. -/
def Stray (E : Ent → Bytes → Prop) (P : Nat → PVal → Bytes → Prop) (b : Bytes) : Prop :=
  ∃ e ps p r, Both E P e ps p ∧ b = p ++ r ∧ (r.length = 1 ∨ r.length = 2)

/-- Requests with one or two bytes too many. -/
inductive StrayB : Bytes → Prop
  | loopNode (t : UInt8) (b) : t.toNat % 8 = 0 → t.toNat < 128 → Stray NodeB LoopPar b → StrayB (18 :: t :: b)
  | loopNodeAs (t : UInt8) (e u p a ps de du dp da dr r) : t.toNat % 8 = 0 → 128 ≤ t.toNat → NodeB e de →
      AccB u du → AccB p dp → AccB a da → Pars LoopPar ps dr → (r.length = 1 ∨ r.length = 2) →
      StrayB (18 :: t :: (de ++ (du ++ (dp ++ (da ++ (dr ++ r))))))
  | loopLine (t : UInt8) (b) : t.toNat % 8 = 1 → Stray NameB LoopPar b → StrayB (18 :: t :: b)
  | loopCircuit (t : UInt8) (b) : t.toNat % 8 = 3 → Stray NameB CircPar b → StrayB (18 :: t :: b)
  | readNode (t : UInt8) (b) : t.toNat % 8 = 0 → Stray NodeB NodeQual b → StrayB (20 :: t :: b)
  | readCircuit (t : UInt8) (b) : t.toNat % 8 = 3 → Stray NameB CircQual b → StrayB (20 :: t :: b)
  | readModule (t : UInt8) (b) : t.toNat % 8 = 4 → Stray NameB ModQual b → StrayB (20 :: t :: b)

theorem pars_stray {table : Table} {P} (h : table.Is P) {b : Bytes} :
    params table b = .error .other ↔ ∃ ps p r, Pars P ps p ∧ b = p ++ r ∧ (r.length = 1 ∨ r.length = 2) := by
  cases hp : params table b with
  | ok ps =>
    simp only [reduceCtorEq, false_iff]
    rintro ⟨qs, p, r, hq, rfl, hr⟩
    -- the decoder is deterministic: run it on the complete part first
    have aux : ∀ (qs : List (Nat × PVal)) (p : Bytes), Pars P qs p → ∀ k, (p ++ r).length ≤ k →
        decParams table k (p ++ r) = .error .other := by
      intro qs p hq
      induction hq with
      | nil =>
        intro k hk
        match r, hr, k, hk with
        | [x], _, k + 1, _ => simp [decParams, decParam]
        | [x, y], _, k + 1, _ => simp [decParams, decParam]
        | [], hr, _, _ => simp at hr
        | _ :: _ :: _ :: _, hr, _, _ => simp at hr
        | [x], _, 0, hk => simp at hk
        | [x, y], _, 0, hk => simp at hk
      | cons a x v d ps q hx hP hq ih =>
        intro k hk
        cases k with
        | zero => simp at hk
        | succ k =>
          obtain ⟨ty, hty, hv⟩ := (h.value _ (d ++ (q ++ r)) _ _).2 ⟨d, hP, rfl⟩
          have hm := (and_8fff (two_lt a x) (Nat.mod_lt _ (by decide : 4096 > 0))).2
            ⟨by have := a.toNat_lt; unfold two; omega, rfl⟩
          have hne := h.pos _ _ _ hP
          cases d with
          | nil => exact absurd rfl hne
          | cons y d =>
            simp only [List.cons_append, List.append_assoc] at hv hk ⊢
            have : decParam table (a :: x :: y :: (d ++ (q ++ r))) = .ok ((two a x % 4096, v), q ++ r) := by
              simp only [decParam, fromLe_two, hm, hty, hv, Except.map]
            simp only [decParams, this]
            rw [ih k (by simp only [List.length_cons, List.length_append] at hk ⊢; omega)]
            rfl
    have := aux qs p hq (p ++ r).length (Nat.le_refl _)
    unfold params at hp
    rw [this] at hp
    cases hp
  | error x =>
    have := decParams_other h _ _ (Nat.le_refl _) x hp
    rw [Except.error.injEq, this]

theorem withParams_stray {table : Table} {P} {E : Ent → Bytes → Prop} (h : table.Is P)
    (dec : Bytes → Except Err (Ent × Bytes))
    (hE : ∀ b e r, dec b = .ok (e, r) ↔ ∃ d, E e d ∧ b = d ++ r) (he : ∀ b x, dec b = .error x → x = .decode)
    (f : Ent → List (Nat × PVal) → Req) {b : Bytes} :
    withParams table f (dec b) = .error .other ↔ Stray E P b := by
  unfold withParams
  cases hd : dec b with
  | error x =>
    simp only [Except.error.injEq]
    rw [he b x hd]
    simp only [reduceCtorEq, false_iff]
    rintro ⟨e, ps, p, r, ⟨d, p', h1, -, rfl⟩, rfl, -⟩
    rw [(hE _ e (p' ++ r)).2 ⟨d, h1, by simp⟩] at hd
    cases hd
  | ok y =>
    obtain ⟨e, r⟩ := y
    simp only
    obtain ⟨d, h1, h2⟩ := (hE _ _ _).1 hd
    have hm : (params table r).map (f e) = .error .other ↔ params table r = .error .other := by
      cases params table r <;> simp [Except.map]
    rw [hm, pars_stray h]
    constructor
    · rintro ⟨ps, p, r', hp, rfl, hr⟩
      exact ⟨e, ps, d ++ p, r', ⟨d, p, h1, hp, rfl⟩, by rw [h2]; simp, hr⟩
    · rintro ⟨e', ps, _, r', ⟨d', p, h1', hp, rfl⟩, h3, hr⟩
      rw [(hE b e' (p ++ r')).2 ⟨d', h1', by rw [h3]; simp⟩] at hd
      cases hd
      exact ⟨ps, p, r', hp, rfl, hr⟩

theorem decStr_err {b : Bytes} {x : Err} (h : decStr b = .error x) : x = .decode := by
  unfold decStr at h
  cases hx : Fields.aDec 39 b with
  | error y => rw [hx] at h; cases h; rfl
  | ok y => rw [hx] at h; cases h

theorem map_ent_err (dec : Bytes → Except Err (Ent × Bytes)) (he : ∀ b x, dec b = .error x → x = .decode)
    (f : Ent → Req) (b : Bytes) : ((dec b).map fun x => f x.1) ≠ .error .other := by
  cases hd : dec b with
  | error x => rw [he b x hd]; simp [Except.map]
  | ok y => simp [Except.map]

/-- C83: apart from the change requests, the messages on which the listener fails outright are those with
one or two bytes after the last complete parameter. -/
theorem stray_iff {f : UInt8} {b : Bytes} (hf : f ≠ 19) :
    parse (f :: b) = .error .other ↔ StrayB (f :: b) := by
  simp only [parse]
  by_cases h18 : f = 18
  · subst h18
    rw [if_pos rfl]
    cases b with
    | nil =>
      simp only [decLoop, Except.error.injEq, reduceCtorEq, false_iff]
      intro h; cases h
    | cons t b =>
      have hn := withParams_stray (P := LoopPar) loopParams_is decNodeEnt (fun _ _ _ => decNodeEnt_iff)
        (fun _ _ => decNodeEnt_err) (fun e ps => .loopNode e [] [] [] ps) (b := b)
      have hl := withParams_stray (P := LoopPar) loopParams_is decEnt (fun _ _ _ => decEnt_iff)
        (fun _ _ => decEnt_err) (fun _ _ => .loopLine) (b := b)
      have hc := withParams_stray (P := CircPar) loopCircParams_is decEnt (fun _ _ _ => decEnt_iff)
        (fun _ _ => decEnt_err) (fun e ps => .loopCircuit e ps) (b := b)
      simp only [decLoop]
      by_cases h0 : t.toNat % 8 = 0
      · rw [if_pos h0]
        by_cases hs : t.toNat < 128
        · rw [if_pos hs, hn]
          constructor
          · exact .loopNode t b h0 hs
          · intro h
            cases h with
            | loopNode _ _ _ _ h => exact h
            | _ => omega
        · rw [if_neg hs]
          constructor
          · intro h
            split at h
            · rename_i x hx; cases h; exact absurd (decNodeEnt_err hx) (by simp)
            · rename_i e b1 h1
              split at h
              · rename_i x hx; cases h; exact absurd (decStr_err hx) (by simp)
              · rename_i u b2 h2
                split at h
                · rename_i x hx; cases h; exact absurd (decStr_err hx) (by simp)
                · rename_i p b3 h3
                  split at h
                  · rename_i x hx; cases h; exact absurd (decStr_err hx) (by simp)
                  · rename_i a b4 h4
                    have h5 : params loopParams b4 = .error .other := by
                      cases hp : params loopParams b4 with
                      | error x => rw [hp] at h; simpa [Except.map] using h
                      | ok ps => rw [hp] at h; cases h
                    obtain ⟨ps, q, r, hq, rfl, hr⟩ := (pars_stray loopParams_is).1 h5
                    obtain ⟨d1, hd1, rfl⟩ := decNodeEnt_iff.1 h1
                    obtain ⟨d2, hd2, rfl⟩ := decStr_iff.1 h2
                    obtain ⟨d3, hd3, rfl⟩ := decStr_iff.1 h3
                    obtain ⟨d4, hd4, rfl⟩ := decStr_iff.1 h4
                    exact .loopNodeAs t e u p a ps d1 d2 d3 d4 q r h0 (by omega) hd1 hd2 hd3 hd4 hq hr
          · intro h
            cases h with
            | loopNodeAs _ e u p a ps d1 d2 d3 d4 q r _ _ hd1 hd2 hd3 hd4 hp hr =>
              rw [decNodeEnt_iff.2 ⟨d1, hd1, rfl⟩]
              simp only
              rw [decStr_iff.2 ⟨d2, hd2, rfl⟩]
              simp only
              rw [decStr_iff.2 ⟨d3, hd3, rfl⟩]
              simp only
              rw [decStr_iff.2 ⟨d4, hd4, rfl⟩]
              simp only
              rw [(pars_stray loopParams_is).2 ⟨ps, q, r, hp, rfl, hr⟩]
              rfl
            | _ => omega
      · rw [if_neg h0]
        by_cases h1 : t.toNat % 8 = 1
        · rw [if_pos h1, hl]
          constructor
          · exact .loopLine t b h1
          · intro h
            cases h with
            | loopLine _ _ _ h => exact h
            | _ => omega
        · rw [if_neg h1]
          by_cases h3 : t.toNat % 8 = 3
          · rw [if_pos h3, hc]
            constructor
            · exact .loopCircuit t b h3
            · intro h
              cases h with
              | loopCircuit _ _ _ h => exact h
              | _ => omega
          · rw [if_neg h3]
            simp only [Except.error.injEq, reduceCtorEq, false_iff]
            intro h
            cases h <;> omega
  rw [if_neg h18]
  by_cases h20 : f = 20
  · subst h20
    rw [if_pos rfl]
    cases b with
    | nil =>
      simp only [decRead, Except.error.injEq, reduceCtorEq, false_iff]
      intro h; cases h
    | cons t b =>
      have hn := withParams_stray (P := NodeQual) nodeQuals_is decNodeEnt (fun _ _ _ => decNodeEnt_iff)
        (fun _ _ => decNodeEnt_err)
        (fun e _ => .read (t.toNat % 8) (t.toNat / 16 % 8) (decide (128 ≤ t.toNat)) e) (b := b)
      have hc := withParams_stray (P := CircQual) circQuals_is decEnt (fun _ _ _ => decEnt_iff)
        (fun _ _ => decEnt_err)
        (fun e _ => .read (t.toNat % 8) (t.toNat / 16 % 8) (decide (128 ≤ t.toNat)) e) (b := b)
      have hm := withParams_stray (P := ModQual) moduleQuals_is decEnt (fun _ _ _ => decEnt_iff)
        (fun _ _ => decEnt_err)
        (fun e _ => .read (t.toNat % 8) (t.toNat / 16 % 8) (decide (128 ≤ t.toNat)) e) (b := b)
      have hs := map_ent_err decEnt (fun _ _ => decEnt_err)
        (fun e => .read (t.toNat % 8) (t.toNat / 16 % 8) (decide (128 ≤ t.toNat)) e) b
      have ha := map_ent_err decAreaEnt (fun _ _ => decAreaEnt_err)
        (fun e => .read (t.toNat % 8) (t.toNat / 16 % 8) (decide (128 ≤ t.toNat)) e) b
      simp only [decRead]
      by_cases h0 : t.toNat % 8 = 0
      · rw [if_pos h0, hn]
        constructor
        · exact .readNode t b h0
        · intro h
          cases h with
          | readNode _ _ _ h => exact h
          | _ => omega
      · rw [if_neg h0]
        by_cases h1 : t.toNat % 8 = 1 ∨ t.toNat % 8 = 2
        · rw [if_pos h1]
          constructor
          · intro h; exact absurd h hs
          · intro h; cases h <;> omega
        · rw [if_neg h1]
          by_cases h3 : t.toNat % 8 = 3
          · rw [if_pos h3, hc]
            constructor
            · exact .readCircuit t b h3
            · intro h
              cases h with
              | readCircuit _ _ _ h => exact h
              | _ => omega
          · rw [if_neg h3]
            by_cases h4 : t.toNat % 8 = 4
            · rw [if_pos h4, hm]
              constructor
              · exact .readModule t b h4
              · intro h
                cases h with
                | readModule _ _ _ h => exact h
                | _ => omega
            · rw [if_neg h4]
              by_cases h5 : t.toNat % 8 = 5
              · rw [if_pos h5]
                constructor
                · intro h; exact absurd h ha
                · intro h; cases h <;> omega
              · rw [if_neg h5]
                simp only [Except.error.injEq, reduceCtorEq, false_iff]
                intro h
                cases h <;> omega
  rw [if_neg h20]
  have hno : ¬ StrayB (f :: b) := by intro h; cases h <;> contradiction
  have hz := fun t : UInt8 => map_ent_err decEnt (fun _ _ => decEnt_err) (fun e => .zero (t.toNat % 8) e)
  have hzn := map_ent_err decNodeEnt (fun _ _ => decNodeEnt_err) (fun e => .zero 0 e)
  refine iff_of_false ?_ hno
  by_cases h21 : f = 21
  · rw [if_pos h21]
    cases b with
    | nil => simp [decZero]
    | cons t b =>
      simp only [decZero]
      split
      · exact hzn b
      · split
        · exact hz t b
        · simp
  rw [if_neg h21, if_neg hf]
  by_cases h8 : f = 8
  · rw [if_pos h8]
    cases b with
    | nil => simp [decOld]
    | cons t b =>
      simp only [decOld]
      split
      · split <;> simp
      · split
        · split
          · rename_i x hx; rw [decLine_err hx]; simp
          · split <;> simp
        · simp
  rw [if_neg h8]
  split <;> simp

/-- Read characteristics of circuit `A`, with a stray byte. -/
example : StrayB [20, 35, 1, 65, 0] := (stray_iff (by decide)).1 (by decide +kernel)

/-- A loop test by node name with access control. -/
example : ReqB (.loopNode ⟨3, .str [77, 73, 77]⟩ [97] [] [] [(150, .simple (.num .du 2 5))])
    ([18, 128, 3, 77, 73, 77, 1, 97, 0, 0, 150, 0, 5, 0]) :=
  (parse_iff (by simp)).1 (by decide +kernel)

/-- A name that reads as an address. -/
example : ReqB (.read 0 1 false ⟨0, .num 1027⟩) [20, 16, 3, 49, 46, 51] :=
  (parse_iff (by simp)).1 (by decide +kernel)

end Verif.Nml
