import Verif.Ncp.Model
import Verif.Ncp.PropsDict
import Verif.Nml.Grammar

/-!
# The language of the commands

What the tokens of a command mean, without dictionaries, and what is to be sent, in terms of the message formats of the
listener (`Verif.Nml.Grammar`).
-/

namespace Verif.Ncp

open Verif.Nml (Bytes Ent Value PVal NameB NodeB AreaB Pars LoopPar CircPar NodeQual CircQual ModQual)

/-- Tokens stand for words, one for one. -/
def Words : List Str → List Str → Prop
  | [], [] => True
  | t :: ts, w :: ws => Abbr t w ∧ Words ts ws
  | _, _ => False

/-- Words for one entity, with the class. -/
def singles : List (Str × Nat) :=
  [(k!"node", 0), (k!"line", 1), (k!"logging", 2), (k!"circuit", 3), (k!"module", 4), (k!"area", 5)]

/-- Words for several entities, with the class. -/
def plurals : List (Str × Nat) :=
  [(k!"nodes", 0), (k!"lines", 1), (k!"logging", 2), (k!"circuits", 3), (k!"modules", 4), (k!"areas", 5)]

/-- Which of several. -/
def selectors : List (Str × Int) :=
  [(k!"known", -1), (k!"active", -2), (k!"loop", -3), (k!"adjacent", -4), (k!"significant", -5)]

/-- One entity of a class, as written: a node that reads as an address is meant by its address, an area is a number,
anything else is a name in upper case. -/
inductive One : Nat → Str → Ent → Prop
  | address (s n) : Addr.ofText s = .ok n → One 0 s ⟨0, .num n.toNat⟩
  | area (s n) : Addr.parseNat s = some n → One 5 s ⟨0, .num n⟩
  | name (t s) : t ≠ 5 → (t = 0 → ∀ n, Addr.ofText s ≠ .ok n) →
      One t s ⟨s.length, .str ((upper s).map Char.toNat)⟩

/-- Entities of SHOW. -/
inductive EntPhrase : List Str → Nat → Ent → Prop
  | executor (tok) : Abbr tok k!"executor" → EntPhrase [tok] 0 ⟨0, .num 0⟩
  | several (a b w c v t) : (w, c) ∈ selectors → (v, t) ∈ plurals → Abbr a w → Abbr b v →
      EntPhrase [a, b] t ⟨c, .none⟩
  | one (a s w t e) : (w, t) ∈ singles → Abbr a w → One t s e → EntPhrase [a, s] t e

/-- Entities of LOOP. -/
inductive LoopEnt : List Str → Nat → Ent → Prop
  | one (a s w t e) : (w, t) ∈ singles → t = 0 ∨ t = 1 ∨ t = 3 → Abbr a w → One t s e → LoopEnt [a, s] t e

/-- The address of a station: bytes in hexadecimal, with hyphens between them. -/
inductive Station : Str → Bytes → Prop
  | last (s n) : '-' ∉ s → Addr.parseHex s = some n → n < 256 → Station s [UInt8.ofNat n]
  | more (s n r b) : '-' ∉ s → Addr.parseHex s = some n → n < 256 → Station r b →
      Station (s ++ '-' :: r) (UInt8.ofNat n :: b)

/-- What a token means as a value. -/
inductive Reads : Kind → Str → PVal → Prop
  | du2 (s n) : Addr.parseNat s = some n → Reads .du2 s (.simple (.num .du 2 n))
  | hi (s b) : Station s b → Reads .hi s (.simple (.hi b))
  | ai (s) : Reads .ai s (.simple (.ai (s.map Char.toNat)))
  | strQual (s) : Reads .strQual s (.ent ⟨s.length, .str (s.map Char.toNat)⟩)
  | nodeAddr (s n) : Addr.ofText s = .ok n → Reads .nodeQual s (.ent ⟨0, .num n.toNat⟩)
  | nodeName (s) : (∀ n, Addr.ofText s ≠ .ok n) → Reads .nodeQual s (.ent ⟨s.length, .str (s.map Char.toNat)⟩)

/-- Words of parameters: those that are followed by a value, and those that give one. -/
abbrev Syntax := List (List Str × Leaf)

/-- Qualifiers of nodes. -/
def nodeSyntax : Syntax :=
  [([k!"circuit"], .arg .strQual (.par 501)), ([k!"vms", k!"circuit"], .arg .strQual (.par 822))]

/-- Qualifier of circuits. -/
def circSyntax : Syntax := [([k!"adjacent", k!"node"], .arg .nodeQual (.par 800))]

/-- Qualifiers of modules. -/
def modSyntax : Syntax :=
  [([k!"circuit"], .arg .strQual (.par 100)), ([k!"physical", k!"address"], .arg .hi (.par 120)),
   ([k!"destination"], .arg .strQual (.par 300)), ([k!"dte"], .arg .strQual (.par 1100)),
   ([k!"group"], .arg .strQual (.par 1101)), ([k!"network"], .arg .strQual (.par 1110))]

/-- Qualifiers of SHOW. -/
def showSyntax (t : Nat) : Syntax :=
  if t = 0 then nodeSyntax else if t = 3 then circSyntax else if t = 4 then modSyntax else []

/-- Parameters of LOOP LINE. -/
def lineSyntax : Syntax :=
  [([k!"count"], .arg .du2 (.par 150)), ([k!"length"], .arg .du2 (.par 151)),
   ([k!"with", k!"zeroes"], .value 0 (.par 152)), ([k!"with", k!"ones"], .value 1 (.par 152)),
   ([k!"with", k!"mixed"], .value 2 (.par 152))]

/-- Access control information. -/
def accessSyntax : Syntax :=
  [([k!"user"], .arg .ai .user), ([k!"password"], .arg .ai .password), ([k!"account"], .arg .ai .account)]

/-- Parameters of LOOP CIRCUIT. -/
def loopCircSyntax : Syntax :=
  lineSyntax ++ [([k!"physical", k!"address"], .arg .hi (.par 10)),
    ([k!"assistant", k!"physical", k!"address"], .arg .hi (.par 153)),
    ([k!"help", k!"transmit"], .value 0 (.par 154)), ([k!"help", k!"receive"], .value 1 (.par 154)),
    ([k!"help", k!"full"], .value 2 (.par 154)), ([k!"node"], .arg .ai (.par 155)),
    ([k!"assistant", k!"node"], .arg .ai (.par 156))]

/-- Parameters of LOOP. -/
def loopSyntax (t : Nat) : Syntax :=
  if t = 0 then lineSyntax ++ accessSyntax else if t = 1 then lineSyntax else loopCircSyntax

/-- One parameter with its value. -/
inductive ParPhrase (syn : Syntax) : List Str → Fld → PVal → Prop
  | named (toks words) (n : Nat) (f) : (words, .value n f) ∈ syn → Words toks words →
      ParPhrase syn toks f (.simple (.num .c 1 n))
  | given (toks words k f tok v) : (words, .arg k f) ∈ syn → Words toks words → Reads k tok v →
      ParPhrase syn (toks ++ [tok]) f v

/-- Any number of them. -/
inductive ParsPhrase (syn : Syntax) : List Str → Sets → Prop
  | nil : ParsPhrase syn [] []
  | cons (a b f v qs) : ParPhrase syn a f v → ParsPhrase syn b qs → ParsPhrase syn (a ++ b) ((f, v) :: qs)

/-- Kinds of information. -/
def kinds : List (Str × Nat) :=
  [(k!"summary", 0), (k!"status", 1), (k!"characteristics", 2), (k!"counters", 3), (k!"events", 4)]

/-- What SHOW and LIST are followed by: entity, kind of information (summary if there is none) and qualifiers, the last
two in either order. -/
inductive ShowPhrase : List Str → Nat → Ent → Sets → Nat → Prop
  | plain (a b t e qs) : EntPhrase a t e → ParsPhrase (showSyntax t) b qs → ShowPhrase (a ++ b) t e qs 0
  | before (a tok w i b t e qs) : EntPhrase a t e → (w, i) ∈ kinds → Abbr tok w →
      ParsPhrase (showSyntax t) b qs → ShowPhrase (a ++ tok :: b) t e qs i
  | after (a b tok w i t e qs) : EntPhrase a t e → (w, i) ∈ kinds → Abbr tok w →
      ParsPhrase (showSyntax t) b qs → ShowPhrase (a ++ (b ++ [tok])) t e qs i

/-- The last value given for a parameter. -/
def lastOf (qs : Sets) (n : Nat) : Option PVal := (qs.filter fun p => p.1 = .par n).getLast?.map (·.2)

/-- The parameters that count, in the order of their numbers: the last value of each. -/
def Settled (qs : Sets) (ps : List (Nat × PVal)) : Prop :=
  ps.Pairwise (fun a b => a.1 < b.1) ∧ ∀ n v, (n, v) ∈ ps ↔ lastOf qs n = some v

/-- Formats of entities. -/
def EntB (t : Nat) : Ent → Bytes → Prop := if t = 0 then NodeB else if t = 5 then AreaB else NameB

/-- No parameters. -/
def NoPar (_ : Nat) (_ : PVal) (_ : Bytes) : Prop := False

/-- Formats of qualifiers. -/
def QualB (t : Nat) : Nat → PVal → Bytes → Prop :=
  if t = 0 then NodeQual else if t = 3 then CircQual else if t = 4 then ModQual else NoPar

/-- Formats of parameters of LOOP. -/
def LoopB (t : Nat) : Nat → PVal → Bytes → Prop := if t = 3 then CircPar else LoopPar

/-- The bytes of a message: function, option, entity, parameters. -/
def MsgB (E : Ent → Bytes → Prop) (P : Nat → PVal → Bytes → Prop) (fn opt : UInt8) (e : Ent)
    (ps : List (Nat × PVal)) (b : Bytes) : Prop := ∃ d p, E e d ∧ Pars P ps p ∧ b = fn :: opt :: (d ++ p)

/-- A read request. -/
def ShowB (perm : Bool) (i t : Nat) (e : Ent) (ps : List (Nat × PVal)) (b : Bytes) : Prop :=
  MsgB (EntB t) (QualB t) 20 (UInt8.ofNat (t + 16 * i + if perm then 128 else 0)) e ps b

/-- A test request without access control information. -/
def LoopMsgB (t : Nat) (e : Ent) (ps : List (Nat × PVal)) (b : Bytes) : Prop :=
  MsgB (EntB t) (LoopB t) 18 (UInt8.ofNat t) e ps b

/-- Everything said has a format. -/
def Fits (E : Ent → Bytes → Prop) (P : Nat → PVal → Bytes → Prop) (e : Ent) (qs : Sets) : Prop :=
  (∃ d, E e d) ∧ ∀ n v, (Fld.par n, v) ∈ qs → ∃ d, P n v d

end Verif.Ncp
