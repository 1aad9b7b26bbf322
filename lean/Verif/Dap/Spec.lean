import Verif.Dap.Tables

/-!
# What a DAP message conveys

Stated over attribute values: which attributes a receiver must find, and with which values.
-/

namespace Verif.Dap

open Verif.Fields

/-- A number among the attributes; 0 if it is not set. -/
def num (c : PktClass) (p : Attrs) (n : String) : Nat :=
  match c.get p n with
  | some (.int i) => i.toNat
  | _ => 0

/-- The word made of the elements of a bit map.  (Elements may overlap.) -/
def word (c : PktClass) (p : Attrs) : List Elem → Nat
  | [] => 0
  | e :: es => num c p e.name * 2 ^ e.start ||| word c p es

/-- The value of a field that is not set. -/
def Fld.unset : Fld → Val
  | .b _ | .iint _ => .int 0
  | .a _ | .av _ => .str []
  | .i _ | .version | .payload => .bytes []

/-- Texts of fixed length arrive with their padding. -/
def Fld.shown : Fld → Val → Val
  | .av n, .str s => .str (s ++ List.replicate (n - s.length) 0)
  | _, v => v

/-- The attributes a field or group conveys. -/
def sent (c : PktClass) (p : Attrs) : Core → List (String × Val)
  | .fld n f => [(n, f.shown ((c.get p n).getD f.unset))]
  | .bm es => es.map fun e => (e.name, .int (word c p es / 2 ^ e.start % 2 ^ e.bits))
  | .bmex _ es => es.map fun e => (e.name, .int (word c p es / 2 ^ e.start % 2 ^ e.bits))

/-- The attributes found in the bytes of a default. -/
def standing (d : Bytes) (k : Core) : List (String × Val) :=
  match readCore d k with
  | .ok r => r.1
  | .error _ => []

/-- The attributes a row conveys: nothing if its flag is not set, or then its default. -/
def given (c : PktClass) (p : Attrs) (r : Row) : List (String × Val) :=
  match r.guard with
  | .always => sent c p r.core
  | .orElse _ => sent c p r.core
  | .when f => if truthy (c.get p f) then sent c p r.core else []
  | .whenElse f d => if truthy (c.get p f) then sent c p r.core else standing d r.core

/-- The last value for a name. -/
def latest (ws : List (String × Val)) (n : String) : Option Val :=
  (ws.reverse.find? fun w => w.1 == n).map (·.2)

/-- The values a message received has: the fixed ones of its class, and the last ones conveyed. -/
def Shows (c : PktClass) (ws : List (String × Val)) (q : Attrs) : Prop :=
  ∀ n, c.get q n = match c.fixed n with
    | some w => some w.1
    | none => latest ws n

/-! ## The test of a layout -/

def Core.names : Core → List String
  | .fld n _ => [n]
  | .bm es => es.map (·.name)
  | .bmex _ es => es.map (·.name)

def Core.apart : Core → Bool
  | .fld _ _ => false
  | .bm es => bmOk es
  | .bmex _ es => bmOk es

def Core.isPayload : Core → Bool
  | .fld _ .payload => true
  | _ => false

/-- Never encoded as nothing. -/
def Core.solid : Core → Bool
  | .fld _ f => match f with
    | .b n => 1 ≤ n
    | .av n => 1 ≤ n
    | .payload => false
    | _ => true
  | .bm es => 1 ≤ bmLen es
  | .bmex _ es => true

/-- Attributes with a fixed value other than the type stand in bit maps without overlap. -/
def Core.fixedOk (c : PktClass) (k : Core) : Bool :=
  k.apart || k.names.all fun n => match c.fixed n with
    | some w => w.2
    | none => true

/-- The flags known to be as the sender has them after a row. -/
def Row.trust (flags : List String) (r : Row) : List String :=
  flags.filter (fun f => !r.core.names.contains f) ++
    (if r.guard = .always ∧ r.core.apart = true then r.core.names else [])

/-- Flags precede what they are about, defaults can be read, only the last field is open ended, and empty by
default. -/
def rowsOk (c : PktClass) : List String → List Row → Bool
  | _, [] => true
  | flags, r :: rs =>
    r.core.fixedOk c &&
    (match r.guard with
      | .always => r.core.solid
      | .when f => flags.contains f && r.core.solid
      | .whenElse f d => flags.contains f && r.core.solid &&
          (match readCore d r.core with | .ok _ => true | .error _ => false) &&
          r.core.names.all fun n => (c.fixed n).isNone
      | .orElse d => r.core.solid || (r.core.isPayload && rs.isEmpty && d.isEmpty)) &&
    rowsOk c (r.trust flags) rs

def Layout.ok (L : Layout) : Bool := rowsOk L.cls [] L.rows

/-! ## Fields left out -/

/-- A reader that takes no default for what is missing: every row is read from the message. -/
def strictRows (c : PktClass) : List Row → Bytes → Attrs → Except Err (Attrs × Bytes)
  | [], buf, acc => .ok (acc, buf)
  | r :: rs, buf, acc => do
    let (acc, buf) ← decRow c false buf acc r
    strictRows c rs buf acc

/-- The number of zero bytes that spell out a field of value zero. -/
def Core.zeros : Core → Nat
  | .fld _ f => match f with
    | .b n => n
    | .av n => n
    | .version => 5
    | .payload => 0
    | _ => 1
  | .bm es => bmLen es
  | .bmex _ _ => 1

/-- The bytes a field stands for when the message ends before it. -/
def Row.filler (r : Row) : Bytes :=
  match r.guard with
  | .orElse d => d
  | _ => List.replicate r.core.zeros 0

/-- Defaults are complete fields, fields of value zero have at most 128 bytes. -/
def fillOk : List Row → Bool
  | [] => true
  | r :: rs =>
    (match r.guard with
      | .orElse d => (match readCore d r.core with | .ok x => x.2.isEmpty | .error _ => false)
      | _ => decide (r.core.zeros ≤ 128)) &&
    (!r.core.isPayload || (rs.isEmpty && decide (r.guard = .orElse []))) && fillOk rs

end Verif.Dap
