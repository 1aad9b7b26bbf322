import Verif.Lines.Model

/-!
# What is to be shown of a line
-/

namespace Verif.Lines

open Nice (Simple Val Item Width)

/-- Traffic of the ports that have a protocol type, each counted once. -/
def total (ps : List Port) (attr : Ctrs → Nat) : Nat := ((ps.filter fun p => p.proto.isSome).map fun p => attr p.ctrs).sum

/-- The tables of ports that come about. -/
def Reach (s : Ports) : Prop := ∃ ops : List Op, s = ops.foldl Ports.step {}

/-- A counter of two bytes, and of four, stops at its greatest value. -/
def two (p v : Nat) : Item := .ctr p .w2 (min v 65535 : Nat)
def four (p v : Nat) : Item := .ctr p .w4 (min v 4294967295 : Nat)
def one (p v : Nat) : Item := .ctr p .w1 (min v 255 : Nat)
def bits (p : Nat) (x : Nat × Nat) : Item := .ctm p .w1 x.2 (min x.1 255 : Nat)
def code (p v : Nat) : Item := .par p (.one (.num .c 1 v))

/-- The traffic of a line: bytes and blocks, received and sent, with their numbers in the protocol. -/
def Traffic (br bs pr ps : Nat) : List Item := [four 1000 br, four 1001 bs, four 1010 pr, four 1011 ps]

/-- What a client reads, as a set of parameters and counters. -/
def Says : Kind → Nat → Item → Prop
  | _, 0, i => i = code 0 0
  | _, 1, i => i = code 0 0
  | .lan hw .., 2, i => i = code 1111 0 ∨ i = code 1112 6 ∨ ∃ a, hw = some a ∧ i = .par 1160 (.one (.hi a))
  | _, 2, i => i = code 1111 0 ∨ i = code 1112 0
  | .lan _ since unk mcb mcp ports, 3, i =>
    i ∈ Traffic (total ports.made Ctrs.bytesRecv) (total ports.made Ctrs.bytesSent) (total ports.made Ctrs.pktsRecv)
      (total ports.made Ctrs.pktsSent) ∨
    i = two 0 since ∨ i = two 1063 unk ∨ i = four 1002 mcb ∨ i = four 1012 mcp
  | .ptp since c, 3, i => i ∈ Traffic c.bytesRecv c.bytesSent c.pktsRecv c.pktsSent ∨ i = two 0 since
  | .ddcmp since c din dout rr lr rb, 3, i =>
    i ∈ Traffic c.bytesRecv c.bytesSent c.pktsRecv c.pktsSent ∨ i = two 0 since ∨ i = bits 1020 din ∨
      i = bits 1021 dout ∨ i = one 1030 rr ∨ i = one 1031 lr ∨ i = bits 1040 rb
  | _, _, _ => False

/-- Addresses have six bytes, bits of counters are at most sixteen. -/
def Kind.Ok : Kind → Prop
  | .lan hw _ _ _ _ ports => (∀ a, hw = some a → a.length = 6) ∧ Reach ports
  | .ptp .. => True
  | .ddcmp _ _ din dout _ _ rb => din.2 < 65536 ∧ dout.2 < 65536 ∧ rb.2 < 65536

/-- The message is about this line, and says what is to be said, nothing twice. -/
def About (info : Nat) (l : Line) (r : Rep) : Prop :=
  ∃ b is, r = .line l.name b ∧ Nice.decode b = .ok is ∧ is.Nodup ∧ ∀ i, i ∈ is ↔ Says l.kind info i

/-- The first of two names in the order of characters. -/
def Less (a b : Str) : Prop := ∃ p s t, (a = p ∧ b = p ++ t ∧ t ≠ []) ∨
  ∃ x y, a = p ++ x :: s ∧ b = p ++ y :: t ∧ x < y

end Verif.Lines
