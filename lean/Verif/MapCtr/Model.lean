/-!
# Counters with causes (`decnet/nice_coding.py`, `decnet/ddcmp.py`, `decnet/routing.py`)

The error counters of DDCMP: a number, the bits of the causes, and a number for each cause.  The number in memory has no
limit; it is limited when encoded (`Verif.Nice`).  One addition ends before the next begins; `Race` has
those of two threads at once.
-/

namespace Verif.MapCtr

/-- nice_coding.py:454-456 and the value of the integer itself. -/
structure Ctr where
  val : Nat
  map : Nat
  cmap : List Nat
deriving DecidableEq, Repr

/-- `CTM1 ()`, nice_coding.py:454-456. -/
def Ctr.new : Ctr := ⟨0, 0, List.replicate 16 0⟩

/-- `c += (n, b)`, nice_coding.py:460-465; `none` is IndexError.  The list of the old object is the one that is changed;
the program drops the old object. -/
def Ctr.add (c : Ctr) (n b : Nat) : Option Ctr :=
  match c.cmap[b]? with
  | some x => some ⟨c.val + n, c.map ||| 1 <<< b, c.cmap.set b (x + 1)⟩
  | none => none

/-- `c += n`, nice_coding.py:466-469: the numbers of the causes start again. -/
def Ctr.addPlain (c : Ctr) (n : Nat) : Ctr := ⟨c.val + n, c.map, List.replicate 16 0⟩

/-- `DdcmpCounters`, ddcmp.py:104-111, without `local_reply_timeouts` and the counters of all data links. -/
structure Counters where
  inbound : Ctr := .new
  outbound : Ctr := .new
  buffer : Ctr := .new
  reps : Nat := 0
deriving DecidableEq, Repr

/-- `nak_map`, ddcmp.py:123-128. -/
def nakMap (r : Nat) : Option (Bool × Nat) :=
  if r = 1 then some (true, 0)
  else if r = 2 then some (true, 1)
  else if r = 3 then some (true, 2)
  else if r = 8 then some (false, 0)
  else if r = 16 then some (false, 1)
  else none

/-- What the framer says of a frame, ddcmp.py:1580-1605. -/
inductive Stat where
  | ok | hcrc | crc | len | loc | other
deriving DecidableEq, Repr

/-- What is counted: a bad header (ddcmp.py:490-493, 1283-1286), a data message with bad data (518-527), a REP in the
running state with the number expected or another (686-693), a NAK in the running state with any reason (671-680), a frame
of the framer that holds a data message (1580-1605). -/
inductive Ev where
  | header
  | data
  | rep (good : Bool)
  | nak (reason : Nat)
  | frame (s : Stat)
deriving DecidableEq, Repr

/-- One event; `none` is an exception (KeyError for a reason is caught, ddcmp.py:679-680). -/
def step (s : Counters) : Ev → Option Counters
  | .header => (s.inbound.add 1 0).map fun c => { s with inbound := c }
  | .data => (s.inbound.add 1 1).map fun c => { s with inbound := c }
  | .rep true => some { s with reps := s.reps + 1 }
  | .rep false => (s.inbound.add 1 2).map fun c => { s with reps := s.reps + 1, inbound := c }
  | .nak r =>
    match nakMap r with
    | some (true, b) => (s.outbound.add 1 b).map fun c => { s with outbound := c }
    | some (false, b) => (s.buffer.add 1 b).map fun c => { s with buffer := c }
    | none => some s
  | .frame .hcrc => (s.inbound.add 1 0).map fun c => { s with inbound := c }
  | .frame .crc => (s.inbound.add 1 1).map fun c => { s with inbound := c }
  | .frame .loc => (s.inbound.add 1 0).map fun c => { s with inbound := c }
  | .frame _ => some s

/-- A history. -/
def run (s : Counters) : List Ev → Option Counters
  | [] => some s
  | e :: es => (step s e).bind fun t => run t es

/-- `html_ccounters` for one counter, routing.py:474-484: its number, then the causes with a number; `none` is IndexError. -/
def shown (c : Ctr) (label : String) : List (Nat × String) → Option (List (String × Nat))
  | [] => some [(label, c.val)]
  | (b, l) :: r =>
    match c.cmap[b]?, shown c label r with
    | some n, some (t :: rest) => some (t :: (if n = 0 then rest else (l, n) :: rest))
    | _, _ => none

/-- `ddcmp_de_map`, `ddcmp_be_map`, routing.py:60-64. -/
def deMap : List (Nat × String) :=
  [(0, "Header block check errors"), (1, "Data field block check errors"), (2, "REP responses")]
def beMap : List (Nat × String) := [(0, "Buffers unavailable"), (1, "Buffers too small")]

/-- The loop of `format_qual`, nice_coding.py:476-485; `lab` is the name of a bit, or `Qualifier #`. -/
def quals (lab : Nat → String) : Nat → Nat → Nat → List String
  | 0, _, _ => []
  | f + 1, b, bits =>
    if bits = 0 then [] else (if bits % 2 = 1 then [lab b] else []) ++ quals lab f (b + 1) (bits / 2)

/-- nice_coding.py:471-489: the lines after "including". -/
def formatQual (lab : Nat → String) (bits : Nat) : List String := quals lab 16 0 bits

end Verif.MapCtr
