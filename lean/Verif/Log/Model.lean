/-!
# Model of `decnet/logging.py`: the memory handler, the dump of packets, the text of a record
-/

namespace Verif.Log

/-! ## `DnMemoryHandler` (logging.py:116-178) -/

/-- The handler: `buffer`, `bypassing`, and what the target was given. -/
structure H (R : Type) where
  buf : List R
  byp : Bool
  sent : List R
  deriving DecidableEq, Repr

/-- logging.py:134-144. -/
def start {R : Type} : H R := ⟨[], false, []⟩

/-- `deque.append` with a limit (logging.py:137, 162): the oldest goes. -/
def push {R : Type} (cap : Nat) (b : List R) (r : R) : List R :=
  (b ++ [r]).drop ((b ++ [r]).length - cap)

/-- logging.py:171-178 with a target; exceptions of the target are not modelled. -/
def H.flush {R : Type} (h : H R) : H R := { h with buf := [], sent := h.sent ++ h.buf }

/-- logging.py:157-165; `urgent` is `flush_needed` (logging.py:167-169). -/
def H.emit {R : Type} (cap : Nat) (urgent : R → Bool) (h : H R) (r : R) : H R :=
  if h.byp then { h with sent := h.sent ++ [r] }
  else
    let h := { h with buf := push cap h.buf r }
    if urgent r then h.flush else h

/-- logging.py:152-155. -/
def H.bypass {R : Type} (h : H R) (b : Bool) : H R :=
  { h with buf := if b then [] else h.buf, byp := b }

/-- What happens to a handler. -/
inductive Op (R : Type) where
  | emit (r : R)
  | flush
  | bypass (b : Bool)

/-- One call. -/
def H.step {R : Type} (cap : Nat) (urgent : R → Bool) (h : H R) : Op R → H R
  | .emit r => h.emit cap urgent r
  | .flush => h.flush
  | .bypass b => h.bypass b

/-- A history. -/
def runs {R : Type} (cap : Nat) (urgent : R → Bool) (ops : List (Op R)) : H R :=
  ops.foldl (H.step cap urgent) start

/-! ### Threads

`logging.flush` (logging.py:95-98) calls `flush` without the lock of the handler, that
`Handler.handle` of the Python library takes around `emit`.  So a record can be in the hand of a thread,
taken out of the buffer (logging.py:175 `popleft`) and not yet given to the target. -/

/-- The handler as seen by threads; `lost` is what went for want of room, for the statement only. -/
structure T (R : Type) where
  buf : List R
  hand : List (Nat × R)
  sent : List R
  lost : List R
  deriving DecidableEq, Repr

/-- Steps of threads: a record is appended; thread `t` takes the oldest; thread `t` gives what it holds. -/
inductive TStep (R : Type) where
  | append (r : R)
  | take (t : Nat)
  | give (t : Nat)

/-- One step; a step that cannot be taken does nothing. -/
def T.step {R : Type} (cap : Nat) (s : T R) : TStep R → T R
  | .append r =>
    { s with
      buf := push cap s.buf r
      lost := s.lost ++ (s.buf ++ [r]).take ((s.buf ++ [r]).length - cap) }
  | .take t =>
    match s.buf with
    | [] => s
    | r :: b =>
      if s.hand.any (·.1 = t) then s else { s with buf := b, hand := s.hand ++ [(t, r)] }
  | .give t =>
    match s.hand.find? (·.1 = t) with
    | none => s
    | some x => { s with hand := s.hand.eraseP (·.1 = t), sent := s.sent ++ [x.2] }

/-- A schedule. -/
def trun {R : Type} (cap : Nat) (l : List (TStep R)) : T R := l.foldl (T.step cap) ⟨[], [], [], []⟩

/-! ## The dump of a packet (logging.py:180-201) -/

abbrev Str := List Char

/-- A hexadecimal digit. -/
def hexd (n : Nat) : Char := if n < 10 then Char.ofNat (48 + n) else Char.ofNat (87 + n)

/-- `"{:02x}".format (b)`. -/
def hex2 (b : UInt8) : Str := [hexd (b.toNat / 16), hexd (b.toNat % 16)]

/-- Hexadecimal digits of a number, the lowest last, none for zero; `f` is fuel, the number itself is
enough. -/
def hexAll : Nat → Nat → Str
  | 0, _ => []
  | f + 1, n => if n = 0 then [] else hexAll f (n / 16) ++ [hexd (n % 16)]

/-- `"{:04x}".format (ln)` (logging.py:183): as many digits as needed, four at least. -/
def hex4 (n : Nat) : Str :=
  List.replicate (4 - (hexAll n n).length) '0' ++ hexAll n n

/-- `chr (b).isprintable ()` for the first 256 characters: the rest of ASCII and Latin-1 without
the control characters, the hard blank and the soft hyphen. -/
def printable (b : UInt8) : Bool :=
  (32 ≤ b.toNat && b.toNat ≤ 126) || (161 ≤ b.toNat && b.toNat ≠ 173)

/-- logging.py:189-193. -/
def charOf (b : UInt8) : Char := if printable b then Char.ofNat b.toNat else '.'

/-- The column of byte `o` of a line (logging.py:185-197 and the join): `none` beyond the packet. -/
def cellOf (o : Nat) (b : Option UInt8) : Str :=
  (match b with
    | some b => hex2 b
    | none => [' ', ' ']) ++ (if o = 7 then [' ', ' '] else [' '])

/-- `k` columns from column `o` on. -/
def cells : Nat → Nat → List UInt8 → Str
  | 0, _, _ => []
  | k + 1, o, bs => cellOf o bs.head? ++ cells k (o + 1) bs.tail

/-- One line (logging.py:183-200): the bytes of the packet from `ln`. -/
def dumpLine (ln : Nat) (bs : List UInt8) : Str :=
  hex4 ln ++ ['/', ' '] ++ cells 16 0 bs ++ (bs.take 16).map charOf

/-- The lines of the dump, `n` of them (logging.py:182). -/
def dumpFrom : Nat → Nat → List UInt8 → List Str
  | 0, _, _ => []
  | n + 1, ln, bs => dumpLine ln bs :: dumpFrom n (ln + 16) (bs.drop 16)

/-- logging.py:180-201, as lines. -/
def dump (pkt : List UInt8) : List Str := dumpFrom ((pkt.length + 15) / 16) 0 pkt

/-! ## The text of a record (logging.py:207-217) -/

/-- `str.format ()` without arguments: doubled braces become single ones, any
other brace raises (`none`), since there is nothing a field could stand for. -/
def format0 : Str → Option Str
  | [] => some []
  | '{' :: '{' :: r => (format0 r).map ('{' :: ·)
  | '}' :: '}' :: r => (format0 r).map ('}' :: ·)
  | c :: r => if c = '{' ∨ c = '}' then none else (format0 r).map (c :: ·)

/-- event_logger.py:234: the event itself is the message and there are no arguments, so
that its text goes through `format`; if that raises the record is not written
(`logging.Handler.handleError`). -/
def eventLine (text : Str) : Option Str := format0 text

end Verif.Log
