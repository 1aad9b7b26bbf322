import Verif.Fal.Get

/-!
# The file access listener, message by message

Model of `files`, `doget`, `dodir` and the loop of `main` in `pydecnet/decnet/applications/fal.py`, for a client that
is `nft`: it asks for attributes, dates and protection (`main`, `date`, `fprot`), not for names, and sends no
attributes itself.  In contrast to `Verif.Fal.Get` every message of the description of a file is there, and the
listener is a machine that takes one message at a time, so that it can be put together with a client.

The disk is the environment: what `glob.glob` returns, sorted, for a file specification, and what `os` says of
each name.  Left out: dates.  Messages which have been sent but not flushed are held (automatic flushes of full blocks
are left out: they hand on earlier what is handed on anyway, see C92).
-/

namespace Verif.Nft

abbrev Str := List Nat
abbrev Bytes := List UInt8

/-- What the client sends (see `Verif.Fal.In`). -/
abbrev In := Fal.In

/-- The flag set in a `Name` message. -/
inductive Kind where
  | vol
  | dir
  | file
  | spec
  deriving DecidableEq, Repr

/-- What the listener sends.  An attribute message has block size, end block and first free byte, a protection
message the owner and the mode; `gone` is the end of the connection. -/
inductive Msg where
  | name (k : Kind) (s : Str)
  | attrib (bls ebk ffb : Nat)
  | date
  | prot (owner : Str) (mode : Nat)
  | ack
  | data (d : Bytes)
  | status (mac mic : Nat)
  | complete (func : Nat)
  | other (typ : Nat)
  | gone
  deriving DecidableEq, Repr

/-- A name found on the disk: directory and last part, what `os.stat`, `os.path.isdir` and `os.access` say, owner and
mode, contents. -/
structure Entry where
  dn : Str
  bn : Str
  there : Bool
  isdir : Bool
  readable : Bool
  owner : Str
  mode : Nat
  bytes : Bytes
  deriving DecidableEq, Repr

/-- What a file specification stands for: `wild` and the last part of the name, whether its directory can be
searched, what is found. -/
structure Glob where
  wild : Bool
  bn : Str
  searchable : Bool
  found : List Entry
  deriving DecidableEq, Repr

/-- A hexadecimal digit in lower case. -/
def hex (d : Nat) : Nat := if d < 10 then 48 + d else 87 + d

/-- The digits of `n`, `k` of them. -/
def hexes : Nat → Nat → Str
  | 0, _ => []
  | k + 1, n => hexes k (n / 16) ++ [hex (n % 16)]

/-- A character of `bytes (bn, "latin1", "backslashreplace")`, fal.py 116. -/
def escape (c : Nat) : Str :=
  if c < 256 then [c] else if c < 65536 then [92, 117] ++ hexes 4 c else [92, 85] ++ hexes 8 c

/-- The name as it is sent, fal.py 116-120. -/
def clean (e : Entry) : Str :=
  let bn := (e.bn.flatMap escape).take 127
  if e.isdir then bn.take 126 ++ [47] else bn

/-- Is the entry reported, fal.py 92-103. -/
def Entry.visible (dirop : Bool) (e : Entry) : Bool := e.there && !(e.isdir && !dirop) && e.readable

/-- The messages about a file, fal.py 121-164 (`sendname` is not set unless `dirop` or `wild`). -/
def describe (named : Bool) (e : Entry) : List Msg :=
  (if named then [.name .file (clean e)] else []) ++
    [.attrib 512 (e.bytes.length / 512 + 1) (e.bytes.length % 512), .date, .prot e.owner e.mode]

/-- The loop over the files, fal.py 90-174: each file with the messages sent for it; `ret` is what is waiting,
`cur` the directory of the file before.  `strip` is `striproot`. -/
def walk (strip : Str → Str) (dirop named : Bool) : List Msg → Option Str → List Entry → List (Entry × List Msg)
  | _, _, [] => []
  | ret, cur, e :: es =>
    if e.visible dirop then
      let head := if some e.dn ≠ cur && named then [.name .dir (strip e.dn ++ [47])] else []
      (e, ret ++ head ++ describe named e) :: walk strip dirop named [] (some e.dn) es
    else walk strip dirop named ret cur es

/-- What `files` yields: files with their messages, or an error. -/
inductive Yield where
  | files (l : List (Entry × List Msg))
  | error (mac mic : Nat)
  deriving DecidableEq, Repr

/-- The variable `bn` after the loop, fal.py 76, 91, 116-120: it is replaced by the name that is sent for those
that are reported.  (The test after the loop is made only if there are none.) -/
def lastName (g : Glob) : Str := (g.found.getLast?.map Entry.bn).getD g.bn

/-- `files`, fal.py 50-183. -/
def files (strip : Str → Str) (dirop : Bool) (g : Glob) : Yield :=
  if g.found = [] ∧ g.searchable = false then .error 4 32
  else
    let named := dirop || g.wild
    match walk strip dirop named (if named then [.name .vol []] else []) none g.found with
    | [] => if 42 ∈ lastName g then .files [] else .error 4 50
    | l => .files l

/-- The binary copy, fal.py 258-268, and the end of file, fal.py 270. -/
def contents (e : Entry) : List Msg := (Fal.blocks e.bytes).map .data ++ [.status 5 39]

/-- Where the listener waits for a message: in the main loop; for the answer to an offer; for the start of
the transfer; for the end of access, first or after the end of a stream. -/
inductive Wait where
  | idle
  | offered (e : Entry) (rest : List (Entry × List Msg))
  | connected (e : Entry) (rest : List (Entry × List Msg))
  | sent (rest : List (Entry × List Msg))
  | closing (rest : List (Entry × List Msg))
  deriving DecidableEq, Repr

structure Srv where
  wait : Wait := .idle
  held : List Msg := []
  deriving DecidableEq, Repr

/-- What there is to know of the listener: the protocol version agreed, the root, the disk. -/
structure Host where
  v7 : Bool
  strip : Str → Str
  disk : Bool → Str → Glob

/-- The next turn of the loop of `doget`, fal.py 192-200, or its end, 304-306: where it waits, and what it
sends and flushes. -/
def offer : List (Entry × List Msg) → Wait × List Msg
  | [] => (.idle, [.complete 2])
  | (e, ms) :: rest => (.offered e rest, ms ++ [.ack])

/-- `send` and `flush`. -/
def Srv.say (s : Srv) (w : Wait) (ms : List Msg) : Srv × List Msg := (⟨w, []⟩, s.held ++ ms)

/-- One message for the listener, fal.py 185-306, 308-317, 340-366: the next state and what goes out. -/
def Srv.step (h : Host) (s : Srv) (m : In) : Srv × List Msg :=
  match s.wait with
  | .idle =>
    match m with
    | .attrib _ | .date | .prot => (s, [])
    | .access 6 spec =>
      match files h.strip true (h.disk true spec) with
      | .error mac mic => s.say .idle (.status mac mic :: (if h.v7 then [.ack] else []) ++ [.complete 2])
      | .files l => s.say .idle (l.flatMap (fun x => x.2 ++ if h.v7 then [.ack] else []) ++ [.complete 2])
    | .access 1 spec =>
      match files h.strip false (h.disk false spec) with
      | .error mac mic => ({ s with held := s.held ++ [.status mac mic] }, [])
      | .files l => s.say (offer l).1 (offer l).2
    | .access _ _ => s.say .idle [.status 2 208]
    | m => s.say .idle [.status 10 m.typ]
  | .offered e rest =>
    match m with
    | .complete 1 => s.say (offer rest).1 (offer rest).2
    | .control c _ => if c = 2 then s.say (.connected e rest) [.ack] else s.say .idle [.status 2 272]
    | m => s.say .idle [.status 10 m.typ]
  | .connected e rest =>
    match m with
    | .control c r =>
      if c ≠ 1 then s.say .idle [.status 2 272]
      else if r ≠ some 3 then s.say .idle [.status 2 274]
      else s.say (.sent rest) (contents e)
    | m => s.say .idle [.status 10 m.typ]
  | .sent rest =>
    match m with
    | .complete 4 => s.say (.closing rest) [.complete 2]
    | .complete 1 => s.say (offer rest).1 (offer rest).2
    | .complete _ => s.say .idle [.status 2 464]
    | m => s.say .idle [.status 10 m.typ]
  | .closing rest =>
    match m with
    | .complete 1 => s.say (offer rest).1 (offer rest).2
    | .complete _ => s.say .idle [.status 2 464]
    | m => s.say .idle [.status 10 m.typ]

end Verif.Nft
