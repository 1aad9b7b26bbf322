import Verif.Nft.Server

/-!
# The file transfer program

Model of `pydecnet/applications/nft`: `files`, `filedata`, `dodir`, `docopy`, as a machine that takes one message at a
time, and of this machine connected to the listener.

A command with several file specifications is several commands here; all commands are for one node and go through one
session.  Left out: `type`, the parsing of commands, `open` failing, dates, the texts on the screen.
-/

namespace Verif.Nft

/-- The answer at the prompt, nft 286-299; `blank` is an empty line. -/
inductive Ans where
  | yes
  | no
  | quit
  | blank
  deriving DecidableEq, Repr

/-- A command.  `copy` has the file specification, the destination and whether that is a directory, and the answers
to the prompts: yes if there are no more (not interactive, or `A`). -/
inductive Cmd where
  | dir (spec : Str)
  | copy (spec : Str) (dest : Str) (isdir : Bool) (answers : List Ans)
  deriving DecidableEq, Repr

/-- What the user sees.  `notice` is a status printed by `filedata`, `failed` an exception. -/
inductive Ev where
  | heading (vol dir spec : Str)
  | entry (mode : Nat) (owner : Str) (size : Int) (name : Str)
  | wrote (path : Str) (content : Bytes)
  | dapError (mac mic : Nat)
  | notice (mac mic : Nat)
  | unexpected
  | disconnected
  | failed
  deriving DecidableEq, Repr

/-- The variables of `files`, nft 143-144.  Of a name: is it a file name. -/
structure Scan where
  cmd : Cmd
  vol : Str := []
  name : Option (Bool × Str) := none
  attr : Option (Nat × Nat × Nat) := none
  date : Bool := false
  prot : Option (Str × Nat) := none
  deriving DecidableEq, Repr

/-- Where the program waits: in `files`; in `filedata` for the acknowledgment, or for data.  `resp` is the message on
which `files` had yielded.  `spin`: the loop of `filedata` without a connection. -/
inductive Phase where
  | scan (s : Scan)
  | connect (path : Str) (s : Scan) (resp : Msg)
  | reading (path : Str) (buf : Bytes) (s : Scan) (resp : Msg)
  | done
  | closed
  | spin
  deriving DecidableEq, Repr

structure Cli where
  phase : Phase
  todo : List Cmd
  deriving DecidableEq, Repr

/-- The request of a command, nft 139-142, 253, 279. -/
def Cmd.request : Cmd → In
  | .dir spec => .access 6 spec
  | .copy spec _ _ _ => .access 1 spec

/-- The start of the next command. -/
def begin : List Cmd → Cli × List In
  | [] => (⟨.done, []⟩, [])
  | c :: cs => (⟨.scan { cmd := c }, cs⟩, [c.request])

/-- `os.path.join`. -/
def joinPath (a b : Str) : Str :=
  if [47].isPrefixOf b then b
  else if a = [] ∨ [47].isSuffixOf a then a ++ b else a ++ 47 :: b

/-- A step: the state, what is sent, what is seen. -/
abbrev Out := Cli × List In × List Ev

/-- The command is at its end. -/
def finish (todo : List Cmd) (ev : List Ev) : Out := ((begin todo).1, (begin todo).2, ev)

/-- `files` after the yield of a file, nft 167-192.  (The end of the connection has been dealt with.) -/
def treat (todo : List Cmd) (s : Scan) (m : Msg) : Out :=
  match m with
  | .complete _ => finish todo []
  | .name .vol v => (⟨.scan { s with vol := v }, todo⟩, [], [])
  | .name .dir d =>
    (⟨.scan s, todo⟩, [], match s.cmd with | .dir spec => [.heading s.vol d spec] | _ => [])
  | .name .file n => (⟨.scan { s with name := some (true, n) }, todo⟩, [], [])
  | .name .spec n => (⟨.scan { s with name := some (false, n) }, todo⟩, [], [])
  | .date => (⟨.scan { s with date := true }, todo⟩, [], [])
  | .attrib b e f => (⟨.scan { s with attr := some (b, e, f) }, todo⟩, [], [])
  | .prot o p => (⟨.scan { s with prot := some (o, p) }, todo⟩, [], [])
  | .status a b => finish todo [.dapError a b]
  | .ack => (⟨.scan s, todo⟩, [], [])
  | _ => finish todo [.unexpected]

/-- After the yield of a file, nft 166. -/
def Scan.clear (s : Scan) : Scan := { s with name := none, attr := none, date := false, prot := none }

/-- The messages that end the description of a file, nft 150. -/
def Msg.ends : Msg → Bool
  | .name _ _ | .ack | .complete _ => true
  | _ => false

/-- The next answer. -/
def Scan.answer (s : Scan) : Ans × Scan :=
  match s.cmd with
  | .copy spec dest isdir (a :: as) => (a, { s with cmd := .copy spec dest isdir as })
  | _ => (.yes, s)

/-- A file has been described, nft 152-165, and is handed to `dodir` (nft 254-258) or `docopy` (nft 280-308). -/
def yield (todo : List Cmd) (s : Scan) (isfile : Bool) (n : Str) (m : Msg) : Out :=
  match s.attr, s.date, s.prot with
  | some (bls, ebk, ffb), true, some (owner, mode) =>
    match s.cmd with
    | .dir _ =>
      let r := treat todo s.clear m
      (r.1, r.2.1,
        .entry mode owner (((ebk : Int) - 1) * bls + ffb) (if isfile then n else []) :: r.2.2)
    | .copy _ dest isdir _ =>
      match s.answer.1 with
      | .yes =>
        (⟨.connect (if isdir then joinPath dest (if isfile then n else []) else dest) s.answer.2.clear m, todo⟩,
          [.control 2 (some 3)], [])
      | .no => let r := treat todo s.answer.2.clear m; (r.1, .complete 1 :: r.2.1, r.2.2)
      | .quit => (⟨.closed, todo⟩, [], [])
      | .blank => finish todo [.failed]
  | _, _, _ => finish todo [.failed]

/-- `files`, nft 145-192. -/
def scan (todo : List Cmd) (s : Scan) (m : Msg) : Out :=
  if m = .gone then finish todo [.disconnected]
  else match s.name with
    | some (isfile, n) => if m.ends then yield todo s isfile n m else treat todo s m
    | none => treat todo s m

/-- One message for the program; `none` if it does not wait for one.  `filedata`: nft 194-229. -/
def Cli.step (c : Cli) (m : Msg) : Option Out :=
  match c.phase with
  | .scan s => some (scan c.todo s m)
  | .connect path s resp =>
    if m = .ack then some (⟨.reading path [] s resp, c.todo⟩, [.control 1 (some 3)], [])
    else some (finish c.todo [.wrote path [], .failed])
  | .reading path buf s resp =>
    match m with
    | .status a b =>
      let r := treat c.todo s resp
      some (r.1, .complete 1 :: r.2.1,
        (if (a = 1 ∨ a = 5 ∨ a = 6) ∧ b = 39 then [] else [.notice a b]) ++ .wrote path buf :: r.2.2)
    | .data d => some (⟨.reading path (buf ++ d) s resp, c.todo⟩, [], [])
    | .gone => some (⟨.spin, c.todo⟩, [], [])
    | _ => some (c, [], [])
  | _ => none

/-! ## Both together -/

/-- The program, the listener, the messages on their way in both directions, what the user has seen. -/
structure Sys where
  cli : Cli
  srv : Srv
  up : List In
  down : List Msg
  seen : List Ev
  deriving DecidableEq, Repr

/-- Either end takes the next message that is there for it. -/
inductive Step (h : Host) : Sys → Sys → Prop
  | srv {s : Sys} {m : In} {up : List In} : s.up = m :: up →
      Step h s { s with srv := (s.srv.step h m).1, up := up, down := s.down ++ (s.srv.step h m).2 }
  | cli {s : Sys} {m : Msg} {down : List Msg} {r : Out} : s.down = m :: down → s.cli.step m = some r →
      Step h s { s with cli := r.1, up := s.up ++ r.2.1, down := down, seen := s.seen ++ r.2.2 }

/-- A new session with these commands. -/
def open' (cs : List Cmd) : Sys := ⟨(begin cs).1, {}, (begin cs).2, [], []⟩

end Verif.Nft
