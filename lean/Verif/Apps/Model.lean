import Verif.Nml.Mirror

/-!
# Objects that are programs: three mirrors and the talk server

applications/mirror.py, mirror2.py, mirror3.py, lsn.py, with connectors.py 88-118 and async_connectors.py 47-64, 70-81 and
341-344.

A program is started by a connect message; it is modelled as a function of that message and of those that follow on the
connection.  Left out: JSON, logging, the end of the input, and messages for other connections.
-/

namespace Verif.Apps

abbrev Bytes := List Nat

/-- Types of messages from Session Control, session.py:85-110. -/
inductive Ty where
  | connect | data | interrupt | disconnect | accept | reject | runstate
deriving DecidableEq, Repr

structure Msg where
  ty : Ty
  data : Bytes
deriving DecidableEq, Repr

/-- `destination` in the connect message, session.py:579-583: a list with name, or a number. -/
inductive Dest where
  | named (n : Nat) (s : List Nat)
  | number (n : Nat)
deriving DecidableEq, Repr

/-- Requests to Session Control. -/
inductive Req where
  | accept (b : Bytes)
  | data (b : Bytes)
  | abort
deriving DecidableEq, Repr

/-- What becomes of the program: it waits for a message, has returned, or has ended with an exception. -/
inductive End where
  | waiting
  | exit (n : Nat)
  | crash
deriving DecidableEq, Repr

/-- A request before the rest. -/
def say (r : Req) (x : List Req × End) : List Req × End := (r :: x.1, x.2)

/-! ## Mirrors -/

/-- applications/mirror.py:69-131 after the connect message. -/
def mirror1Loop : List Msg → List Req × End
  | [] => ([], .waiting)
  | m :: h =>
    match m.ty with
    | .data =>
      match m.data with
      | [] => ([], .crash)
      | f :: b => say (.data (if f = 0 then 1 :: b else [255])) (mirror1Loop h)
    | .connect => say (.accept [255, 255]) (mirror1Loop h)
    | .disconnect => ([], .exit 0)
    | _ => mirror1Loop h

/-- applications/mirror.py. -/
def mirror1 (h : List Msg) : List Req × End := say (.accept [255, 255]) (mirror1Loop h)

/-- applications/mirror2.py:59-94. -/
def mirror2Loop : List Msg → List Req × End
  | [] => ([], .waiting)
  | m :: h =>
    match m.ty with
    | .data =>
      match m.data with
      | [] => ([], .crash)
      | f :: b => say (.data (if f = 0 then 1 :: b else [255])) (mirror2Loop h)
    | .disconnect => ([], .exit 0)
    | _ => ([], .exit 2)

/-- What follows `accept`, connectors.py:112-118: the next message must be `runstate`; if not the connection is closed, and
the next `recv` raises `ConnClosed` (connectors.py:89-90). -/
def accepted (loop : List Msg → List Req × End) : List Msg → List Req × End
  | [] => ([], .waiting)
  | m :: h => if m.ty = .runstate then loop h else ([], .crash)

/-- applications/mirror2.py:41-94. -/
def mirror2 (h : List Msg) : List Req × End := say (.accept [255, 255]) (accepted mirror2Loop h)

/-- applications/mirror3.py:94-130.  A reject closes the connection (async_connectors.py:54-55), so that `abort` raises an
exception.  After a return the connector is closed, which raises `NameError` (async_connectors.py:344). -/
def mirror3Loop : List Msg → List Req × End
  | [] => ([], .waiting)
  | m :: h =>
    match m.ty with
    | .data =>
      match m.data with
      | [] => ([], .crash)
      | f :: b => say (.data (if f = 0 then 1 :: b else [255])) (mirror3Loop h)
    | .disconnect => ([], .crash)
    | .reject => ([], .crash)
    | _ => ([.abort], .crash)

/-- applications/mirror3.py:65-130: a number cannot be unpacked (line 75). -/
def mirror3 (d : Dest) (h : List Msg) : List Req × End :=
  match d with
  | .number _ => ([], .crash)
  | .named _ _ => say (.accept [255, 255]) (accepted mirror3Loop h)

/-! ## Talk -/

/-- What the talk server does: lines written to the terminal, requests, end. -/
structure Talk where
  tty : Option Nat
  lines : List Bytes
  reqs : List Req
  fin : End
deriving DecidableEq, Repr

/-- A decimal number as text. -/
def dec (n : Nat) : Bytes := (toString n).toList.map Char.toNat

/-- lsn.py:32-36. -/
def Dest.text : Dest → List Nat
  | .named _ s => s
  | .number n => dec n

/-- lsn.py:54: `"TLK>{}_TT{:d}:"`. -/
def prefixText (d : Dest) (src : Nat) : Bytes := [84, 76, 75, 62] ++ d.text ++ [95, 84, 84] ++ dec src ++ [58]

/-- lsn.py:60-76. -/
def talkLoop (pfx : Bytes) : List Msg → List Bytes × End
  | [] => ([], .waiting)
  | m :: h =>
    match m.ty with
    | .data => let x := talkLoop pfx h; ((pfx ++ m.data.map (· &&& 0x7f) ++ [13, 10]) :: x.1, x.2)
    | .disconnect => ([], .exit 0)
    | _ => ([], .exit 2)

/-- lsn.py:43-49. -/
def strip (c : Bytes) : Bytes :=
  if c.length = 7 ∧ c.head? = some 0 then c.drop 2 else if c.length ≠ 5 then c.drop 2 else c

/-- lsn.py:22-76.  `opens` says which terminals can be opened; the name must be ASCII (line 54). -/
def talk (opens : Nat → Bool) (d : Dest) (c : Bytes) (h : List Msg) : Talk :=
  match strip c with
  | t0 :: t1 :: s0 :: s1 :: _ :: _ =>
    if ∃ x ∈ d.text, 128 ≤ x then ⟨none, [], [], .crash⟩
    else if opens (t0 + 256 * t1) then
      match h with
      | [] => ⟨some (t0 + 256 * t1), [], [.accept []], .waiting⟩
      | m :: h =>
        if m.ty = .runstate then
          let x := talkLoop (prefixText d (s0 + 256 * s1)) h
          ⟨some (t0 + 256 * t1), x.1, [.accept []], x.2⟩
        else ⟨some (t0 + 256 * t1), [], [.accept []], .crash⟩
    else ⟨none, [], [], .crash⟩
  | _ => ⟨none, [], [], .crash⟩

end Verif.Apps
