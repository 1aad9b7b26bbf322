import Verif.Fal.Block

/-!
# The file access listener at work

Model of `doget`, `dodir` and the loop of `main`, `pydecnet/decnet/applications/fal.py` 185-363.

The disk is the environment: which files an access request stands for (see `Path.lean`) and what is in them.
The messages that describe a file are one message here, `about`, with its name and, of the attributes, where
the file ends.  Left out: files that cannot be opened after they have been found, which end the process; record
formats and options that are only passed back.
-/

namespace Verif.Fal

/-- A file: its name, its bytes and, for text, its characters as Python decodes them. -/
structure File where
  name : List Nat
  bytes : Bytes
  chars : List Nat
  deriving DecidableEq, Repr

/-- Of the attributes the client asks for: record format, carriage control (`m_rat` and `fb_cr`), block size. -/
structure Attr where
  rfm : Option Nat := none
  cr : Bool := false
  bls : Option Nat := none
  deriving DecidableEq, Repr

/-- Messages from the client. -/
inductive In where
  | attrib (a : Attr)
  | date
  | prot
  | access (func : Nat) (spec : List Nat)
  | control (func : Nat) (rac : Option Nat)
  | complete (func : Nat)
  | other (typ : Nat)
  deriving DecidableEq, Repr

/-- The `type` of a message. -/
def In.typ : In → Nat
  | .attrib _ => 2
  | .access .. => 3
  | .control .. => 4
  | .complete _ => 7
  | .date => 13
  | .prot => 14
  | .other t => t

/-- Messages to the client. -/
inductive Out where
  | about (name : List Nat) (ebk ffb : Nat)
  | ack
  | data (d : Bytes)
  | status (mac mic : Nat)
  | response
  deriving DecidableEq, Repr

/-- What the listener does, in order. -/
inductive Act where
  | send (m : Out)
  | flush
  | recv
  deriving DecidableEq, Repr

/-- How it ends: it comes back to the main loop, the connection is gone, an exception. -/
inductive End where
  | done
  | gone
  | died
  deriving DecidableEq, Repr

/-- What an access request stands for: files in order of name, or an error. -/
inductive Found where
  | files (l : List File)
  | error (mac mic : Nat)
  deriving DecidableEq, Repr

/-- `files`, fal.py 118-125: where the file ends. -/
def about (f : File) : Out := .about f.name (f.bytes.length / 512 + 1) (f.bytes.length % 512)

/-- The binary copy, fal.py 258-267: blocks of 512 bytes, the last one filled up. -/
def blocks (b : Bytes) : List Bytes :=
  if b = [] then []
  else
    let d := b.take 512
    (d ++ List.replicate (512 - d.length) 0) :: blocks (b.drop 512)
termination_by b.length
decreasing_by
  cases b with
  | nil => contradiction
  | cons x b => simp only [List.length_drop, List.length_cons]; omega

/-- Text mode of `open`: `\r\n` and `\r` are read as `\n`. -/
def newlines : List Nat → List Nat
  | 13 :: 10 :: s => 10 :: newlines s
  | 13 :: s => 10 :: newlines s
  | c :: s => c :: newlines s
  | [] => []

/-- `for l in f` and `l.rstrip ("\n")`. -/
def lines : List Nat → List (List Nat)
  | [] => []
  | c :: s =>
    if c = 10 then [] :: lines s
    else match lines s with
      | [] => [[c]]
      | h :: t => (c :: h) :: t

/-- `bytes (l, "latin1")`; `none` is `UnicodeEncodeError`. -/
def latin1 (l : List Nat) : Option Bytes :=
  if l.all (· < 256) then some (l.map UInt8.ofNat) else none

/-- The text copy, fal.py 246-256.  The second component says that a line could not be encoded. -/
def records (exp : Bool) : List (List Nat) → List Bytes × Bool
  | [] => ([], false)
  | l :: ls =>
    match latin1 (if exp then l ++ [13, 10] else l) with
    | none => ([], true)
    | some d => (d :: (records exp ls).1, (records exp ls).2)

/-- Is it a text copy, fal.py 243. -/
def isText (a : Option Attr) : Bool :=
  match a with
  | some a => a.rfm == some 2 || a.rfm == some 4
  | none => false

/-- The data messages for a file, and whether the copy ended in an exception. -/
def copy (a : Option Attr) (f : File) : List Bytes × Bool :=
  if isText a then records (!((a.map Attr.cr).getD false)) (lines (newlines f.chars))
  else (blocks f.bytes, false)

/-- `conn.send (...)`, `conn.flush ()`. -/
def say (m : Out) : List Act := [.send m, .flush]

/-- The outcome of a request. -/
structure Res where
  acts : List Act
  fin : End
  rest : List In
  deriving DecidableEq, Repr

def Res.after (pre : List Act) (r : Res) : Res := { r with acts := pre ++ r.acts }

/-- Out of sync, fal.py 207-212. -/
def sync (m : In) (ins : List In) : Res := ⟨say (.status 10 m.typ), .done, ins⟩

/-- After the end of a stream has been confirmed, fal.py 285-299; `k` is the next file. -/
def closing (k : List In → Res) : List In → Res
  | [] => ⟨[], .gone, []⟩
  | .complete c :: ins => if c = 1 then k ins else ⟨say (.status 2 464), .done, ins⟩
  | m :: ins => sync m ins

/-- After the end of the file, fal.py 271-299. -/
def ended (k : List In → Res) : List In → Res
  | [] => ⟨[], .gone, []⟩
  | .complete c :: ins =>
    if c = 4 then (closing k ins).after (say .response ++ [.recv])
    else if c = 1 then k ins
    else ⟨say (.status 2 464), .done, ins⟩
  | m :: ins => sync m ins

/-- After the connection to the file, fal.py 221-270. -/
def reading (a : Option Attr) (f : File) (k : List In → Res) : List In → Res
  | [] => ⟨[], .gone, []⟩
  | .control c r :: ins =>
    if c ≠ 1 then ⟨say (.status 2 272), .done, ins⟩
    else if r ≠ some 3 then ⟨say (.status 2 274), .done, ins⟩
    else
      Res.after ((copy a f).1.map fun d => .send (.data d)) <|
        if (copy a f).2 then ⟨[], .died, ins⟩
        else (ended k ins).after (say (.status 5 39) ++ [.recv])
  | m :: ins => sync m ins

/-- After the file has been described, fal.py 202-219. -/
def offered (a : Option Attr) (f : File) (k : List In → Res) : List In → Res
  | [] => ⟨[], .gone, []⟩
  | .complete c :: ins => if c = 1 then k ins else sync (.complete c) ins
  | .control c _ :: ins =>
    if c ≠ 2 then ⟨say (.status 2 272), .done, ins⟩
    else (reading a f k ins).after (say .ack ++ [.recv])
  | m :: ins => sync m ins

/-- `doget`, the loop over the files, fal.py 192-305. -/
def serve (a : Option Attr) : List File → List In → Res
  | [], ins => ⟨say .response, .done, ins⟩
  | f :: fs, ins =>
    (offered a f (serve a fs) ins).after [.send (about f), .send .ack, .flush, .recv]

/-- A block size is asked for, and it is not 512. -/
def oddBlocks : Option Attr → Bool
  | some ⟨_, _, some n⟩ => n != 512
  | _ => false

/-- `doget`, fal.py 185-305.  A block size other than 512 is answered by `status (...)`, a name that does not
exist: an exception.  After an error there is no `flush`. -/
def doget (a : Option Attr) (w : Found) (ins : List In) : Res :=
  if oddBlocks a then ⟨[], .died, ins⟩
  else match w with
    | .error mac mic => ⟨[.send (.status mac mic)], .done, ins⟩
    | .files l => serve a l ins

/-- `dodir`, fal.py 307-316. -/
def dodir (v7 : Bool) (w : Found) : List Act :=
  (match w with
    | .error mac mic => .send (.status mac mic) :: (if v7 then [.send .ack] else [])
    | .files l => l.flatMap fun f => .send (about f) :: (if v7 then [.send .ack] else [])) ++ say .response

theorem closing_rest {k : List In → Res} (hk : ∀ i, (k i).rest.length ≤ i.length) (ins : List In) :
    (closing k ins).rest.length ≤ ins.length := by
  unfold closing
  split
  · simp
  · rename_i c ins
    split
    · have := hk ins; simp only [List.length_cons]; omega
    · simp
  · simp [sync]

theorem ended_rest {k : List In → Res} (hk : ∀ i, (k i).rest.length ≤ i.length) (ins : List In) :
    (ended k ins).rest.length ≤ ins.length := by
  unfold ended
  split
  · simp
  · rename_i c ins
    split
    · have := closing_rest hk ins; simp only [Res.after, List.length_cons]; omega
    · split
      · have := hk ins; simp only [List.length_cons]; omega
      · simp
  · simp [sync]

theorem reading_rest (a : Option Attr) (f : File) {k : List In → Res}
    (hk : ∀ i, (k i).rest.length ≤ i.length) (ins : List In) :
    (reading a f k ins).rest.length ≤ ins.length := by
  unfold reading
  split
  · simp
  · rename_i c r ins
    split
    · simp
    · split
      · simp
      · simp only [Res.after, List.length_cons]
        split
        · simp
        · have := ended_rest hk ins; simp only []; omega
  · simp [sync]

theorem offered_rest (a : Option Attr) (f : File) {k : List In → Res}
    (hk : ∀ i, (k i).rest.length ≤ i.length) (ins : List In) :
    (offered a f k ins).rest.length ≤ ins.length := by
  unfold offered
  split
  · simp
  · rename_i c ins
    split
    · have := hk ins; simp only [List.length_cons]; omega
    · simp [sync]
  · rename_i c r ins
    split
    · simp
    · have := reading_rest a f hk ins; simp only [Res.after, List.length_cons]; omega
  · simp [sync]

theorem serve_rest (a : Option Attr) (fs : List File) (ins : List In) :
    (serve a fs ins).rest.length ≤ ins.length := by
  induction fs generalizing ins with
  | nil => simp [serve]
  | cons f fs ih => exact offered_rest a f ih ins

theorem doget_rest (a : Option Attr) (w : Found) (ins : List In) :
    (doget a w ins).rest.length ≤ ins.length := by
  unfold doget
  split
  · simp
  · split
    · simp
    · exact serve_rest _ _ _

/-- The loop of `main`, fal.py 339-362; `disk` is what `files` finds. -/
def serveAll (v7 : Bool) (disk : Nat → List Nat → Found) (a : Option Attr) (ins : List In) : List Act × End :=
  match ins with
  | [] => ([.recv], .gone)
  | .attrib b :: ins => let r := serveAll v7 disk (some b) ins; (.recv :: r.1, r.2)
  | .date :: ins => let r := serveAll v7 disk a ins; (.recv :: r.1, r.2)
  | .prot :: ins => let r := serveAll v7 disk a ins; (.recv :: r.1, r.2)
  | .access 6 spec :: ins =>
    let r := serveAll v7 disk a ins
    (.recv :: dodir v7 (disk 6 spec) ++ r.1, r.2)
  | .access 1 spec :: ins =>
    if (doget a (disk 1 spec) ins).fin = .died then (.recv :: (doget a (disk 1 spec) ins).acts, .died)
    else
      let r := serveAll v7 disk a (doget a (disk 1 spec) ins).rest
      (.recv :: (doget a (disk 1 spec) ins).acts ++ r.1, r.2)
  | .access _ _ :: ins => let r := serveAll v7 disk a ins; (.recv :: say (.status 2 208) ++ r.1, r.2)
  | m :: ins => let r := serveAll v7 disk a ins; (.recv :: say (.status 10 m.typ) ++ r.1, r.2)
termination_by ins.length
decreasing_by
  all_goals simp_wf
  all_goals first
    | (have := doget_rest a (disk 1 spec) ins; omega)
    | omega

end Verif.Fal
