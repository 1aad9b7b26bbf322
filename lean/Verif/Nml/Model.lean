import Verif.Nml.Req

/-!
# Model of the network management listener, `decnet/modules/nml.py`

One instance serves one management connection.

Simplifications: what the layers of the node answer to a read request (`node.nice_read`), the outcome of
`connect`, and the answers of `node.nodeinfo` and of the loop handler of a circuit are the environment's
choice; an entity record is a number; optional message texts of replies are left out; encoding of a reply
does not raise; calls on an open connection do not raise.  An exception in `dispatch` makes the
connector abort every connection of the instance (session.py 752-770): output `crash`, after which
nothing is delivered to the instance.
-/

namespace Verif.Nml

open Verif.Nice (Simple)

/-- What is sent on the management connection.  `detail` that was not set is encoded as zero. -/
inductive Reply
  | status (code : Int) (detail : Nat)
  /-- A record of an entity. -/
  | ent (code : Int) (e : Nat)
  /-- `P2NiceReply1`. -/
  | old (code : Int)
  /-- `P2NiceReply3`. -/
  | count (n : Nat)
  /-- A record in Phase II form. -/
  | oldEnt (e : Nat)
  | loopOk (addr : Option Bytes)
  | loopErr (code : Int) (detail : Nat) (notlooped : Nat)
deriving DecidableEq, Repr

/-- Connections: that of the management client, and those made for loop tests. -/
inductive Conn
  | nice
  | loop (n : Nat)
deriving DecidableEq, Repr

inductive Out
  | reply (r : Reply)
  | accept (data : Bytes)
  | connect (dest : Value) (user pass acct : Str)
  | send (c : Nat) (b : Bytes)
  | disconnect (c : Nat)
  | abort (c : Nat)
  /-- Request to the loop handler of a circuit: destinations, count, payload. -/
  | looper (dest : List Bytes) (count : Nat) (payload : Bytes)
  | crash
deriving DecidableEq, Repr

/-- One value of the reply dictionary: a record or a list of records. -/
inductive Entry
  | one (e : Nat)
  | many (es : List Nat)
deriving DecidableEq, Repr

/-- Result of `node.nice_read`: an error code, or the entries in order of `sorted`, each with the answer of
`match` to it. -/
inductive Read
  | code (c : Int)
  | items (l : List (Bool × Entry))
  | raises
deriving DecidableEq, Repr

inductive Connect
  | ok (n : Nat)
  | unknown
  | raises
deriving DecidableEq, Repr

/-- Return value of the loop handler. -/
inductive Looper
  /-- The answer comes later. -/
  | started
  | tooLong (limit : Nat)
  | failed
deriving DecidableEq, Repr

structure Env where
  read : Read
  connect : Connect
  /-- Is there a MOP circuit of this name? -/
  circuit : Str → Bool
  /-- LAN address of a node; `none` if `nodeinfo` raises. -/
  nodeMac : Str → Option Bytes
  looper : Looper

structure St where
  /-- `self.niceconnection` is set and not disconnected. -/
  nice : Bool
  phase2 : Bool
  loopConn : Option Nat
  count : Nat
  data : Bytes
  dead : Bool
deriving DecidableEq, Repr

def init : St := ⟨false, false, none, 0, [], false⟩

/-- `sendreply` for each: `WrongState` if the connection is gone. -/
def replies (st : St) (rs : List Reply) : List Out :=
  if st.nice then rs.map .reply else if rs = [] then [] else [.crash]

/-! ## Reading -/

/-- The value of an item, `v for k, v in resp.sorted (req)`: only those that match, which is asked for
nodes alone and is true unless the request is a wildcard (nicepackets.py 352-366, 945-948). -/
def selected (e : Ent) (l : List (Bool × Entry)) : List Entry :=
  if e.code < -5 then (l.filter (·.1)).map (·.2) else l.map (·.2)

/-- Replies of one entry, modules/nml.py 196-205. -/
def entryReplies : Entry → List Reply
  | .one e => [.ent 1 e]
  | .many [] => []
  | .many (e :: es) => ((e :: es).dropLast.map (.ent 3)) ++ [.ent 1 ((e :: es).getLast (by simp))]

/-- Phase II replies of one entry; a list would not have an encoding, and does not occur. -/
def oldReply : Entry → Reply
  | .one e => .oldEnt e
  | .many _ => .oldEnt 0

/-- The answer to a list of entries, modules/nml.py 172-209. -/
def listReplies (phase2 : Bool) (l : List Entry) : List Reply :=
  if phase2 then .count l.length :: l.map oldReply
  else match l with
    | [.one e] => [.ent 1 e]
    | [.many [e]] => [.ent 1 e]
    | _ => .status 2 0 :: l.flatMap entryReplies ++ [.status (-128) 0]

/-- An error code, modules/nml.py 161-171. -/
def codeReply (phase2 : Bool) (c : Int) : Reply :=
  if phase2 then .old c else .status c 0xffff

/-- Result of a read request with an entity, modules/nml.py 145-209. -/
def readReplies (st : St) (r : Read) (e : Ent) : Option (List Reply) :=
  match r with
  | .raises => none
  | .code c => some [codeReply st.phase2 c]
  | .items l =>
    if l = [] ∧ 0 ≤ e.code then some [codeReply st.phase2 (-8)]
    else some (listReplies st.phase2 (selected e l))

/-- The same for a Phase II request.  Those have no method `mult` (nicepackets.py 1921-1943), so that an empty
result raises `AttributeError` (modules/nml.py 156). -/
def readOldReplies (st : St) (r : Read) : Option (List Reply) :=
  match r with
  | .raises => none
  | .code c => some [codeReply st.phase2 c]
  | .items l => if l = [] then none else some (listReplies st.phase2 (l.map (·.2)))

/-- Send them, or fail. -/
def answer (st : St) : Option (List Reply) → List Out
  | none => [.crash]
  | some rs => replies st rs

/-! ## Loop requests -/

/-- The parameter with this number given last, if it is a number. -/
def number (ps : List (Nat × PVal)) (p : Nat) : Option Nat :=
  match (ps.filter (·.1 = p)).getLast? with
  | some (_, .simple (.num _ _ v)) => some v.toNat
  | _ => none

/-- A string of bytes (`HI`); an empty one counts as none. -/
def address (ps : List (Nat × PVal)) (p : Nat) : Option Bytes :=
  match (ps.filter (·.1 = p)).getLast? with
  | some (_, .simple (.hi b)) => if b = [] then none else some b
  | _ => none

/-- A text (`AI`); an empty one counts as none. -/
def name (ps : List (Nat × PVal)) (p : Nat) : Option Str :=
  match (ps.filter (·.1 = p)).getLast? with
  | some (_, .simple (.ai s)) => if s = [] then none else some s
  | _ => none

/-- The byte to be sent, modules/nml.py 244-252. -/
def filler (w : Nat) : Option UInt8 :=
  if w = 0 then some 0 else if w = 1 then some 0xff else if w = 2 then some 0x55 else none

/-- The wrong argument, if any: the last test counts (modules/nml.py 244-257, 371-382). -/
def badArg (first : Option Nat) (w l limit count : Nat) : Option Nat :=
  if count < 1 then some 150
  else if l < 1 ∨ limit < l then some 151
  else if filler w = none then some 152
  else first

/-- `loop_request` for a node, modules/nml.py 238-280. -/
def loopNode (env : Env) (st : St) (e : Ent) (u p a : Str) (ps : List (Nat × PVal)) : St × List Out :=
  let w := (number ps 152).getD 2
  let l := (number ps 151).getD 128
  let count := (number ps 150).getD 1
  let st := { st with count := count }
  match badArg none w l 65535 count with
  | some b => (st, replies st [.loopErr (-16) b count])
  | none =>
    let st := { st with data := List.replicate l ((filler w).getD 0) }
    match env.connect with
    | .ok n => ({ st with loopConn := some n }, [.connect e.value u p a])
    | .unknown => (st, .connect e.value u p a :: replies st [.loopErr (-21) 2 count])
    | .raises => (st, [.connect e.value u p a, .crash])

/-- `Macaddr (bytes)`: six bytes, or `ValueError`. -/
def mac (b : Bytes) : Option Bytes := if b.length = 6 then some b else none

/-- `ismulti`. -/
def multi (b : Bytes) : Bool := (b.headD 0).toNat % 2 = 1

/-- An address or a node, modules/nml.py 374-380: `none` is an exception. -/
def target (env : Env) (ps : List (Nat × PVal)) (pa node : Nat) : Option (Option Bytes) :=
  match address ps pa with
  | some b => (mac b).map some
  | none => match name ps node with
    | some n => (env.nodeMac n).map some
    | none => some none

/-- The wrong argument among those of an assisted loop, modules/nml.py 355-376: the tests of the address,
the assistant and the kind of help, of which the last counts. -/
def badHelp (to helper : Option Bytes) (given : Bool) (help : Option Nat) : Option Nat :=
  match help with
  | none => none
  | some h =>
    if 2 < h then some 154
    else match helper with
      | none => some 153
      | some m => if given && multi m then some 153 else if to = none then some 10 else none

/-- The stations on the way, modules/nml.py 395-402. -/
def route (to helper : Option Bytes) (help : Option Nat) : List Bytes :=
  (if help = some 0 ∨ help = some 2 then helper.toList else []) ++ to.toList ++
    (if help = some 1 ∨ help = some 2 then helper.toList else [])

/-- Is the entity a circuit that MOP has? -/
def hasCircuit (env : Env) (e : Ent) : Bool :=
  match e.value with
  | .str s => env.circuit s
  | _ => false

/-- `loop_circuit`, modules/nml.py 355-451. -/
def loopCircuit (env : Env) (st : St) (e : Ent) (ps : List (Nat × PVal)) : St × List Out :=
  if hasCircuit env e = false then
    (st, replies st [.loopErr (-8) 3 0])
  else
    let w := (number ps 152).getD 2
    let l := (number ps 151).getD 128
    let count := (number ps 150).getD 1
    let st := { st with count := count }
    match target env ps 10 155 with
    | none => (st, [.crash])
    | some to =>
      let help := number ps 154
      match (if help = none then some none else target env ps 153 156) with
      | none => (st, [.crash])
      | some helper =>
        match badArg (badHelp to helper (address ps 153).isSome help) w l 1490 count with
        | some b => (st, replies st [.loopErr (-16) b count])
        | none =>
          let out := .looper (route to helper help) count (List.replicate l ((filler w).getD 0))
          match env.looper with
          | .started => (st, [out])
          | .tooLong lim => (st, out :: replies st [.loopErr (-16) 151 lim])
          | .failed => (st, out :: replies st [.loopErr (-25) 0 count])

/-! ## The connection to the mirror -/

inductive Item
  | data (b : Bytes)
  | connectInit (b : Bytes)
  | accept (b : Bytes)
  | reject (reason : Nat)
  | disconnect
  | interrupt (b : Bytes)
deriving DecidableEq, Repr

/-- `ses2mirror`, modules/nml.py 25-34 with session.py 39-52. -/
def reason (r : Nat) : Nat :=
  if r = 0 then 5 else if r = 4 then 7 else if r = 5 then 6 else if r = 34 then 8 else if r = 36 then 8
  else if r = 38 then 12 else if r = 39 then 3 else if r = 43 then 8 else 0

/-- `loop_work`, modules/nml.py 289-353, for the connection `c`. -/
def loopWork (st : St) (c : Nat) : Item → St × List Out
  | .data [] => (st, [.crash])
  | .data (f :: b) =>
    if f = 1 ∧ b = st.data then
      let st := { st with count := st.count - 1 }
      if st.count < 1 then
        let st := { st with loopConn := none }
        (st, .disconnect c :: replies st [.loopOk none])
      else (st, [.send c (0 :: st.data)])
    else
      let st := { st with loopConn := none }
      (st, .abort c :: replies st [.loopErr (-28) 0 st.count])
  | .accept b =>
    if Fields.fromLe (b.take 2) < st.data.length + 1 then
      let st := { st with loopConn := none }
      (st, .abort c :: replies st [.loopErr (-16) 151 st.count])
    else (st, [.send c (0 :: st.data)])
  | .reject r =>
    let st := { st with loopConn := none }
    (st, replies st [.loopErr (-21) (reason r) st.count])
  | _ =>
    let st := { st with loopConn := none }
    (st, .abort c :: replies st [.loopErr (-19) 0 st.count])

/-! ## Dispatch -/

/-- A message taken as a request, modules/nml.py 88-209. -/
def request (env : Env) (st : St) (msg : Bytes) : St × List Out :=
  match parse msg with
  | .error .other => (st, [.crash])
  | .error .decode => (st, replies st [.status (-1) 0])
  | .ok .unsupported => (st, replies st [.status (-1) 0])
  | .ok (.zero _ _) => (st, replies st [.status (-3) 0])
  | .ok (.readOld _) =>
    if st.phase2 then (st, answer st (readOldReplies st env.read))
    else (st, replies st [.old (-1)])
  | .ok (.read _ _ permanent e) =>
    if st.phase2 then (st, replies st [.status (-1) 0xffff])
    else if permanent then (st, replies st [codeReply st.phase2 (-1)])
    else (st, answer st (readReplies st env.read e))
  | .ok (.loopNode e u p a ps) =>
    if st.phase2 then (st, replies st [.status (-1) 0]) else loopNode env st e u p a ps
  | .ok .loopLine =>
    if st.phase2 then (st, replies st [.status (-1) 0]) else (st, replies st [.loopErr (-1) 0 0])
  | .ok (.loopCircuit e ps) =>
    if st.phase2 then (st, replies st [.status (-1) 0]) else loopCircuit env st e ps

/-- The other half of `dispatch`, modules/nml.py 87-232. -/
def niceWork (env : Env) (st : St) (c : Conn) : Item → St × List Out
  | .data b => request env st b
  | .connectInit b =>
    if b.take 3 = [] then ({ st with phase2 := true, nice := true }, [.accept []])
    else ({ st with phase2 := false, nice := true }, [.accept [4, 0, 0]])
  | .disconnect => (if c = .nice then { st with nice := false } else st, [])
  | _ => (st, [])

/-- What happens. -/
inductive Ev
  | item (c : Conn) (i : Item)
  /-- `mop_loop_done` with the number not looped or the address of the station. -/
  | done (r : Nat ⊕ Bytes)
deriving DecidableEq, Repr

/-- `dispatch`, modules/nml.py 86-234, and `mop_loop_done`, 426-445. -/
def act (env : Env) (st : St) : Ev → St × List Out
  | .item (.loop n) i => if st.loopConn = some n then loopWork st n i else niceWork env st (.loop n) i
  | .item .nice i => niceWork env st .nice i
  | .done r => (st, if st.nice then [.reply (match r with
      | .inl n => .loopErr (-25) 0 n
      | .inr a => .loopOk (some a))] else [])

/-- A step; nothing is delivered after a crash. -/
def step (env : Env) (st : St) (ev : Ev) : St × List Out :=
  if st.dead then (st, [])
  else
    let r := act env st ev
    ({ r.1 with dead := decide (Out.crash ∈ r.2) }, r.2)

structure Rec where
  env : Env
  ev : Ev
  outs : List Out

/-- The histories of an instance. -/
inductive Run : List Rec → St → Prop
  | init : Run [] init
  | step {h st env ev} : Run h st → Run (h ++ [⟨env, ev, (step env st ev).2⟩]) (step env st ev).1

end Verif.Nml
