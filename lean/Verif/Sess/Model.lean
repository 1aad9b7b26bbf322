import Verif.Fields.Model

/-!
# Session control: the connect message and access control

Model of `pydecnet/decnet/session.py`: the packet classes `EndUser` and `SessionConnInit`, and the
treatment of an incoming connect message in `Session.dispatch`.

A Python `str` is the list of its code points.  The exceptions of the codecs are those of
`Verif.Fields`.
-/

namespace Verif.Sess

open Verif.Fields

/-! ## End user descriptors -/

/-- session.py 112-164: `EndUser0` (object number), `EndUser1` (name), `EndUser2` (group, user and
name).  The fixed attributes (`num = 0` in formats 1 and 2, empty name in format 0) are functions
below. -/
inductive EndUser
  | num (n : Nat)
  | name (s : List Nat)
  | full (group user : Nat) (s : List Nat)
deriving DecidableEq, Repr

/-- The `num` attribute: 0 in formats 1 and 2 (session.py 135, 151). -/
def EndUser.objNum : EndUser → Nat
  | .num n => n
  | _ => 0

/-- The `name` attribute: empty in format 0 (session.py 120). -/
def EndUser.objName : EndUser → List Nat
  | .num _ => []
  | .name s => s
  | .full _ _ s => s

/-- session.py 112-116, 134-138, 149-154 with `Packet.encode` (packet.py 1006-1027): the common rows
`fmt`, `num`, then the rows of the class. -/
def EndUser.encode : EndUser → Except Err Bytes
  | .num n => do
    let b ← bEnc 1 n
    return 0 :: b
  | .name s => do
    let b ← aEnc 16 s
    return 1 :: 0 :: b
  | .full g u s => do
    let bg ← bEnc 2 g
    let bu ← bEnc 2 u
    let b ← aEnc 16 s
    return 2 :: 0 :: (bg ++ bu ++ b)

/-- session.py 112-164 with `IndexedPacket.decode` (packet.py 1141-1160) and `Packet.decode_data`
(1048-1064): the first byte selects the class (an index above 2 is a `DecodeError`); `num` is a
fixed 0 in formats 1 and 2 (`ROField`, `WrongValue`); `check` requires a nonzero number or a
nonempty name.  `fmt` is the class index, so any value may be assigned. -/
def EndUser.decode (buf : Bytes) : Except Err (EndUser × Bytes) := do
  require buf 1
  let fmt := fromLe (buf.take 1)
  let (n, buf) ← bDec 1 (buf.drop 1)
  if fmt = 0 then
    if n = 0 then .error .other else return (.num n.toNat, buf)
  else if fmt = 1 then
    if n ≠ 0 then .error .wrongValue
    else do
      let (s, buf) ← aDec 16 buf
      if s = [] then .error .other else return (.name s, buf)
  else if fmt = 2 then
    if n ≠ 0 then .error .wrongValue
    else do
      let (g, buf) ← bDec 2 buf
      let (u, buf) ← bDec 2 buf
      let (s, buf) ← aDec 16 buf
      if s = [] then .error .other else return (.full g.toNat u.toNat s, buf)
  else .error .other

/-! ## The connect message -/

/-- session.py 168-181 `SessionConnInit`: the attributes.  `auth`, `userdata` and `payload` are
computed by `encode` and consumed by `check`; `mbz2` is fixed. -/
structure ConnInit where
  dst : EndUser
  src : EndUser
  proxy : Nat
  proxyUic : Nat
  reserved : Nat
  scver : Nat
  user : List Nat
  password : List Nat
  account : List Nat
  data : Bytes
deriving DecidableEq, Repr

/-- session.py 172-180: the bit map row.  `BM.encode` (packet.py 280-299) raises `FieldOverflow` for
a value that does not fit; `mbz2` is 0. -/
def flagsEnc (auth userdata proxy uic reserved scver : Nat) : Except Err Bytes :=
  if auth < 2 ∧ userdata < 2 ∧ proxy < 2 ∧ uic < 2 ∧ reserved < 2 ∧ scver < 4 then
    .ok [UInt8.ofNat (auth + 2 * userdata + 4 * proxy + 8 * uic + 16 * reserved + 32 * scver)]
  else .error .fieldOverflow

/-- session.py 192-197: the access control strings are sent if any of the three is nonempty.
Result: `auth` and the bytes. -/
def authPart (m : ConnInit) : Except Err (Nat × Bytes) :=
  if m.user ≠ [] ∨ m.password ≠ [] ∨ m.account ≠ [] then do
    let r ← aEnc 39 m.user
    let p ← aEnc 39 m.password
    let a ← aEnc 39 m.account
    return (1, r ++ p ++ a)
  else .ok (0, [])

/-- session.py 198-201: user data is sent if nonempty.  Result: `userdata` and the bytes. -/
def dataPart (m : ConnInit) : Except Err (Nat × Bytes) :=
  if m.data ≠ [] then do
    let d ← iEnc 16 m.data
    return (1, d)
  else .ok (0, [])

/-- session.py 186-203 `SessionConnInit.encode`. -/
def ConnInit.encode (m : ConnInit) : Except Err Bytes := do
  let au ← authPart m
  let ud ← dataPart m
  let d ← m.dst.encode
  let s ← m.src.encode
  let f ← flagsEnc au.1 ud.1 m.proxy m.proxyUic m.reserved m.scver
  return d ++ s ++ f ++ (au.2 ++ ud.2)

/-- session.py 211-215: the access control strings, if `auth` is set. -/
def checkAuth (auth : Nat) (buf : Bytes) :
    Except Err (List Nat × List Nat × List Nat × Bytes) :=
  if auth ≠ 0 then do
    let (r, buf) ← aDec 39 buf
    let (p, buf) ← aDec 39 buf
    let (a, buf) ← aDec 39 buf
    return (r, p, a, buf)
  else .ok ([], [], [], buf)

/-- session.py 216-217: the user data, if `userdata` is set.  Left over data is only logged
(218-219). -/
def checkData (userdata : Nat) (buf : Bytes) : Except Err Bytes :=
  if userdata ≠ 0 then (iDec 16 buf).map Prod.fst else .ok []

/-- session.py 203-222 `SessionConnInit.check`: access control strings and user data from the
payload. -/
def checkOpt (auth userdata : Nat) (buf : Bytes) :
    Except Err (List Nat × List Nat × List Nat × Bytes) :=
  if buf ≠ [] then do
    let x ← checkAuth auth buf
    let d ← checkData userdata x.2.2.2
    return (x.1, x.2.1, x.2.2.1, d)
  else if auth ≠ 0 ∨ userdata ≠ 0 then .error .missingData
  else .ok ([], [], [], [])

/-- session.py 168-222, `SessionConnInit (buf)` for a nonempty buffer: the rows in order, the bit
map with its fixed top bit, then `check`. -/
def ConnInit.decode (buf : Bytes) : Except Err ConnInit := do
  let (d, buf) ← EndUser.decode buf
  let (s, buf) ← EndUser.decode buf
  require buf 1
  let f := fromLe (buf.take 1)
  let buf := buf.drop 1
  if f / 128 ≠ 0 then .error .wrongValue
  else do
    let (r, p, a, data) ← checkOpt (f % 2) (f / 2 % 2) buf
    return ⟨d, s, f / 4 % 2, f / 8 % 2, f / 16 % 2, f / 32 % 4, r, p, a, data⟩

/-! ## Access control -/

/-- The `auth` attribute of an object (session.py 224-240): "off", "login", or any other text (the
configuration allows "on"; the API passes any). -/
inductive Auth
  | off | login | other
deriving DecidableEq, Repr

/-- An entry of the object tables (session.py 224-258, 287-352).  `uid` is `None` or a number, `root`
the home directory; `app` identifies the application.  An object with `auth` other than "off" only
exists if the `pam` module is there (session.py 228-229). -/
structure Obj (A : Type) where
  app : A
  auth : Auth
  uid : Option Nat
  gid : Nat
  root : Option (List Nat)
deriving DecidableEq, Repr

/-- A `pwd` entry: `pw_uid`, `pw_gid`, `pw_dir`. -/
structure Pw where
  uid : Nat
  gid : Nat
  dir : List Nat
deriving DecidableEq, Repr

/-- What the node relies on: the object tables, the host's user database and authenticator, and
Python's case conversions of `str`. -/
structure Env (A : Type) where
  objNum : Nat → Option (Obj A)
  objName : List Nat → Option (Obj A)
  getpw : List Nat → Option Pw
  pam : List Nat → List Nat → Bool
  lower : List Nat → List Nat
  upper : List Nat → List Nat

/-- What the application is started with: the `pw` dictionary (session.py 573-612, 644-649) and the
connect data.  The `destination` entry (the remote node) is left out, `password` only says whether
one was supplied. -/
structure Start (A : Type) where
  app : A
  uid : Option Nat
  gid : Nat
  root : Option (List Nat)
  username : Option (List Nat)
  password : Bool
  account : Option (List Nat)
  src : EndUser
  dst : EndUser
  data : Bytes
deriving DecidableEq, Repr

/-- session.py 40-49: the reasons used here. -/
def noObj : Nat := 4
def badFmt : Nat := 5
def badAuth : Nat := 34

/-- The outcome of a connect message: an exception that leaves `dispatch` (and stops the node),
`nspconn.reject (reason)`, or the application is started. -/
inductive Outcome (A : Type)
  | raised
  | rejected (reason : Nat)
  | started (s : Start A)
deriving DecidableEq, Repr

/-- session.py 566-571: look up the object by number or by name in upper case. -/
def findObj {A : Type} (env : Env A) (d : EndUser) : Option (Obj A) :=
  if d.objNum ≠ 0 then env.objNum d.objNum else env.objName (env.upper d.objName)

/-- session.py 613-650: the access check.  Result: `ok` and the `uid`, `gid`, `root` entries. -/
def authenticate {A : Type} (env : Env A) (o : Obj A) (m : ConnInit) :
    Bool × Option Nat × Nat × Option (List Nat) :=
  if m.user = [] ∨ m.password = [] then
    -- `if sesobj.auth == "login" and sesobj.uid`: a uid of 0 does not count
    (o.auth == .login && decide (o.uid ≠ none ∧ o.uid ≠ some 0), o.uid, o.gid, o.root)
  else if o.auth = .login then
    match env.getpw (env.lower m.user) with
    | none => (false, o.uid, o.gid, o.root)
    | some pw =>
      (env.pam (env.lower m.user) m.password, some pw.uid, pw.gid, some pw.dir)
  else (env.pam (env.lower m.user) m.password, o.uid, o.gid, o.root)

/-- An optional entry of the dictionary (session.py 651-656). -/
def entry (s : List Nat) : Option (List Nat) := if s = [] then none else some s

/-- session.py 542-676, an incoming connect message with connect data `payload`, up to the creation
of the connection object; the event of a rejected access is left out.

`SessionConnInit (pkt.payload)` with an empty payload decodes nothing and makes an object without
attributes (packet.py 968-982), so that `spkt.dstname` raises `AttributeError`, which is not
caught. -/
def incoming {A : Type} (env : Env A) (payload : Bytes) : Outcome A :=
  if payload = [] then .raised
  else
    match ConnInit.decode payload with
    | .error _ => .rejected badFmt
    | .ok m =>
      match findObj env m.dst with
      | none => .rejected noObj
      | some o =>
        if o.auth = .off then
          .started ⟨o.app, o.uid, o.gid, o.root, none, false, none, m.src, m.dst, m.data⟩
        else
          let r := authenticate env o m
          if r.1 then
            .started ⟨o.app, r.2.1, r.2.2.1, r.2.2.2, entry m.user, m.password ≠ [], entry m.account,
              m.src, m.dst, m.data⟩
          else .rejected badAuth

end Verif.Sess
