import Verif.Ncp.Dict
import Verif.Nml.Req

/-!
# The commands of the network control program

Model of `pydecnet/applications/ncp`: from the tokens of a SHOW, LIST or LOOP command to the bytes of the request, for
listeners of Phase III and later.

Simplifications.  Numbers are decimal digits, addresses of stations hexadecimal digits with hyphens; the other spellings
that Python's `int` takes are errors here.  The entities peculiar to RSX, RSTS and VMS, and Phase II requests, are left
out.  Errors are told apart only as far as their kind is of interest; in no case is anything sent.
-/

namespace Verif.Ncp

open Verif.Nml (Bytes Ent Value PVal)

open Lean in
/-- A keyword as a list of characters. -/
macro:max "k!" s:str : term => do
  let cs : Array (TSyntax `char) := s.getString.toList.toArray.map fun c => Syntax.mkCharLit c
  `(([$[$cs:term],*] : Str))

/-- Exceptions that end a command, applications/ncp 60-74. -/
inductive Err where
  | badkw
  | incomplete
  | extra
  | nested
  | nyi
  | connFail
  /-- Any other, from a value that cannot be taken or encoded. -/
  | other
  /-- A request that is not part of this model. -/
  | unmodelled
  deriving DecidableEq, Repr

/-! ## Entities -/

/-- What the entity dictionaries contain: the one executor, a dictionary of plurals with a code, or a class. -/
inductive EntD where
  | executor
  | plural (code : Int)
  | cls (t : Nat)
  deriving DecidableEq, Repr

/-- `edict2`, applications/ncp 198-203; a class is its `e_type`. -/
def edict2 : I3 Nat :=
  I3.ofList [(k!"nodes", 0), (k!"lines", 1), (k!"logging", 2), (k!"circuits", 3), (k!"modules", 4), (k!"areas", 5)]

/-- `edict`, applications/ncp 205-216. -/
def edict : I3 EntD :=
  I3.ofList [(k!"known", .plural (-1)), (k!"active", .plural (-2)), (k!"loop", .plural (-3)),
    (k!"adjacent", .plural (-4)), (k!"significant", .plural (-5)), (k!"executor", .executor), (k!"node", .cls 0),
    (k!"line", .cls 1), (k!"logging", .cls 2), (k!"circuit", .cls 3), (k!"module", .cls 4), (k!"area", .cls 5)]

/-- `loopedict`, applications/ncp 225-227. -/
def loopedict : I3 EntD := I3.ofList [(k!"node", .cls 0), (k!"line", .cls 1), (k!"circuit", .cls 3)]

/-- `sysspecific`, applications/ncp 194-196: only the keywords. -/
def sysspecific : I3 Unit := I3.ofList [(k!"rsx", ()), (k!"rsts", ()), (k!"vms", ())]

/-- `info`, applications/ncp 230-234. -/
def info : I3 Nat :=
  I3.ofList [(k!"summary", 0), (k!"status", 1), (k!"characteristics", 2), (k!"counters", 3), (k!"events", 4)]

/-- An entity with a name, nicepackets.py 856-863. -/
def nameEnt (s : Str) : Ent := ⟨s.length, .str (s.map Char.toNat)⟩

/-- `NodeReqEntity` from text, nicepackets.py 906-916. -/
def nodeEnt (s : Str) : Ent :=
  match Addr.ofText s with
  | .ok n => ⟨0, .num n.toNat⟩
  | .error _ => nameEnt s

/-- One entity of a class, applications/ncp 561-573. -/
def oneEnt (t : Nat) (tok : Str) : Except Err Ent :=
  if t = 0 then
    match Addr.ofText tok with
    | .ok n => .ok ⟨0, .num n.toNat⟩
    | .error _ => .ok (nodeEnt (upper tok))
  else if t = 5 then
    match Addr.parseNat tok with
    | some n => .ok ⟨0, .num n⟩
    | none => .error .other
  else .ok (nameEnt (upper tok))

/-- The second token of an entity, applications/ncp 555-573. -/
def entArg (x : EntD) (tok : Str) : Except Err (Nat × Ent) :=
  match x with
  | .executor => .ok (0, ⟨0, .num 0⟩)
  | .plural c =>
    match edict2.get tok with
    | none => .error .badkw
    | some t => .ok (t, ⟨c, .none⟩)
  | .cls t => (oneEnt t tok).map fun e => (t, e)

/-- `getent`, applications/ncp 548-573. -/
def getent (d : I3 EntD) : List Str → Except Err ((Nat × Ent) × List Str)
  | [] => .error .incomplete
  | tok :: rest =>
    match d.get tok with
    | none => .error .badkw
    | some .executor => .ok ((0, ⟨0, .num 0⟩), rest)
    | some x =>
      match rest with
      | [] => .error .incomplete
      | tok2 :: rest => (entArg x tok2).map fun e => (e, rest)

/-! ## Parameters -/

/-- Classes of parameters. -/
inductive Kind where
  | du2
  | hi
  | ai
  | strQual
  | nodeQual
  deriving DecidableEq, Repr

/-- Attributes that are set: parameters by their number, and access control information. -/
inductive Fld where
  | par (n : Nat)
  | user
  | password
  | account
  deriving DecidableEq, Repr

/-- Leaves of the tree of keywords. -/
inductive Leaf where
  | value (n : Nat) (f : Fld)
  | arg (k : Kind) (f : Fld)
  deriving DecidableEq, Repr

/-- What a keyword of the tree leads to. -/
inductive Tree where
  | leaf (l : Leaf)
  | dict (d : List (Str × Str × Tree))

/-- A row of the table of parameters: number, words of the description, and the class or the names of values. -/
structure Row where
  num : Nat
  words : List Str
  kind : Kind ⊕ List Str
  deriving DecidableEq, Repr

/-- `loop_params`, nicepackets.py 1038-1043. -/
def loopRows : List Row :=
  [⟨150, [k!"Count"], .inl .du2⟩, ⟨151, [k!"Length"], .inl .du2⟩,
   ⟨152, [k!"With"], .inr [k!"Zeroes", k!"Ones", k!"Mixed"]⟩]

/-- `loop_params` and `loop_circ_params` in order, nicepackets.py 1038-1055, nice_coding.py 560. -/
def loopCircRows : List Row :=
  ⟨10, [k!"Physical", k!"Address"], .inl .hi⟩ :: loopRows ++
    [⟨153, [k!"Assistant", k!"Physical", k!"Address"], .inl .hi⟩,
     ⟨154, [k!"Help"], .inr [k!"Transmit", k!"Receive", k!"Full"]⟩,
     ⟨155, [k!"Node"], .inl .ai⟩, ⟨156, [k!"Assistant", k!"node"], .inl .ai⟩]

/-- Qualifiers for nodes, nicepackets.py 1173-1179. -/
def nodeRows : List Row :=
  [⟨501, [k!"Circuit"], .inl .strQual⟩, ⟨822, [k!"VMS", k!"Circuit"], .inl .strQual⟩]

/-- Qualifier for circuits, nicepackets.py 1202-1204. -/
def circRows : List Row := [⟨800, [k!"Adjacent", k!"node"], .inl .nodeQual⟩]

/-- Qualifiers for modules in order, nicepackets.py 1211-1222, nice_coding.py 560. -/
def modRows : List Row :=
  [⟨100, [k!"Circuit"], .inl .strQual⟩, ⟨120, [k!"Physical", k!"address"], .inl .hi⟩,
   ⟨300, [k!"Destination"], .inl .strQual⟩, ⟨1100, [k!"DTE"], .inl .strQual⟩, ⟨1101, [k!"Group"], .inl .strQual⟩,
   ⟨1110, [k!"Network"], .inl .strQual⟩]

/-- The words that lead to the leaves of a row. -/
def Row.paths (r : Row) : List (List Str × Leaf) :=
  match r.kind with
  | .inl k => [(r.words, .arg k (.par r.num))]
  | .inr vs => vs.zipIdx.map fun v => (r.words ++ [v.1], .value v.2 (.par r.num))

/-- Change of a dictionary that is a value of another. -/
def upd (d : I3 Tree) (w : Str) (t : Tree) : I3 Tree :=
  d.map fun p => if p.1 == (lower w).take 3 then (p.1, p.2.1, t) else p

/-- One leaf entered, applications/ncp 132-162.  That a word of one parameter leads to a dictionary and ends another,
which would be a `TypeError` or hide one of them, does not happen in the tables. -/
def put : List Str → Leaf → I3 Tree → I3 Tree
  | [], _, d => d
  | [w], l, d => d.set w (.leaf l)
  | w :: w2 :: ws, l, d =>
    match I3.get d w with
    | some (.dict d2) => upd d w (.dict (put (w2 :: ws) l d2))
    | some (.leaf _) => d
    | none => I3.set d w (.dict (put (w2 :: ws) l []))

/-- `makeparsetree`, applications/ncp 111-169.  The names of values have one word each in the tables that are used. -/
def makeparsetree (rows : List Row) (extra : List (Str × Leaf)) : I3 Tree :=
  extra.foldl (fun d p => d.set p.1 (.leaf p.2)) ((rows.flatMap Row.paths).foldl (fun d p => put p.1 p.2 d) [])

/-- The additional keywords, applications/ncp 241-242, 245-246. -/
def accessKeys : List (Str × Leaf) :=
  [(k!"user", .arg .ai .user), (k!"password", .arg .ai .password), (k!"account", .arg .ai .account)]

/-- `loopnodeparams`, applications/ncp 240-242. -/
def loopnodeparams : I3 Tree := makeparsetree loopRows accessKeys

/-- `looplineparams`, applications/ncp 243. -/
def looplineparams : I3 Tree := makeparsetree loopRows []

/-- `loopcircparams`, applications/ncp 244. -/
def loopcircparams : I3 Tree := makeparsetree loopCircRows []

/-- `accessparams`, applications/ncp 245-246. -/
def accessparams : I3 Tree := makeparsetree [] accessKeys

/-- One byte in hexadecimal digits. -/
def hexByte (s : Str) : Option UInt8 :=
  match Addr.parseHex s with
  | some n => if n < 256 then some (UInt8.ofNat n) else none
  | none => none

/-- `v.split ("-")`. -/
def splitDash : Str → List Str
  | [] => [[]]
  | c :: s => if c = '-' then [] :: splitDash s else
    match splitDash s with
    | [] => [[c]]
    | w :: ws => (c :: w) :: ws

/-- The bytes of an address, nice_coding.py 301-304. -/
def hexBytes (s : Str) : Option Bytes := (splitDash s).mapM hexByte

/-- A value from a token, `pcls (tok)`, applications/ncp 281-282. -/
def conv (k : Kind) (tok : Str) : Except Err PVal :=
  match k with
  | .du2 => match Addr.parseNat tok with | some n => .ok (.simple (.num .du 2 n)) | none => .error .other
  | .hi => match hexBytes tok with | some b => .ok (.simple (.hi b)) | none => .error .other
  | .ai => .ok (.simple (.ai (tok.map Char.toNat)))
  | .strQual => .ok (.ent (nameEnt tok))
  | .nodeQual => .ok (.ent (nodeEnt tok))

/-- What has been assigned, in order. -/
abbrev Sets := List (Fld × PVal)

/-- `parseargs`, applications/ncp 248-286; `root` tells that `d is pd`. -/
def parseargs (part : Bool) (pd d : I3 Tree) (root : Bool) (toks : List Str) (acc : Sets) :
    Except Err (Sets × List Str) :=
  match toks with
  | [] => if root then .ok (acc, []) else .error .incomplete
  | tok :: rest =>
    match I3.get d tok with
    | none => if part && root then .ok (acc, tok :: rest) else .error .badkw
    | some (.dict d2) => parseargs part pd d2 false rest acc
    | some (.leaf (.value n f)) => parseargs part pd pd true rest (acc ++ [(f, .simple (.num .c 1 n))])
    | some (.leaf (.arg k f)) =>
      match rest with
      | [] => .error .incomplete
      | v :: rest =>
        match conv k v with
        | .error e => .error e
        | .ok x => parseargs part pd pd true rest (acc ++ [(f, x)])
termination_by toks.length

/-! ## Encoding -/

/-- `bytes (s, "latin1")`. -/
def latin (s : List Nat) : Option Bytes :=
  if s.all (· < 256) then some (s.map UInt8.ofNat) else none

/-- A count and the bytes, if there are no more than `n`. -/
def counted (n : Nat) (s : List Nat) : Option Bytes :=
  match latin s with
  | some b => if b.length ≤ n then some (UInt8.ofNat b.length :: b) else none
  | none => none

/-- `ReqEntityBase.encode`, nicepackets.py 884-893. -/
def encName (e : Ent) : Option Bytes :=
  if e.code < 0 then some [UInt8.ofNat (e.code % 256).toNat]
  else match e.value with
    | .str s => counted 127 s
    | _ => none

/-- `NodeReqEntity.encode`, nicepackets.py 935-938. -/
def encNode (e : Ent) : Option Bytes :=
  if e.code = 0 then
    match e.value with
    | .num n => if n < 65536 then some [0, UInt8.ofNat (n % 256), UInt8.ofNat (n / 256)] else none
    | _ => none
  else encName e

/-- `AreaReqEntity.encode`, nicepackets.py 972-977. -/
def encArea (e : Ent) : Option Bytes :=
  if e.code = 0 then
    match e.value with
    | .num n => if n < 256 then some [0, UInt8.ofNat n] else none
    | _ => none
  else if e.code > 0 then none
  else encName e

/-- The entity of a request. -/
def encEnt (t : Nat) (e : Ent) : Option Bytes :=
  if t = 0 then encNode e else if t = 5 then encArea e else encName e

/-- The value of a parameter without its type, nicepackets.py 1019-1025, nice_coding.py 231-235, 285-287, 309-310,
669-675. -/
def encPar (k : Kind ⊕ List Str) (v : PVal) : Option Bytes :=
  match k, v with
  | .inl .du2, .simple (.num _ _ n) =>
    if n < 65536 then some [UInt8.ofNat (n % 256).toNat, UInt8.ofNat (n / 256).toNat] else none
  | .inr _, .simple (.num _ _ n) => if n < 256 then some [UInt8.ofNat n.toNat] else none
  | .inl .hi, .simple (.hi b) => if b.length ≤ 255 then some (UInt8.ofNat b.length :: b) else none
  | .inl .ai, .simple (.ai s) => counted 255 s
  | .inl .strQual, .ent e => encName e
  | .inl .nodeQual, .ent e => encNode e
  | _, _ => none

/-- `getattr (pkt, fn, None)`: the last assignment counts. -/
def attr (acc : Sets) (f : Fld) : Option PVal := (acc.reverse.find? fun p => p.1 == f).map (·.2)

/-- `NICE.encode` for a request, nice_coding.py 660-675. -/
def encNice (rows : List Row) (acc : Sets) : Option Bytes :=
  match rows with
  | [] => some []
  | r :: rows =>
    match attr acc (.par r.num) with
    | none => encNice rows acc
    | some v =>
      match encPar r.kind v, encNice rows acc with
      | some b, some m => some (UInt8.ofNat (r.num % 256) :: UInt8.ofNat (r.num / 256) :: (b ++ m))
      | _, _ => none

/-- The bytes of a request, `req.encode ()`. -/
def encode (fn opt t : Nat) (e : Ent) (rows : List Row) (acc : Sets) : Except Err Bytes :=
  match encEnt t e, encNice rows acc with
  | some d, some p => .ok (UInt8.ofNat fn :: UInt8.ofNat opt :: (d ++ p))
  | _, _ => .error .other

/-! ## Commands -/

/-- The parameters of the class of a read request; none if it has no NICE data, nicepackets.py 1168-1230. -/
def readRows (t : Nat) : Option (List Row) :=
  if t = 0 then some nodeRows else if t = 3 then some circRows else if t = 4 then some modRows else none

/-- A kind of information directly after the entity, applications/ncp 401-409. -/
def firstInfo : List Str → Option Nat × List Str
  | [] => (some 0, [])
  | tok :: rest =>
    match info.get tok with
    | some i => (some i, rest)
    | none => (none, tok :: rest)

/-- The qualifiers, applications/ncp 411-413; `makeparsetree` raises for a class without NICE data. -/
def quals (t : Nat) (rest : List Str) : Except Err (Sets × List Str) :=
  if rest = [] then .ok ([], [])
  else
    match readRows t with
    | none => .error .incomplete
    | some rows => parseargs true (makeparsetree rows []) (makeparsetree rows []) true rest []

/-- A kind of information after the qualifiers, applications/ncp 414-426. -/
def lastInfo (what : Option Nat) : List Str → Except Err Nat
  | [] => .ok (what.getD 0)
  | tok :: rest =>
    if what.isSome then .error .extra
    else if rest ≠ [] then .error .extra
    else
      match info.get tok with
      | some i => .ok i
      | none => .error .badkw

/-- The request of SHOW (`perm` false) and LIST for a listener of Phase III or later, applications/ncp 392-430. -/
def showReq (perm : Bool) (toks : List Str) : Except Err Bytes :=
  match toks with
  | [] => .error .other
  | tok :: _ =>
    if sysspecific.contains tok then .error .unmodelled
    else
      match getent edict toks with
      | .error x => .error x
      | .ok ((t, e), rest) =>
        match quals t (firstInfo rest).2 with
        | .error x => .error x
        | .ok (acc, rest2) =>
          match lastInfo (firstInfo rest).1 rest2 with
          | .error x => .error x
          | .ok i => encode 20 (t + 16 * i + if perm then 128 else 0) t e ((readRows t).getD []) acc

/-- Parameters and keywords for LOOP, `loopindex`, applications/ncp 239-244. -/
def loopindex (t : Nat) : List Row × I3 Tree :=
  if t = 0 then (loopRows, loopnodeparams) else if t = 1 then (loopRows, looplineparams)
  else (loopCircRows, loopcircparams)

/-- The request of LOOP, applications/ncp 512-519.  The class for nodes is the one without access control information:
that is assigned but is not part of its layout (nicepackets.py 1076-1080). -/
def loopReq (toks : List Str) : Except Err Bytes :=
  match getent loopedict toks with
  | .error x => .error x
  | .ok ((t, e), rest) =>
    match parseargs false (loopindex t).2 (loopindex t).2 true rest [] with
    | .error x => .error x
    | .ok (acc, _) => encode 18 t t e (loopindex t).1 acc

end Verif.Ncp
