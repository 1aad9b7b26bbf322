/-!
# The monitor's HTTP server: `decnet/http.py`

Requests with method GET, from the parsed address to the answer; the pages
themselves are arbitrary.  Left out: start of the server, TLS, headers, the
text of pages (`Html`) and how the address is taken apart (`urllib.parse`).
-/

namespace Verif.Http

/-- A component of a path. -/
abbrev Comp := List Char

abbrev Bytes := List UInt8

/-- `str.split ("/")`, http.py:131. -/
def split : List Char → List Comp
  | [] => [[]]
  | c :: r =>
    if c = '/' then [] :: split r
    else match split r with
      | [] => [[c]]
      | a :: q => (c :: a) :: q

/-! ## `os.path.realpath` (http.py:131)

The Python library, posixpath.py: `realpath`, `_joinrealpath`, `normpath`. -/

/-- One step of `normpath` on an absolute path. -/
def push (path : List Comp) (c : Comp) : List Comp :=
  if c = [] ∨ c = ['.'] then path
  else if c = ['.', '.'] then path.dropLast
  else path ++ [c]

/-- The server's file system: what a symbolic link contains, the contents of
files that can be read, the current directory; and how many links are followed
(the library has no such limit, but notices loops; then it stops in the same
way). -/
structure Fs where
  link : List Comp → Option (List Char)
  read : List Comp → Option Bytes
  cwd : List Comp
  fuel : Nat

/-- `_joinrealpath` of the library, used by http.py:131: up to the next link,
with which `k` goes on (it gets the directory, the name of the link, what is in
it, and the rest).  `none` is ValueError: a null character. -/
def walkRest (link : List Comp → Option (List Char))
    (k : List Comp → Comp → List Char → List Comp → Option (List Comp)) :
    List Comp → List Comp → Option (List Comp)
  | path, [] => some path
  | path, c :: r =>
    if c = [] ∨ c = ['.'] then walkRest link k path r
    else if c = ['.', '.'] then walkRest link k path.dropLast r
    else if Char.ofNat 0 ∈ c then none
    else match link (path ++ [c]) with
      | none => walkRest link k (path ++ [c]) r
      | some t => k path c t r

/-- The same with links.  A relative path is taken from the current directory
at once (the library does so at the end, to the same effect; http.py:131). -/
def walk (link : List Comp → Option (List Char)) : Nat → List Comp → List Comp → Option (List Comp)
  | 0 => walkRest link fun path c _ r => some ((c :: r).foldl push path)
  | f + 1 => walkRest link fun path _ t r =>
      walk link f (if t.head? = some '/' then [] else path) (split t ++ r)

/-- http.py:131, `os.path.realpath (p.path)`: the components. -/
def Fs.realpath (fs : Fs) (p : List Char) : Option (List Comp) :=
  walk fs.link fs.fuel (if p.head? = some '/' then [] else fs.cwd) (split p)

/-- http.py:131-136, `parts`: an absolute path begins with an empty component,
so that the check in http.py:132 never fails; that component is dropped.  The
root is one empty component. -/
def Fs.parts (fs : Fs) (p : List Char) : Option (List Comp) :=
  (fs.realpath p).map fun cs => if cs = [] then [[]] else cs

/-! ## Requests -/

/-- What `urlparse` makes of the request (http.py:125). -/
structure Url where
  scheme : List Char := []
  netloc : List Char := []
  path : List Char
  params : List Char := []
  query : List Char := []
  fragment : List Char := []
  deriving DecidableEq, Repr

/-- `str.split (sep)`, used by `parse_qs` (http.py:142). -/
def splitOn (sep : Char) : List Char → List (List Char)
  | [] => [[]]
  | c :: r =>
    if c = sep then [] :: splitOn sep r
    else match splitOn sep r with
      | [] => [[c]]
      | a :: q => (c :: a) :: q

/-- One field of a query, `name=value`; those without a value are left out
(`parse_qs`, http.py:142). -/
def field (s : List Char) : Option (List Char × List Char) :=
  match s.dropWhile (· ≠ '=') with
  | _ :: v@(_ :: _) => some (s.takeWhile (· ≠ '='), v)
  | _ => none

/-- `"system"`. -/
def system : List Char := ['s', 'y', 's', 't', 'e', 'm']

/-- `q["system"][0]` of http.py:142-143; `none` is KeyError.  `unq` decodes `%`
and `+`. -/
def wanted (unq : List Char → List Char) (query : List Char) : Option (List Char) :=
  (((splitOn '&' query).filterMap field).find? fun f => unq f.1 = system).map fun f => unq f.2

/-- What a node makes of a request (node.py:362-415): no such page, an
exception, or a page. -/
inductive Page (β : Type) where
  | missing
  | raise
  | page (p : β)
  deriving DecidableEq, Repr

/-- A system. -/
structure Node (β : Type) where
  name : List Char
  get : Bool → List Comp → Page β

/-- The server (http.py:89-101). -/
structure Srv (β : Type) where
  nodes : List (Node β)
  map : Bool
  resources : List Comp
  fs : Fs
  unq : List Char → List Char
  /-- `str.upper` -/
  up : List Char → List Char

/-- What is sent.  `error 500` is what http.py:152-157 sends. -/
inductive Ans (β : Type) where
  | error (code : Nat)
  | file (b : Bytes)
  | map (mobile data : Bool)
  | nodeList (mobile : Bool)
  | page (i : Nat) (mobile : Bool) (p : β)
  deriving DecidableEq, Repr

/-- What `findnode` returns: an answer has been sent, or a node, or none, and
the parts (http.py:121-149); `raise` is an exception. -/
inductive Found (β : Type) where
  | sent (code : Nat)
  | raise
  | ok (i : Nat) (n : Option (Node β)) (parts : List Comp)

/-- The loop in http.py:144-146. -/
def Srv.lookup {β : Type} (s : Srv β) (name : List Char) : List (Node β) → Nat → Option (Nat × Node β)
  | [], _ => none
  | n :: r, i => if n.name ≠ [] ∧ s.up n.name = name then some (i, n) else s.lookup name r (i + 1)

/-- http.py:121-149 `findnode`. -/
def Srv.findnode {β : Type} (s : Srv β) (u : Url) : Found β :=
  if u.scheme ≠ [] ∨ u.netloc ≠ [] ∨ u.params ≠ [] ∨ u.fragment ≠ [] then .sent 400
  else match s.fs.parts u.path with
    | none => .raise
    | some parts =>
      if s.nodes.length > 1 then
        if u.query = [] then .ok 0 none parts
        else match wanted s.unq u.query with
          | none => .raise
          | some w => match s.lookup (s.up w) s.nodes 0 with
            | some (i, n) => .ok i (some n) parts
            | none => .sent 404
      else match s.nodes with
        | [] => .raise
        | n :: _ => .ok 0 (some n) parts

def cResources : Comp := "resources".toList
def cRobots : Comp := "robots.txt".toList
def cPublic : Comp := "public".toList
def cIndex : Comp := "index.html".toList
def cM : Comp := ['m']
def cMap : Comp := ['m', 'a', 'p']
def cData : Comp := ['d', 'a', 't', 'a']

/-- http.py:165-172: which file, if it is one.  The list has at least one
component. -/
def fileOf (parts : List Comp) : Option (List Comp) :=
  let parts := if parts.head? = some cRobots then [cResources, cRobots] else parts
  if parts.head? = some cResources then
    some (if parts = [cResources, cPublic] then [cPublic, cIndex] else parts.tail)
  else none

/-- http.py:189-214, a page of the map, the list of nodes or a node. -/
def Srv.html {β : Type} (s : Srv β) (i : Nat) (n : Option (Node β)) (mobile : Bool) (parts : List Comp) :
    Ans β :=
  if s.map = true ∧ parts.head? = some cMap then
    if parts.tail = [] then .map mobile false
    else if parts.tail = [cData] then .map mobile true
    else .error 404
  else match n with
    | none => if parts ≠ [[]] then .error 400 else .nodeList mobile
    | some n => match n.get mobile parts with
      | .missing => .error 404
      | .raise => .error 500
      | .page p => .page i mobile p

/-- http.py:181-187: is it a page for a telephone, and which. -/
def pageOf (parts : List Comp) : Bool × List Comp :=
  let mobile := decide (parts.head? = some cM)
  let parts := if mobile then parts.tail else parts
  (mobile, if parts = [] then [[]] else parts)

/-- http.py:159-222 `do_GET`. -/
def Srv.get {β : Type} (s : Srv β) (u : Url) : Ans β :=
  match s.findnode u with
  | .sent c => .error c
  | .raise => .error 500
  | .ok i n parts =>
    match fileOf parts with
    | some f => match s.fs.read (s.resources ++ f) with
      | some b => .file b
      | none => .error 404
    | none => s.html i n (pageOf parts).1 (pageOf parts).2

/-! ## Error pages

http.py:152-157: the text for code 500 is put into a table shared by all
requests, each of which has its own thread, and is then taken from there. -/

/-- What the threads do: request `i` failed with text `t`; request `i` sends
its page. -/
inductive Act (τ : Type) where
  | set (i : Nat) (t : τ)
  | send (i : Nat)
  deriving DecidableEq, Repr

/-- The pages that are sent, with the text that is in the table then
(http.py:155-157). -/
def pages {τ : Type} : τ → List (Act τ) → List (Nat × τ)
  | _, [] => []
  | _, .set _ t :: r => pages t r
  | x, .send i :: r => (i, x) :: pages x r

end Verif.Http
