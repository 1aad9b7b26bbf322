import Mathlib.Data.List.TakeWhile

/-!
# The server of the API socket

Model of `pydecnet/decnet/apiserver.py` `ApiHandler` (18-129): the splitting of what is received into lines,
the loop over requests, the choice of the node, the replies, and the end; and of `pydecnet/decnet/node.py`
`Node.api` (206-222), which passes a request to a subsystem.

JSON itself is left out: a line is given with what it decodes to.  Values are told apart as far as the
code does: text, `null`, lists or dictionaries that are not empty (which cannot be keys), and other values that
are true or not in Python's sense.  What the method of a subsystem answers is the environment's: a dictionary,
nothing (an answer may come later), or an exception.  The order of the entries of a dictionary has no meaning here,
nodes have different names, and the texts of errors are numbers.  Stopping the server, a failure of `send`, and
an exception in `end_api` are left out.
-/

namespace Verif.ApiSock

abbrev Bytes := List UInt8
abbrev Str := List Nat

/-- `readline`, apiserver.py 27-35: what is pending, and what the coming calls of `recv` give; the end of the
connection is an empty chunk, or the end of the list. -/
def readline (pending : Bytes) (chunks : List Bytes) : Option (Bytes × Bytes × List Bytes) :=
  if 10 ∈ pending then some (pending.takeWhile (· ≠ 10), (pending.dropWhile (· ≠ 10)).drop 1, chunks)
  else
    match chunks with
    | [] => none
    | c :: cs => if c = [] then none else readline (pending ++ c) cs
termination_by chunks

theorem cut_shorter (p : Bytes) (h : 10 ∈ p) : ((p.dropWhile (· ≠ 10)).drop 1).length < p.length := by
  have hl := congrArg List.length (List.takeWhile_append_dropWhile (p := fun x : UInt8 => decide (x ≠ 10)) (l := p))
  simp only [List.length_append] at hl
  have hne : (p.dropWhile (· ≠ 10)).length ≠ 0 := by
    intro h0
    have h1 := List.length_eq_zero_iff.mp h0
    rw [List.dropWhile_eq_nil_iff] at h1
    have := h1 10 h
    simp at this
  simp only [List.length_drop]; omega

theorem readline_shorter {p l p' : Bytes} {cs cs' : List Bytes} (h : readline p cs = some (l, p', cs')) :
    p'.length + (cs'.map List.length).sum < p.length + (cs.map List.length).sum := by
  induction cs generalizing p with
  | nil =>
    unfold readline at h
    by_cases h10 : 10 ∈ p
    · rw [if_pos h10] at h
      simp only [Option.some.injEq, Prod.mk.injEq] at h
      obtain ⟨_, rfl, rfl⟩ := h
      have := cut_shorter p h10
      omega
    · rw [if_neg h10] at h; cases h
  | cons c cs ih =>
    unfold readline at h
    by_cases h10 : 10 ∈ p
    · rw [if_pos h10] at h
      simp only [Option.some.injEq, Prod.mk.injEq] at h
      obtain ⟨_, rfl, rfl⟩ := h
      have := cut_shorter p h10
      omega
    · rw [if_neg h10] at h
      by_cases hc : c = []
      · simp [hc] at h
      · simp only [hc, if_false] at h
        have := ih h
        simp only [List.length_append, List.map_cons, List.sum_cons] at this ⊢
        omega

/-- The requests taken from the socket: lines until the end, or until an empty one, apiserver.py 44-47. -/
def requests (pending : Bytes) (chunks : List Bytes) : List Bytes :=
  match _h : readline pending chunks with
  | none => []
  | some (l, p, cs) => if l = [] then [] else l :: requests p cs
termination_by pending.length + (chunks.map List.length).sum
decreasing_by exact readline_shorter _h

inductive Val
  | null
  | text (s : Str)
  | list (n : Nat)
  | other (truth : Bool) (n : Nat)
deriving DecidableEq, Repr

/-- `bool (v)`. -/
def Val.truth : Val → Bool
  | .null => false
  | .text s => s ≠ []
  | .list _ => true
  | .other b _ => b

abbrev Dict := List (Str × Val)

/-- `d.get (k)`. -/
def get (d : Dict) (k : Str) : Option Val := (d.find? (·.1 = k)).map (·.2)

/-- `d` without `k`. -/
def without (d : Dict) (k : Str) : Dict := d.filter (·.1 ≠ k)

/-- `d[k] = v`. -/
def put (d : Dict) (k : Str) (v : Val) : Dict := (k, v) :: without d k

/-- `str.upper` on ASCII. -/
def upper (s : Str) : Str := s.map fun c => if 97 ≤ c ∧ c ≤ 122 then c - 32 else c

/-- What a line decodes to: an error, text, another value that is not a dictionary, a dictionary (no two
entries with the same key). -/
inductive Req
  | fails
  | text (s : Str)
  | value
  | dict (d : Dict)
deriving DecidableEq, Repr

/-- What the method of a subsystem does. -/
inductive Ans
  | nothing
  | dict (d : Dict)
  | raises
deriving DecidableEq, Repr

inductive Out
  /-- The method of a subsystem is called: node, subsystem, type, tag, other arguments. -/
  | call (node api : Str) (type : Val) (tag : Option Val) (args : Dict)
  /-- A reply. -/
  | reply (d : Dict)
  /-- A node is told that the connection is gone. -/
  | ended (node : Str)
deriving DecidableEq, Repr

def kTag : Str := [116, 97, 103]
def kSystem : Str := [115, 121, 115, 116, 101, 109]
def kApi : Str := [97, 112, 105]
def kType : Str := [116, 121, 112, 101]
def kError : Str := [101, 114, 114, 111, 114]
def kException : Str := [101, 120, 99, 101, 112, 116, 105, 111, 110]

/-- `bad`, the text that stands for a request that could not be decoded. -/
def wBad : Str := [98, 97, 100]
/-- `get`. -/
def wGet : Str := [103, 101, 116]

/-- `node`. -/
def wNode : Str := [110, 111, 100, 101]
/-- `nodenames`. -/
def kNodenames : Str := [110, 111, 100, 101, 110, 97, 109, 101, 115]

/-- The texts of errors, by number. -/
def parseError : Val := .other true 1
def noSystem : Val := .other true 2
def noApi : Val := .other true 3
def unknownSystem : Val := .other true 4
def badNodeOp : Val := .other true 5
def badApi : Val := .other true 6
def apiException : Val := .other true 7

/-- The nodes: name and subsystems, node.py `apis`.  `about`: what `json_description` gives for all nodes
together; `names`: the list of nodes that a node knows. -/
structure Server where
  nodes : List (Str × List Str)
  about : Dict
  names : Val

/-- `defnode`, apiserver.py 151-154. -/
def Server.default (v : Server) : Option Val :=
  match v.nodes with
  | [n] => some (.text n.1)
  | _ => none

/-- `nodes.get (name)`, as the subsystems of the node. -/
def Server.node (v : Server) (n : Str) : Option (List Str) := (v.nodes.find? (·.1 = n)).map (·.2)

/-- How a request is dealt with: what is seen, the new value of the variable `ret` (a dictionary or None), or an
exception. -/
inductive Res
  | ret (o : List Out) (r : Option Dict)
  | raises (o : List Out)
deriving DecidableEq, Repr

/-- What a subsystem answers, node.py 217-222. -/
def answer : Ans → Option Dict
  | .nothing => none
  | .dict d => some d
  | .raises => some [(kError, apiException), (kException, .text [])]

/-- `Node.api`, node.py 206-222. -/
def nodeApi (v : Server) (node : Str) (apis : List Str) (api type : Val) (tag : Option Val) (args : Dict) (a : Ans) :
    Res :=
  match api with
  | .list _ => .raises []
  | .text s =>
    if s = wNode then
      if type = .text wGet then .ret [] (some [(kNodenames, v.names)])
      else .ret [] (some [(kError, badNodeOp), (kType, type)])
    else if s ∈ apis then .ret [.call node s type tag args] (answer a)
    else .ret [] (some [(kError, badApi), (kApi, api)])
  | _ => .ret [] (some [(kError, badApi), (kApi, api)])

/-- The reply of a node gets the system and the subsystem, apiserver.py 94-100. -/
def named (system api : Val) : Option Dict → Option Dict
  | some (x :: d) => some (put (put (x :: d) kSystem system) kApi api)
  | r => r

/-- With a node, apiserver.py 85-100. -/
def callNode (v : Server) (node : Str) (apis : List Str) (system api type : Val) (tag : Option Val) (args : Dict)
    (a : Ans) : Res :=
  match nodeApi v node apis api type tag args a with
  | .raises o => .raises o
  | .ret o r => .ret o (named system api r)

/-- `req.pop ("tag", None)`: `null` is None. -/
def pop (d : Dict) (k : Str) : Option Val :=
  match get d k with
  | some .null => none
  | v => v

/-- The errors before a node is called, and the call, apiserver.py 72-100; the arguments are what was taken from
the request. -/
def choose (v : Server) (system api type : Val) (tag : Option Val) (args : Dict) (a : Ans) : Res :=
  match system with
  | .other true _ => .raises []
  | .list _ => .raises []
  | .text s =>
    if s = [] then .ret [] (some [(kError, noSystem)])
    else if !api.truth then .ret [] (some [(kError, noApi)])
    else
      match v.node (upper s) with
      | some apis => callNode v (upper s) apis system api type tag args a
      | none => .ret [] (some [(kSystem, system), (kError, unknownSystem)])
  | _ => .ret [] (some [(kError, noSystem)])

/-- The reply gets the tag, apiserver.py 101-106. -/
def tagged (tag : Option Val) : Option Dict → Option Dict
  | some (x :: d) =>
    match tag with
    | some t => some (put (x :: d) kTag t)
    | none => some (x :: d)
  | r => r

/-- A request that is not empty without the tag, apiserver.py 66-106: the entries are taken out one by one. -/
def fullReq (v : Server) (tag : Option Val) (d : Dict) (a : Ans) : Res :=
  match choose v ((get d kSystem).getD (v.default.getD .null)) ((get (without d kSystem) kApi).getD .null)
      ((get (without (without d kSystem) kApi) kType).getD (.text wGet)) tag
      (without (without (without d kSystem) kApi) kType) a with
  | .raises o => .raises o
  | .ret o r => .ret o (tagged tag r)

/-- A dictionary, apiserver.py 56-106. -/
def dictReq (v : Server) (d : Dict) (a : Ans) : Res :=
  if without d kTag = [] then .ret [] (tagged (pop d kTag) (some v.about))
  else fullReq v (pop d kTag) (without d kTag) a

/-- One turn of the loop, apiserver.py 48-106; `prev` is the variable `ret` left by the turn before, `none`
if there was none. -/
def turn (v : Server) (prev : Option (Option Dict)) (q : Req) (a : Ans) : Res :=
  match q with
  | .fails => .ret [] (some [(kException, .text []), (kError, parseError)])
  | .text s =>
    if s = wBad then
      match prev with
      | none => .raises []
      | some r => .ret [] r
    else .raises []
  | .value => .raises []
  | .dict d => dictReq v d a

/-- `if ret: self.send_dict (ret)`, apiserver.py 107-108. -/
def sends : Option Dict → List Out
  | some (x :: d) => [.reply (x :: d)]
  | _ => []

/-- The loop: what is seen at each request, and whether it went to the end of the requests. -/
def serve (v : Server) : Option (Option Dict) → List (Req × Ans) → List (List Out) × Bool
  | _, [] => ([], true)
  | prev, (q, a) :: qs =>
    match turn v prev q a with
    | .raises o => ([o], false)
    | .ret o r => ((o ++ sends r) :: (serve v (some r) qs).1, (serve v (some r) qs).2)

/-- `handle`, apiserver.py 42-119: however the loop ends, all nodes are told. -/
def session (v : Server) (qs : List (Req × Ans)) : List Out :=
  (serve v none qs).1.flatten ++ v.nodes.map fun n => .ended n.1

end Verif.ApiSock
