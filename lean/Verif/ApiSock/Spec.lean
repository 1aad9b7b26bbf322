import Verif.ApiSock.Model
import Mathlib.Data.List.Forall2

/-!
# What is said about requests at the API socket

Everything is in terms of the entries of the request, as looked up.
-/

namespace Verif.ApiSock

/-- The complete lines of a stream. -/
def lines : Bytes → Bytes → List Bytes
  | _, [] => []
  | acc, b :: s => if b = 10 then acc :: lines [] s else lines (acc ++ [b]) s

/-- The tag of a request; `null` is no tag. -/
def tagOf (d : Dict) : Option Val := (get d kTag).bind fun v => if v = .null then none else some v

/-- A request with nothing but a tag. -/
def Bare (d : Dict) : Prop := ∀ e ∈ d, e.1 = kTag

/-- The node, if there is just one. -/
def onlyNode (v : Server) : Option Val :=
  if v.nodes.length = 1 then v.nodes.head?.map fun n => .text n.1 else none

/-- The system that a request is for: what it says, or else the only node there is. -/
def systemOf (v : Server) (d : Dict) : Option Val := (get d kSystem).or (onlyNode v)

/-- The same text in capitals (a is 97, z is 122, A is 65). -/
def InCapitals (s n : Str) : Prop := List.Forall₂ (fun a b => if 97 ≤ a ∧ a ≤ 122 then b = a - 97 + 65 else b = a) s n

/-- The type of a request. -/
def typeOf (d : Dict) : Val := (get d kType).getD (.text wGet)

/-- The request names this node, by text in upper or lower case, or is for it because it is the only one. -/
def For (v : Server) (d : Dict) (n : Str) (apis : List Str) : Prop :=
  ∃ s, systemOf v d = some (.text s) ∧ s ≠ [] ∧ InCapitals s n ∧ v.node n = some apis

/-- The request is for this subsystem of this node. -/
def To (v : Server) (d : Dict) (n k : Str) : Prop :=
  ∃ apis, For v d n apis ∧ get d kApi = some (.text k) ∧ k ≠ [] ∧ k ≠ wNode ∧ k ∈ apis

/-- The requests that end the connection: JSON text, numbers and lists; a system which is a number or list and
not 0 or empty; an interface which is a list or dictionary, if there is such a system. -/
def Fatal (v : Server) (first : Bool) (q : Req) : Prop :=
  match q with
  | .fails => False
  | .text s => s ≠ wBad ∨ first
  | .value => True
  | .dict d => ¬ Bare d ∧
      ((∃ n, systemOf v d = some (.other true n) ∨ systemOf v d = some (.list n)) ∨
        ∃ n apis i, For v d n apis ∧ get d kApi = some (.list i))

/-- Replies among what is seen. -/
def replies (o : List Out) : List Dict := o.filterMap fun x => match x with | .reply d => some d | _ => none

end Verif.ApiSock
