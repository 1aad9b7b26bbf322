import Verif.Pmr.Re

/-!
# Poor man's routing

Model of `pydecnet/decnet/connectors.py` `_pmr_re` (33), `SimpleConnector.checkpmr` (159-193) and
`parsepmrresponse` (195-219), and of `pydecnet/decnet/applications/pmr.py` `route` (49-134).

Which characters are digits and white space, and the value of a digit, is given by `Uni` (the Unicode
tables), of which only ASCII is fixed.  A user (object) is a number or a name.
-/

namespace Verif.Pmr

/-- The Unicode tables. -/
structure Uni where
  digit : Nat → Bool
  value : Nat → Nat
  space : Nat → Bool
  ascii_digit : ∀ c, c < 128 → (digit c = true ↔ 48 ≤ c ∧ c ≤ 57)
  ascii_value : ∀ c, 48 ≤ c → c ≤ 57 → value c = c - 48
  ascii_space : ∀ c, c < 128 → (space c = true ↔ c = 32 ∨ (9 ≤ c ∧ c ≤ 13) ∨ (28 ≤ c ∧ c ≤ 31))

/-- `[a-z0-9.]` ignoring case: Python also counts U+0130, U+0131, U+017F and U+212A as letters here. -/
def nodeChar (c : Nat) : Bool :=
  (97 ≤ c && c ≤ 122) || (65 ≤ c && c ≤ 90) || (48 ≤ c && c ≤ 57) || c == 46 ||
  c == 0x130 || c == 0x131 || c == 0x17F || c == 0x212A

def colons : Re := .seq (.chr (· == 58)) (.chr (· == 58))

/-- `['"]`. -/
def isQuote (c : Nat) : Bool := c == 39 || c == 34

def quote : Re := .opt (.chr isQuote)

/-- A letter, ignoring case. -/
def letter (lo : Nat) (more : List Nat) : Re := .chr fun c => c == lo || c == lo - 32 || more.contains c

/-- `task=`. -/
def taskEq : Re :=
  .seq (letter 116 []) (.seq (letter 97 []) (.seq (letter 115 [0x17F]) (.seq (letter 107 [0x212A])
    (.chr (· == 61)))))

/-- `(?:(?:(\d+)=)|(?:task=(\S+)))?`. -/
def userRe (u : Uni) : Re :=
  .opt (.alt (.seq (.grp 3 (.plus (.chr u.digit))) (.chr (· == 61)))
    (.seq taskEq (.grp 4 (.plus (.chr fun c => !u.space c)))))

/-- `(?:::['"]?(...)?['"]?)?`. -/
def tailRe (u : Uni) : Re := .opt (.seq colons (.seq quote (.seq (userRe u) quote)))

/-- `[a-z0-9.]+`. -/
def nameRe : Re := .plus (.chr nodeChar)

/-- `_pmr_re`, connectors.py 33. -/
def pmrRe (u : Uni) : Re :=
  .seq (.grp 1 nameRe) (.seq (.grp 2 (.star false (.seq colons nameRe))) (.seq (tailRe u) .eos))

inductive User
  | num (n : Int)
  | name (s : Str)
deriving DecidableEq, Repr

/-- Decimal digits of a number. -/
def dec (n : Nat) : Str := if _h : n < 10 then [48 + n] else dec (n / 10) ++ [48 + n % 10]
termination_by n
decreasing_by omega

/-- `str` of a number. -/
def decInt (n : Int) : Str := if n < 0 then 45 :: dec n.natAbs else dec n.natAbs

/-- `int` of digits. -/
def number (u : Uni) (s : Str) : Nat := s.foldl (fun a c => 10 * a + u.value c) 0

/-- The last part of the request, connectors.py 187-190; no user is formatted as `None`. -/
def userPart : Option User → Str
  | some (.num n) => decInt n ++ [61]
  | some (.name s) => [84, 65, 83, 75, 61] ++ s
  | none => [84, 65, 83, 75, 61, 78, 111, 110, 101]

/-- A connect: node, user, and the request to send to the relay there. -/
structure Plan where
  dest : Str
  user : Option User
  spec : Option Str
deriving DecidableEq, Repr

/-- What group 3 or 4 say of the user, connectors.py 172-179. -/
def given (u : Uni) (c : Caps) (remuser : Option User) : Option User :=
  match c.get 4, c.get 3 with
  | some t, _ => some (.name t)
  | none, some n => some (.num (number u n))
  | none, none => remuser

/-- `checkpmr` for the session interface, connectors.py 159-193. -/
def checkpmr (u : Uni) (dest : Str) (remuser : Option User) (hop : Nat) : Plan :=
  match (pmrRe u).match dest with
  | none => ⟨dest, remuser, none⟩
  | some c =>
    let user := given u c remuser
    let path := (c.get 2).getD []
    if path = [] then ⟨(c.get 1).getD [], user, none⟩
    else ⟨(c.get 1).getD [], some (.num 123), some (hop :: path.drop 2 ++ [58, 58] ++ userPart user)⟩

/-- A relay: the connect that `route` makes for a request, applications/pmr.py 70-79.  The request is
not empty. -/
def relay (u : Uni) (req : Str) : Plan :=
  match req with
  | [] => ⟨[], none, none⟩
  | h :: s => checkpmr u s none (h + 1)

/-- What comes on the connection to a relay after the connect. -/
inductive In
  | data (s : Str)
  | other
deriving DecidableEq, Repr

/-- What a relay does. -/
inductive Act
  | accept
  | abort
  | connect (p : Plan)
deriving DecidableEq, Repr

/-- `route` up to the outgoing connect, applications/pmr.py 54-79.  `conn.accept ()` (59) calls a coroutine
function (async_connectors.py 70) and does not wait for it, so nothing is sent.  An empty message raises
IndexError. -/
def route (u : Uni) (msgs : List In) : List Act :=
  match msgs with
  | [] => []
  | .data s :: _ => if s = [] then [] else [.connect (relay u s)]
  | .other :: _ => [.abort]

/-- The connects of a whole route, one after the other: `n` bounds their number. -/
def travel (u : Uni) : Nat → Plan → List (Str × Option User)
  | 0, p => [(p.dest, p.user)]
  | n + 1, p =>
    match p.spec with
    | none => [(p.dest, p.user)]
    | some s => (p.dest, p.user) :: travel u n (relay u s)

/-- The text before the first colon, `connpath.split (":", 1)[0]`. -/
def hop1 : Str → Str
  | [] => []
  | c :: s => if c = 58 then [] else c :: hop1 s

/-- The answer of a relay to a good connect, applications/pmr.py 102-116: `path` is the request without the
hop count, `resp` the answer of the relay beyond, if there is one. -/
def relayAnswer (path : Str) (resp : Option Str) : Str :=
  match resp with
  | some (c :: r) => c :: hop1 path ++ [58, 58] ++ r
  | _ => 1 :: hop1 path ++ [58, 58]

/-- The outcome of a route, connectors.py 195-219. -/
inductive Outcome
  | accepted (data : Str)
  | rejected (text : Str)
  /-- `rsplit` finds no colon: IndexError. -/
  | raises
deriving DecidableEq, Repr

/-- The text after the last colon, if there is one. -/
def afterLast : Str → Option Str
  | [] => none
  | c :: s =>
    match afterLast s with
    | some r => some r
    | none => if c = 58 then some s else none

/-- `parsepmrresponse`.  The text of a response with an unknown code, and of an empty one, is left out. -/
def parseResponse : Str → Outcome
  | [] => .rejected []
  | c :: s =>
    if c = 1 then
      match afterLast (c :: s) with
      | some d => .accepted d
      | none => .raises
    else if c = 2 then .rejected s
    else .rejected []

end Verif.Pmr
