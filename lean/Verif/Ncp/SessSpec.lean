import Verif.Ncp.Session
import Verif.Ncp.Spec

/-!
# What a session is

Which node every request goes to and what is put on the screen, without sockets, handles and tags.
-/

namespace Verif.Ncp

open Verif.Nml (Bytes PVal)

/-! ## Listeners that keep to the rules -/

/-- One reply by itself. -/
def Single (r : Bytes) : Prop := ∃ x b, r = x :: b ∧ x.toNat ≠ 2 ∧ x.toNat ≠ 128

/-- One reply of a list. -/
def Item (r : Bytes) : Prop := ∃ x b, r = x :: b ∧ x.toNat ≠ 2 ∧ x.toNat < 128

/-- What an answer says: a node answers with one reply, or with a list between a message for its begin and one for its
end; the local listener with any number of replies. -/
inductive Body : Option Str → List Reply → List Bytes → Prop
  | single (n r) : Single r → Body (some n) [.data r] [r]
  | list (n) (x y : UInt8) (s e l) : x.toNat = 2 → y.toNat = 128 → (∀ r ∈ l, Item r) →
      Body (some n) (.data (x :: s) :: (l.map .data ++ [.data (y :: e)])) l
  | loc (l) : (∀ r ∈ l, r ≠ []) → Body none (l.map .data) l

/-- Nodes accept with a version of 3 or later or refuse, answer by the rules and stay; every reply can be displayed. -/
structure Good (env : Env) : Prop where
  connect : ∀ t d a, env.connect t d a ≠ .error
  version : ∀ t d a b, env.connect t d a = .accept b → ∃ v r, b = v :: r ∧ 3 ≤ v.toNat
  answer : ∀ t c b, ∃ l, Body (some c.node) (env.answer t c b) l
  loc : ∀ t b, ∀ r ∈ env.loc t b, r ≠ []
  bad : ∀ r, env.bad r = false

/-! ## Commands -/

/-- The first words of commands. -/
def verbs : List Str :=
  [k!"tell", k!"set", k!"define", k!"show", k!"list", k!"clear", k!"purge", k!"loop", k!"zero"]

/-- It is the first word of a command. -/
def Known (tok : Str) : Prop := ∃ w ∈ verbs, Abbr tok w

/-- Up to the first error. -/
def untilError : List Bytes → List Bytes
  | [] => []
  | r :: l => if 128 ≤ (r.headD 0).toNat then [r] else r :: untilError l

/-- A command that is a request, with what is displayed of the replies. -/
inductive Asks : List Str → Bytes → (List Bytes → List Bytes) → Prop
  | look (tok rest req) : Abbr tok k!"show" → showReq false rest = .ok req → Asks (tok :: rest) req untilError
  | list (tok rest req) : Abbr tok k!"list" → showReq true rest = .ok req → Asks (tok :: rest) req untilError
  | loop (tok rest req) : Abbr tok k!"loop" → loopReq rest = .ok req → Asks (tok :: rest) req id

/-- EXECUTOR NODE, each word cut short anywhere. -/
def Exec (rest : List Str) : Prop :=
  ∃ a b more, rest = a :: b :: more ∧ lower a <+: k!"executor" ∧ lower b <+: k!"node"

/-- The last value of a kind. -/
def lastFld (qs : Sets) (f : Fld) : Option PVal := (qs.filter fun p => p.1 = f).getLast?.map (·.2)

/-- User, password and account as given last. -/
def given (qs : Sets) : Access := [lastFld qs .user, lastFld qs .password, lastFld qs .account]

/-- SET EXECUTOR NODE, a node, access control information. -/
def SetsExec (toks : List Str) (d : Str) (acc : Sets) : Prop :=
  ∃ tok a b d' more, toks = tok :: a :: b :: d' :: more ∧ Abbr tok k!"set" ∧ Exec (a :: b :: d' :: more) ∧
    d = upper d' ∧ ParsPhrase accessSyntax more acc

/-- A command about the executor node. -/
def ExecCmd (w : Str) (toks : List Str) : Prop := ∃ tok rest, toks = tok :: rest ∧ Abbr tok w ∧ Exec rest

/-- TELL, a node, access control information and a command which is not about the executor node. -/
def Tells (toks : List Str) (d : Str) (acc : Sets) (inner : List Str) : Prop :=
  ∃ tok a t r, toks = tok :: d :: (a ++ inner) ∧ Abbr tok k!"tell" ∧ ParsPhrase accessSyntax a acc ∧ inner = t :: r ∧
    Known t ∧ ¬ Abbr t k!"tell" ∧ ¬ ((Abbr t k!"set" ∨ Abbr t k!"clear") ∧ Exec r)

/-- The executor node is left. -/
def dropped : Option Str → List Ev
  | none => []
  | some n => [.disc n]

/-- Replies on the screen. -/
def screen (l : List Bytes) : List Ev := l.map .shown

/-- What a command does with the executor node `x`, and the executor node afterwards. -/
inductive Does : Option Str → List Str → List Ev → Option Str → Prop
  | ask (x toks req f ans l) : Asks toks req f → Body x ans l → Does x toks (.ask x req ans :: screen (f l)) x
  | set (x toks d acc b) : SetsExec toks d acc →
      Does x toks (dropped x ++ [.conn d (given acc) (.accept b)]) (some d)
  | setRefused (x toks d acc out) : SetsExec toks d acc → out = .reject ∨ out = .unknown →
      Does x toks (dropped x ++ [.conn d (given acc) out]) none
  | setWrong (x toks) : ExecCmd k!"set" toks → (∀ d acc, ¬ SetsExec toks d acc) → Does x toks (dropped x) none
  | clear (x toks) : ExecCmd k!"clear" toks → Does x toks (dropped x) none
  | tell (x toks d acc inner b req f ans l) : Tells toks d acc inner → Asks inner req f → Body (some d) ans l →
      Does x toks (.conn d (given acc) (.accept b) :: .ask (some d) req ans :: (screen (f l) ++ [.disc d])) x
  | tellRefused (x toks d acc inner out) : Tells toks d acc inner → out = .reject ∨ out = .unknown →
      Does x toks [.conn d (given acc) out] x
  | tellNothing (x toks d acc inner b) : Tells toks d acc inner → (∀ req f, ¬ Asks inner req f) →
      Does x toks [.conn d (given acc) (.accept b), .disc d] x
  | nothing (x toks) : (∀ req f, ¬ Asks toks req f) → ¬ ExecCmd k!"set" toks → ¬ ExecCmd k!"clear" toks →
      (∀ d acc inner, ¬ Tells toks d acc inner) → Does x toks [] x

/-- How a line is cut into tokens: strings in quotes, which are kept as they are, and words without spaces, in capitals.
A word may begin with a quote if the quote does not come again. -/
inductive Toks : Str → List Str → Prop
  | nil : Toks [] []
  | space (c r ts) : space c = true → Toks r ts → Toks (c :: r) ts
  | quoted (q : Char) (b r : Str) (ts) : q = '"' ∨ q = '\'' → q ∉ b → Toks r ts →
      Toks (q :: (b ++ q :: r)) ((q :: (b ++ [q])) :: ts)
  | word (c : Char) (w r : Str) (ts) : (∀ x ∈ c :: w, space x = false) → (∀ x, r.head? = some x → space x = true) →
      ¬ ((c = '"' ∨ c = '\'') ∧ c ∈ w ++ r) → Toks r ts → Toks (c :: (w ++ r)) (upper (c :: w) :: ts)

/-- A line that ends the program: nothing but space, EXIT cut short anywhere, or something unknown. -/
def Ends (line : Str) : Prop :=
  line ≠ [] ∧ ∀ t r, Toks line (t :: r) → lower t <+: k!"exit" ∨ ¬ Known t

/-- A session: lines one after the other. -/
inductive Runs : Option Str → List Str → List Ev → Option Str → Out → Prop
  | nil (x) : Runs x [] [] x .on
  | ended (x l ls) : Ends l → Runs x (l :: ls) [] x .ended
  | empty (x ls e y o) : Runs x ls e y o → Runs x ([] :: ls) e y o
  | line (x l ts ls e1 y e2 z o) : l ≠ [] → ¬ Ends l → Toks l ts → Does x ts e1 y → Runs y ls e2 z o →
      Runs x (l :: ls) (e1 ++ e2) z o

end Verif.Ncp
