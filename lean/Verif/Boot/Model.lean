/-!
# Start and end of the program

main.py 185-213 and 253-294 (`main` from the configuration files to the end), node.py 138-139, 281-297 and 331-339
(`Node.start`, `stop`), apiserver.py 134-220 (the socket of the API).

Everything that is done is an `Act`; acts of a list are done in order until an exception comes before one
of them.  Exceptions, among them those of signals (main.py:123-126), come where the environment says.

Left out: logging but for its end, profiling, the transition to a daemon, change of root and of user (so
that the name of a socket means the same throughout); what the elements do when started or stopped; the
threads, all of which end with the program (`daemon`).
-/

namespace Verif.Boot

/-! ## Configuration files -/

/-- What main.py:191-205 looks at: whether there is a node or a bridge, a monitor (and whether it has a port),
an API (and the name of its socket). -/
structure Cfg where
  routing : Bool := false
  bridge : Bool := false
  http : Option Bool := none
  api : Option (List Nat) := none
deriving DecidableEq, Repr

/-- `sys.exit`, or what is to run: the files of the systems, that of the monitor, that of the API. -/
inductive Plan where
  | exit
  | run (nodes : List Cfg) (http : Option Cfg) (api : Option Cfg)
deriving DecidableEq, Repr

/-- main.py:188-205, the loop. -/
def scan : List Cfg → List Cfg → Option Cfg → Option Cfg → Plan
  | [], ns, h, a => .run ns h a
  | c :: cs, ns, h, a =>
    if c.routing ∨ c.bridge then scan cs (ns ++ [c]) h a
    else if c.http.isSome ∧ h.isSome then .exit
    else if c.api.isSome ∧ a.isSome then .exit
    else scan cs ns (if c.http = some true then some c else h) (if c.api.isSome then some c else a)

/-- main.py:185-209. -/
def plan (cs : List Cfg) : Plan :=
  match scan cs [] none none with
  | .run [] _ _ => .exit
  | p => p

/-! ## Running -/

/-- node.py:138-139; the timers are started before (node.py:288) and shut down after (node.py:339). -/
inductive Elem where
  | timers | datalink | mop | routing | nsp | session | bridge | eventLogger
deriving DecidableEq, Repr

/-- node.py:138-139 `startlist`. -/
def startlist : List Elem := [.datalink, .mop, .routing, .nsp, .session, .bridge, .eventLogger]

/-- Something done by the main thread. -/
inductive Act where
  | start (n : Nat) (e : Elem)
  /-- the main loop of a node, node.py:294-297 -/
  | loop (n : Nat)
  | apiStart
  /-- main.py:260 -/
  | running
  /-- main.py:262-267, until it ends -/
  | serve
  /-- the text in the log that says why, main.py:268-279 -/
  | say
  | apiStop
  | stop (n : Nat) (e : Elem)
  /-- main.py:294 -/
  | logStop
deriving DecidableEq, Repr

/-- An exception. -/
inductive Exc where
  | interrupt | other
deriving DecidableEq, Repr

/-- A system: which elements it has (`getattr (self, m)`, node.py:291-292). -/
abbrev Sys := Elem → Bool

/-- node.py:281-297. -/
def startNode (n : Nat) (s : Sys) : List Act :=
  .start n .timers :: ((startlist.filter s).map (.start n) ++ [.loop n])

/-- node.py:331-339. -/
def stopNode (n : Nat) (s : Sys) : List Act :=
  (startlist.reverse.filter s).map (.stop n) ++ [.stop n .timers]

/-- main.py:254-255: the nodes from number `n` on. -/
def startNodes : Nat → List Sys → List Act
  | _, [] => []
  | n, s :: l => startNode n s ++ startNodes (n + 1) l

/-- main.py:290-291. -/
def stopNodes : Nat → List Sys → List Act
  | _, [] => []
  | n, s :: l => stopNodes (n + 1) l ++ stopNode n s

/-- The API, if there is one: whether its socket could be made. -/
structure Api where
  bound : Bool
deriving DecidableEq, Repr

/-- Acts in order, up to an exception before one of them.  `env` says where one comes, counted over the whole
run; `api.stop` raises AttributeError if there is no thread (apiserver.py:177-180 and 210). -/
def exec (api : Option Api) (env : Nat → Option Exc) : Nat → List Act → List Act × Option Exc
  | _, [] => ([], none)
  | i, a :: l =>
    match env i with
    | some x => ([], some x)
    | none =>
      if a = .apiStop ∧ api.any (fun p => !p.bound) then ([a], some .other)
      else (a :: (exec api env (i + 1) l).1, (exec api env (i + 1) l).2)

/-- Before `try`, main.py:253-260. -/
def before (ss : List Sys) (api : Option Api) : List Act :=
  startNodes 0 ss ++ ((if api.isSome then [.apiStart] else []) ++ [.running])

/-- `finally`, main.py:285-294. -/
def after (ss : List Sys) (api : Option Api) : List Act :=
  (if api.isSome then [.apiStop] else []) ++ (stopNodes 0 ss ++ [.logStop])

/-- main.py:253-294.  `try` goes to `finally` however it ends; an exception in the handlers is raised again
after `finally`, if that has none of its own. -/
def run (ss : List Sys) (api : Option Api) (env : Nat → Option Exc) : List Act × Option Exc :=
  let b := exec api env 0 (before ss api)
  match b.2 with
  | some x => (b.1, some x)
  | none =>
    let n := (before ss api).length
    let s := exec api env n [.serve]
    let h := exec api env (n + 1) [.say]
    let f := exec api env (n + 2) (after ss api)
    (b.1 ++ (s.1 ++ (h.1 ++ f.1)), f.2.or h.2)

/-! ## The socket of the API -/

/-- A run of the program with an API: whether it ended in order (`api.stop` was reached), whether the socket
could not be made, and whether closing a socket ends the `accept` of another thread, so that it gets to
apiserver.py:197-198 (not on Linux). -/
structure Life where
  orderly : Bool
  bindFails : Bool
  wakes : Bool
deriving DecidableEq, Repr

/-- What becomes of it: an exception at the start (apiserver.py:155-158), no API, or an API. -/
inductive Fate where
  | refused | noApi | serving
deriving DecidableEq, Repr

/-- One run; the state is whether there is a file with the name of the socket.  `bind` makes it; only `cleanup`
in the thread of the server removes it (apiserver.py:198 and 212-220), since `rmsock` always raises NameError
(apiserver.py:134-142). -/
def life (file : Bool) (l : Life) : Fate × Bool :=
  if file then (.refused, true)
  else if l.bindFails then (.noApi, false)
  else (.serving, !(l.orderly && l.wakes))

/-- Runs one after another. -/
def lives : Bool → List Life → List Fate × Bool
  | f, [] => ([], f)
  | f, l :: ls => ((life f l).1 :: (lives (life f l).2 ls).1, (lives (life f l).2 ls).2)

end Verif.Boot
