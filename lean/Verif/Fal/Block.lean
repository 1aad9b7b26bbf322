/-!
# Blocking of DAP messages

Model of `DapSession.send`, `flush`, `recv`, `pydecnet/decnet/dap.py` 75-155, and of the splitting of blocks in
`DapBase.decode`, `pydecnet/decnet/dap_packets.py`.

A message is its type and what follows the header.  The header is the type, the flags and, if the flags say
so, one or two bytes of length.  Left out: stream identification and bit count, which are never sent.
-/

namespace Verif.Fal

abbrev Bytes := List UInt8

structure Msg where
  typ : UInt8
  body : Bytes
  deriving DecidableEq, Repr

/-- What the peer said in its configuration message: the largest block it takes (0 for no limit), blocking,
two byte lengths. -/
structure Peer where
  bufsiz : Nat
  blocking : Bool
  len2 : Bool
  deriving DecidableEq, Repr

/-- `BUFSIZ` and `self.bufsiz`, dap.py 15, 67. -/
def Peer.limit (p : Peer) : Nat := min p.bufsiz 65535

/-- `msg.encode ()` without lengths, with one byte and with two. -/
def enc0 (m : Msg) : Bytes := m.typ :: 0 :: m.body
def enc1 (m : Msg) : Bytes := m.typ :: 2 :: UInt8.ofNat m.body.length :: m.body
def enc2 (m : Msg) : Bytes :=
  m.typ :: 6 :: UInt8.ofNat (m.body.length % 256) :: UInt8.ofNat (m.body.length / 256) :: m.body

/-- `txdata` (joined) and `txlen`. -/
structure Tx where
  data : List Bytes := []
  len : Nat := 0
  deriving DecidableEq, Repr

/-- `flush`, dap.py 103-109: the new state and the blocks handed to the connection. -/
def flush (t : Tx) : Tx × List Bytes := if t.data = [] then (t, []) else ({}, [t.data.flatten])

/-- `send`, dap.py 118-160; `none` is the failed `assert`. -/
def send (p : Peer) (t : Tx) (m : Msg) : Option (Tx × List Bytes) :=
  let mlen := (enc0 m).length
  if p.limit < mlen then none
  else if !p.blocking then some (t, [enc0 m])
  else
    let (t, out) := if p.limit < t.len + mlen then flush t else (t, [])
    if 254 < mlen && !p.len2 then
      let (t, out') := flush { t with data := t.data ++ [enc0 m] }
      some (t, out ++ out')
    else if mlen < 255 then
      some ({ data := t.data ++ [enc1 m], len := t.len + (mlen + 1) }, out)
    else
      some ({ data := t.data ++ [enc2 m], len := t.len + (mlen + 2) }, out)

/-- What an application does. -/
inductive Op where
  | send (m : Msg)
  | flush
  deriving DecidableEq, Repr

def exec (p : Peer) : Tx → List Op → Option (Tx × List Bytes)
  | t, [] => some (t, [])
  | t, .send m :: ops => do
    let (t, out) ← send p t m
    let (t', out') ← exec p t ops
    some (t', out ++ out')
  | t, .flush :: ops => do
    let (t', out') ← exec p (flush t).1 ops
    some (t', (flush t).2 ++ out')

/-- The start of `DapBase.decode`: the first message of a block, and the rest.  `none` is an exception:
nothing there, or shorter than its length says. -/
def next : Bytes → Option (Msg × Bytes)
  | [] => none
  | [t] => some (⟨t, []⟩, [])
  | t :: f :: b =>
    if f = 2 then
      match b with
      | n :: b => if b.length < n.toNat then none else some (⟨t, b.take n.toNat⟩, b.drop n.toNat)
      | [] => none
    else if f = 6 then
      match b with
      | n :: k :: b =>
        if b.length < n.toNat + k.toNat * 256 then none
        else some (⟨t, b.take (n.toNat + k.toNat * 256)⟩, b.drop (n.toNat + k.toNat * 256))
      | _ => none
    else some (⟨t, b⟩, [])

theorem next_shorter {b r : Bytes} {m : Msg} (h : next b = some (m, r)) : r.length < b.length := by
  unfold next at h
  split at h
  · simp at h
  · simp only [Option.some.injEq, Prod.mk.injEq] at h; rw [← h.2]; simp
  · split at h
    · split at h
      · split at h
        · simp at h
        · simp only [Option.some.injEq, Prod.mk.injEq] at h; rw [← h.2]
          simp only [List.length_drop, List.length_cons]; omega
      · simp at h
    · split at h
      · split at h
        · split at h
          · simp at h
          · simp only [Option.some.injEq, Prod.mk.injEq] at h; rw [← h.2]
            simp only [List.length_drop, List.length_cons]; omega
        · simp at h
      · simp only [Option.some.injEq, Prod.mk.injEq] at h; rw [← h.2]; simp

/-- The outcome of `recv`: a message, with what is left of its block and the blocks after it; the end of the
connection; an exception. -/
inductive Got where
  | msg (m : Msg) (rx : Bytes) (blocks : List Bytes)
  | gone
  | bad
  deriving DecidableEq, Repr

/-- `recv`, dap.py 74-101.  Configuration messages (type 1) are answered, and the next message is looked
for. -/
def recv (rx : Bytes) (blocks : List Bytes) : Got :=
  match rx, blocks with
  | [], [] => .gone
  | [], b :: blocks =>
    match _h : next b with
    | none => .bad
    | some (m, r) =>
      if m.typ = 1 then recv r blocks else .msg m r blocks
  | a :: rx, blocks =>
    match _h : next (a :: rx) with
    | none => .bad
    | some (m, r) =>
      if m.typ = 1 then recv r blocks else .msg m r blocks
termination_by rx.length + (blocks.map fun b => b.length + 1).sum
decreasing_by
  · have := next_shorter _h; simp only [List.map_cons, List.sum_cons, List.length_nil]; omega
  · have := next_shorter _h; omega

/-- `recv` until the connection is gone. -/
inductive Drains : Bytes → List Bytes → List Msg → Prop
  | gone {rx bs} : recv rx bs = .gone → Drains rx bs []
  | msg {rx bs m rx' bs' ms} : recv rx bs = .msg m rx' bs' → Drains rx' bs' ms → Drains rx bs (m :: ms)

end Verif.Fal
