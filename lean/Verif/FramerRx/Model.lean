/-!
# Frames of a framer (`decnet/ddcmp.py`)

`_FramerDDCMP.receive_frame` and `receive_loop`, ddcmp.py:1553-1619, with `handle_pkt` (505-530).  Decoding of the header of
a DDCMP message (130-150, 167-193, 262-307; `Verif.Ddcmp`) and of a status message are parameters.  Counters are in
`Verif.MapCtr`.
-/

namespace Verif.FramerRx

abbrev Bytes := List Nat

/-- A DDCMP header that was decoded: a control message, or data (`maint` or not) with its count and `resp`. -/
inductive Hdr where
  | ctl (type : Nat)
  | data (maint : Bool) (count resp : Nat)
deriving DecidableEq, Repr

/-- What the decoders make of a payload: `none` is DecodeError, for a status any exception. -/
structure Dec where
  hdr : Bytes → Option Hdr
  status : Bytes → Option Bool

/-- A packet that `FromFramer` decodes (ddcmp.py:1312-1320, 1558-1563): for us and of the protocol or not, `stat`, payload.
Timeouts of pcap, packets that do not decode and packets for others do nothing (1554-1566). -/
structure Frame where
  ours : Bool
  stat : Nat
  payload : Bytes
deriving DecidableEq, Repr

/-- Work for the node: a message with its data, or an error with the acknowledgement to be acted on. -/
inductive Work where
  | ctl (type : Nat)
  | data (maint : Bool) (payload : Bytes)
  | err (code : Nat) (resp : Option Nat)
deriving DecidableEq, Repr

/-- `on` and whether there is a `last_status`, ddcmp.py:1477-1478. -/
structure State where
  on : Bool := false
  known : Bool := false
deriving DecidableEq, Repr

/-- The payload of a data message without `recv`, ddcmp.py:209-223, after the header of eight bytes. -/
def body (p : Bytes) (count : Nat) : Bytes :=
  if (p.drop 8).length < count + 2 then [] else (p.drop 8).take count

/-- ddcmp.py:1553-1605; `none` is an exception.  With status OK `crcok` is set whatever the decoder said (1583-1584). -/
def receive (dec : Dec) (s : State) (f : Frame) : Option (State × List Work) :=
  if f.ours = false then some (s, [])
  else match f.payload with
  | [] => none
  | c :: _ =>
    if c = 17 then
      match dec.status f.payload with
      | none => some (s, [])
      | some on => some (⟨on, true⟩, [])
    else if f.stat = 0 then
      match dec.hdr f.payload with
      | none => some (s, [.err 17 none])
      | some (.ctl t) => some (s, [.ctl t])
      | some (.data m n _) => some (s, [.data m (body f.payload n)])
    else if f.stat = 1 then some (s, [.err 1 none])
    else if f.stat = 2 then
      match dec.hdr f.payload with
      | none => none
      | some (.ctl t) => some (s, [.ctl t])
      | some (.data m _ r) => some (s, [.err 2 (if m then none else some r)])
    else if f.stat = 3 then some (s, [.err 16 none])
    else if f.stat = 4 then some (s, [.err 1 none])
    else some (s, [])

/-- How the thread is after some frames. -/
inductive End where
  | runs | off | died
deriving DecidableEq, Repr

/-- `receive_loop`, ddcmp.py:1607-1619, one frame at a time: `dispatch` may take several before the test for "off". -/
def loop (dec : Dec) (s : State) : List Frame → List Work × End
  | [] => ([], .runs)
  | f :: fs =>
    match receive dec s f with
    | none => ([], .died)
    | some (t, w) =>
      if t.known = true ∧ t.on = false then (w, .off)
      else (w ++ (loop dec t fs).1, (loop dec t fs).2)

end Verif.FramerRx
