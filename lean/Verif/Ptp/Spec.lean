import Verif.Ptp.Model

/-!
# Point-to-point circuits: specification

What an acceptable init message is, which packets a running circuit expects, what the record of the
circuit's actions may look like.  Written from the claims, without the functions of the model.
-/
namespace Verif.Ptp

/-- The item hands the packet `p` to the circuit. -/
def Delivers (i : Item) (p : Pkt) : Prop := i = .again p ∨ ∃ pd, i = .recv pd (.pkt p)

/-- The node number is usable: not zero, and within the table if we are a router. -/
def NumberOk (c : Cfg) (n : Nat) : Prop := 0 < n ∧ (c.ntype = .l1 ∨ c.ntype = .l2 → n ≤ c.maxnodes)

/-- The area rule: between two level 2 routers the area is one of those configured, else it is our
own. -/
def AreaOk (c : Cfg) (nt : NT) (area : Nat) : Prop :=
  (nt = .l2 ∧ c.ntype = .l2 → 1 ≤ area ∧ area ≤ c.maxarea) ∧
  (¬ (nt = .l2 ∧ c.ntype = .l2) → area = c.homearea)

/-- `p` is an init message a node with configuration `c` accepts, from a neighbour of phase `ph` which
it will know by address `id`, as a node of type `nt`, with block size `blk`. -/
inductive InitOk (c : Cfg) : Pkt → Nat → Nat → NT → Nat → Prop
  | phase4 {src nt verif blk tm} : 4 ≤ c.phase → (nt = .endnode ∨ nt = .l1 ∨ nt = .l2) →
      NumberOk c (src % 1024) → AreaOk c nt (src / 1024) →
      InitOk c (.init4 src nt verif false blk tm) 4 src nt (min blk 576)
  | phase3 {src nt verif blk} : 3 ≤ c.phase → (nt = .endnode ∨ nt = .l1) → NumberOk c src →
      (nt = .l1 → (c.ntype = .l1 ∨ c.ntype = .l2) → 2 * c.maxnodes + 6 ≤ blk) →
      InitOk c (.init3 src nt verif blk) 3 ((if c.phase = 4 then c.homearea * 1024 else 0) + src % 1024) nt
        (min blk 576)
  | phase2 {src name verif blk id} : NumberOk c src → c.names name = some id →
      InitOk c (.nodeInit src name verif blk) 2 id .phase2 (min blk 576)

/-- `p` asks for verification. -/
def AsksVerify : Pkt → Prop
  | .init4 _ _ v _ _ _ | .init3 _ _ v _ | .nodeInit _ _ v _ => v = true
  | _ => False

/-- What an accepted init message `p` from a node of phase `ph` known as `id` makes us send: an init
message of the neighbour's phase if that is older than ours, and the password if asked for it. -/
def replies (c : Cfg) (p : Pkt) (ph id : Nat) : List Out :=
  (if ph < c.phase ∧ ph ≠ 4 then [.sendInit ph c.verify] else []) ++
  (match p with
    | .init4 _ _ true _ _ _ | .init3 _ _ true _ | .nodeInit _ _ true _ => [.sendVerify ph ((c.overif id).getD [])]
    | _ => [])

/-- `p` is the verification message we want from node `id` of phase `ph`. -/
inductive VerifyOk (c : Cfg) (ph id : Nat) : Pkt → Prop
  | phase4 {f} : ph = 4 → c.iverif id = some f → VerifyOk c ph id (.verify id f)
  | phase3 {f} : ph = 3 → c.iverif id = some f → VerifyOk c ph id (.verify (id % 1024) f)
  /-- the Phase II message has a fixed field of 8 bytes -/
  | phase2 {v f : Bytes} : ph = 2 → c.iverif id = some v → f.length = min 8 (v.length + 7) →
      (∀ k : Nat, k < f.length → f[k]? = if k < v.length then v[k]? else some 0) →
      VerifyOk c ph id (.nodeVerify f)

/-- Items which do not disturb waiting for the verification from a neighbour of phase `ph`: commands
without effect, buffers that are ignored, and on a datalink without start notification further init
messages. -/
def Quiet (c : Cfg) (ph : Nat) (q : Item) : Prop :=
  q = .start ∨ q = .dlUp ∨ (∃ pd, q = .recv pd .null) ∨ (ph < 4 ∧ ∃ b, q = .recv true b) ∨
  (c.startWorks = false ∧ ∃ pd r, r.isInit = true ∧ (q = .recv pd (.pkt r) ∨ q = .recv pd (.extra r)))

/-- The packets expected from a running neighbour of phase `ph` and type `nt`. -/
def Expected (c : Cfg) (ph : Nat) (nt : NT) : Pkt → Prop
  | .short _ => ph = 3 ∨ ph = 4
  | .hello .. => ph = 3 ∨ ph = 4
  | .long _ => ph = 4
  | .routing1 .. => ph = 4 ∧ (c.ntype = .l1 ∨ c.ntype = .l2) ∧ (nt = .l1 ∨ nt = .l2)
  | .routing2 .. => ph = 4 ∧ c.ntype = .l2 ∧ nt = .l2
  | .routing3 .. => ph = 3 ∧ (c.ntype = .l1 ∨ c.ntype = .l2) ∧ nt = .l1
  | .nop => ph = 2
  | .p2 _ => ph = 2
  | _ => False

/-- The adjacency as told to the routing layer: at most one at a time, taken down under the address it
came up with. -/
inductive Told : List Out → Option (Nat × NT × Nat) → Prop
  | nil : Told [] none
  | up {l a nt blk} : Told l none → Told (l ++ [.adjUp a nt blk]) (some (a, nt, blk))
  | down {l a nt blk} : Told l (some (a, nt, blk)) → Told (l ++ [.adjDown a]) none
  | other {l o v} : Told l v → (∀ a nt blk, o ≠ .adjUp a nt blk) → (∀ a, o ≠ .adjDown a) → Told (l ++ [o]) v

end Verif.Ptp
