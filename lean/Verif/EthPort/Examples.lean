import Verif.EthPort.PropsFilter
import Verif.EthPort.PropsCount
/-!
# Cases that meet the hypotheses of C109 to C111
-/
namespace Verif.EthPort

open Verif.Framing (Bytes)
open Verif.Framing.Eth (isMulti)

/-- A history, newest call first, run from the start; `none` if a call is about a port that is not there. -/
def replay (single : Bool) (hw : Bytes) : List Op → Option Dl
  | [] => some { single, hwaddr := hw }
  | op :: h =>
    match replay single hw h with
    | none => none
    | some s =>
      match op.port with
      | none => some (step s op)
      | some i => if i < s.ports.length then some (step s op) else none

theorem replay_reach {single : Bool} {hw : Bytes} :
    ∀ {h : List Op} {s : Dl}, replay single hw h = some s → Reach single hw s h
  | [], s, hs => by
    simp only [replay, Option.some.injEq] at hs
    subst hs; exact .init
  | op :: h, s, hs => by
    simp only [replay] at hs
    cases hr : replay single hw h with
    | none => rw [hr] at hs; simp at hs
    | some s' =>
      rw [hr] at hs
      have ih := replay_reach hr
      cases hp : op.port with
      | none =>
        rw [hp] at hs
        simp only [Option.some.injEq] at hs
        subst hs
        exact .step op ih (by intro i hi; rw [hp] at hi; simp at hi)
      | some i =>
        rw [hp] at hs
        simp only at hs
        split at hs
        · rename_i hlt
          simp only [Option.some.injEq] at hs
          subst hs
          exact .step op ih (by intro j hj; rw [hp] at hj; cases hj; exact hlt)
        · simp at hs

def hwEx : Bytes := [8, 0, 0x2b, 1, 2, 3]
def nodeEx : Bytes := [0xaa, 0, 4, 0, 1, 4]
def routers : Bytes := [0xab, 0, 0, 3, 0, 0]
def console : Bytes := [0xab, 0, 0, 2, 0, 0]

/-- Routing and the console of MOP on one Ethernet, with a group address that is given up again, and an attempt to get
the type of the other port. -/
def histEx : List Op :=
  [.rmMc 0 console, .addProto 1 [0x60, 3], .addMc 0 console, .addMc 1 console, .create (some [0x60, 2]) true,
   .start none, .addMc 0 routers, .setMac 0 nodeEx, .create (some [0x60, 3]) true]

def frameEx (dest type : Bytes) : Frame := ⟨dest, [0xaa, 0, 4, 0, 2, 4], type, [2, 0, 7, 9, 0x42, 0x42]⟩

def stEx : Dl := (replay false hwEx histEx).getD { single := false, hwaddr := hwEx }

theorem reachEx : Reach false hwEx stEx histEx := replay_reach (by decide)

-- the routers' address reaches port 0, the console's only port 1, each with its own address
example : (receive stEx (frameEx routers [0x60, 3]).bytes).2 = .deliver 0 [0xaa, 0, 4, 0, 2, 4] [7, 9] := by decide
example : (receive stEx (frameEx console [0x60, 3]).bytes).2 = .ignore := by decide
example : (receive stEx (frameEx console [0x60, 2]).bytes).2 = .deliver 1 [0xaa, 0, 4, 0, 2, 4] [7, 9] := by decide
example : (receive stEx (frameEx nodeEx [0x60, 3]).bytes).2 = .deliver 0 [0xaa, 0, 4, 0, 2, 4] [7, 9] := by decide
example : (receive stEx (frameEx nodeEx [0x60, 2]).bytes).2 = .ignore := by decide
example : (receive stEx (frameEx hwEx [0x60, 2]).bytes).2 = .deliver 1 [0xaa, 0, 4, 0, 2, 4] [7, 9] := by decide

theorem okEx : (frameEx routers [0x60, 3]).Ok := ⟨rfl, rfl, rfl⟩
example : holder hwEx (.type [0x60, 3]) histEx = some 0 ∧ holder hwEx (.type [0x60, 2]) histEx = some 1 := by decide
example : lastMc 0 console histEx = some false ∧ lastMc 1 console histEx = some true := by decide
example : address false hwEx histEx 0 = some nodeEx ∧ address false hwEx histEx 1 = some hwEx := by decide

-- the filter is set, and it is not trivial
example : stEx.opened = true ∧ (∀ small, seen small stEx (frameEx routers [0x60, 3]).bytes = true) :=
  ⟨by decide, fun small => filter_transparent reachEx small _ okEx (by decide) (i := 0)
    (src := [0xaa, 0, 4, 0, 2, 4]) (pl := [7, 9]) (by decide)⟩
example : seen (fun _ _ => false) stEx (frameEx console [0x60, 3]).bytes = false := by decide
example : stEx.ports[0]?.map (·.protoset) = some [[0x60, 3]] := by decide

-- two frames count twice, though one is not for us and one port has two types
example : (replay false hwEx (.frame (frameEx hwEx [0x60, 2]).bytes :: .frame (frameEx nodeEx [0x60, 2]).bytes ::
    .frame (frameEx routers [0x60, 3]).bytes :: .addProto 0 [0x60, 4] :: histEx)).map linePkts = some 2 := by decide

-- in single address mode the ports share the address
example : ((replay true hwEx histEx).map fun s => (receive s (frameEx nodeEx [0x60, 2]).bytes).2) =
    some (.deliver 1 [0xaa, 0, 4, 0, 2, 4] [7, 9]) := by decide

-- the thread of the bridge: two datagrams of the peer, a strange one between them; and a short one that ends it
example : (bridgeRun stEx [⟨true, (frameEx routers [0x60, 3]).bytes⟩, ⟨false, [1, 2, 3, 4, 5]⟩,
    ⟨true, (frameEx hwEx [0x60, 2]).bytes⟩]).2 =
      ([(0, [0xaa, 0, 4, 0, 2, 4], [7, 9]), (1, [0xaa, 0, 4, 0, 2, 4], [7, 9])], true) := by decide
example : (bridgeRun stEx [⟨true, (frameEx routers [0x60, 3]).bytes⟩, ⟨false, [0]⟩,
    ⟨true, (frameEx hwEx [0x60, 2]).bytes⟩]).2 = ([(0, [0xaa, 0, 4, 0, 2, 4], [7, 9])], false) := by decide

end Verif.EthPort
