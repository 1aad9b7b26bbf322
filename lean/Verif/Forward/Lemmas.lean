import Verif.Forward.Model

namespace Verif.Forward

open Verif.RoutPkt (DataPkt)
open Verif.Route (Out Adj)

/-- The packet that goes out. -/
def outgoing (n : RNode) (p : DataPkt) (inp : Option Nat) (orig : Bool) (k : Nat) : DataPkt :=
  { p with
    ie := if orig = false ∧ inp ≠ some (n.circ k) then 0 else p.ie
    visit := if orig then p.visit else p.visit + 1 }

theorem forward_self {n : RNode} {p : DataPkt} {inp : Option Nat} {orig : Bool} (h : n.find p.dst = .via .self) :
    forward n p inp orig = .toNsp p := by
  rw [forward]; rw [h]

theorem forward_error {n : RNode} {p : DataPkt} {k : Nat} (h : n.find p.dst = .via (.nbr k)) :
    forward n p none false = .error := by
  rw [forward]; rw [h]; simp

theorem forward_send {n : RNode} {p : DataPkt} {inp : Option Nat} {orig : Bool} {k : Nat}
    (h : n.find p.dst = .via (.nbr k)) (hi : orig = true ∨ inp ≠ none) (hv : p.visit < limit n p orig) :
    forward n p inp orig = .send k (outgoing n p inp orig k) := by
  rw [forward, h]
  simp only
  rw [if_neg (by
    rintro ⟨h1, h2⟩
    rcases hi with hi | hi
    · rw [h1] at hi; cases hi
    · exact hi h2), if_pos hv]
  unfold outgoing
  congr 1
  cases orig with
  | true => simp
  | false =>
    by_cases hc : inp = some (n.circ k)
    · simp [hc]
    · simp [hc]

/-- Neither for this node nor with an output and visits left. -/
def Undeliverable (n : RNode) (p : DataPkt) (orig : Bool) : Prop :=
  n.find p.dst = .unreach ∨ n.find p.dst = .outOfRange ∨
    ((∃ k, n.find p.dst = .via (.nbr k)) ∧ limit n p orig ≤ p.visit)

theorem forward_fail {n : RNode} {p : DataPkt} {inp : Option Nat} {orig : Bool}
    (h : Undeliverable n p orig) (hi : orig = true ∨ inp ≠ none) :
    forward n p inp orig = if p.rqr ≠ 0 ∧ p.rts = 0 then forward n (returned p) inp false else .drop := by
  rw [forward]
  rcases h with h | h | ⟨⟨k, h⟩, hv⟩
  · rw [h]; simp only [dite_eq_ite]
  · rw [h]; simp only [dite_eq_ite]
  · rw [h]
    simp only
    rw [if_neg (by
      rintro ⟨h1, h2⟩
      rcases hi with hi | hi
      · rw [h1] at hi; cases hi
      · exact hi h2), if_neg (by omega)]
    simp only [dite_eq_ite]

theorem cases_of (n : RNode) (p : DataPkt) (orig : Bool) :
    n.find p.dst = .via .self ∨ (∃ k, n.find p.dst = .via (.nbr k) ∧ p.visit < limit n p orig) ∨
      Undeliverable n p orig := by
  cases h : n.find p.dst with
  | via a =>
    cases a with
    | self => exact Or.inl rfl
    | nbr k =>
      right
      by_cases hv : p.visit < limit n p orig
      · exact Or.inl ⟨k, rfl, hv⟩
      · exact Or.inr (Or.inr (Or.inr ⟨⟨k, h⟩, by omega⟩))
  | unreach => exact Or.inr (Or.inr (Or.inl h))
  | outOfRange => exact Or.inr (Or.inr (Or.inr (Or.inl h)))

end Verif.Forward
