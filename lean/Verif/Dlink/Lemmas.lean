import Verif.Dlink.Spec

/-! # Helper lemmas: logs grow at the end; the invariant of the datalink -/

namespace Verif.Dlink

variable {M : Type}

theorem reports_append (a b : List (Ev M)) : reports (a ++ b) = reports a ++ reports b := by
  induction a with
  | nil => rfl
  | cons e l ih => cases e <;> simp [reports, ih]

theorem got_append (g : Nat) (a b : List (Ev M)) : got g (a ++ b) = got g a ++ got g b := by
  induction a with
  | nil => rfl
  | cons e l ih =>
    cases e with
    | got g' m =>
      simp only [List.cons_append, got, ih]
      split <;> simp
    | _ => simp [got, ih]

theorem sinceUpFrom_append (a b : List (Ev M)) :
    ∀ acc, sinceUpFrom acc (a ++ b) = sinceUpFrom (sinceUpFrom acc a) b := by
  induction a with
  | nil => intro acc; rfl
  | cons e l ih => intro acc; cases e <;> simp [sinceUpFrom, ih]

theorem sinceUp_append (a b : List (Ev M)) : sinceUp (a ++ b) = sinceUpFrom (sinceUp a) b :=
  sinceUpFrom_append a b []

theorem wantedFrom_append (a b : List (Ev M)) :
    ∀ c, wantedFrom c (a ++ b) = wantedFrom (wantedFrom c a) b := by
  induction a with
  | nil => intro c; rfl
  | cons e l ih => intro c; cases e <;> simp [wantedFrom, ih]

theorem wanted_append (a b : List (Ev M)) : wanted (a ++ b) = wantedFrom (wanted a) b :=
  wantedFrom_append a b false

theorem alternates_snoc (l : List Bool) : ∀ (b x : Bool),
    Alternates b (l ++ [x]) ↔ Alternates b l ∧ x = !(l.getLastD b) := by
  induction l with
  | nil => intro b x; simp [Alternates]
  | cons y l ih =>
    intro b x
    simp only [List.cons_append, Alternates, ih, List.getLastD_cons]
    constructor
    · rintro ⟨h1, h2, h3⟩; exact ⟨⟨h1, h2⟩, h3⟩
    · rintro ⟨⟨h1, h2⟩, h3⟩; exact ⟨h1, h2, h3⟩

/-- Items queued by the receive thread. -/
def isThr : Item M → Bool
  | .connected _ => true
  | .received _ _ => true
  | .threadExit _ => true
  | _ => false

/-- How the receive thread's items on the queue end. -/
def Ends (g : Nat) (p : Phase) (tail : List (Item M)) : Prop :=
  (p = .looping ∧ tail = []) ∨ (p = .done ∧ tail = [.threadExit g])

/-- The receive thread, its items on the queue, and what the log says about it. -/
inductive TInv (st : St) (log : List (Ev M)) : Option Thr → List (Item M) → Prop
  | absent (h1 : st ≠ .connecting) (h2 : st ≠ .running) (h3 : st ≠ .shutdown) : TInv st log none []
  | waiting {g : Nat} {b : Bool} (h : st ≠ .running) (hg : got g log = []) :
      TInv st log (some ⟨g, .waiting, b⟩) []
  | failed {g : Nat} {b : Bool} (h : st ≠ .running) (hg : got g log = []) :
      TInv st log (some ⟨g, .done, b⟩) [.threadExit g]
  | fresh {g : Nat} {p : Phase} {b : Bool} {rs : List M} {tail : List (Item M)} (h : st ≠ .running)
      (he : Ends g p tail) (hg : got g log = rs) :
      TInv st log (some ⟨g, p, b⟩) (.connected g :: rs.map (.received g) ++ tail)
  | run {g : Nat} {p : Phase} {b : Bool} {rs : List M} {tail : List (Item M)} (h : st = .running)
      (he : Ends g p tail) (hg : got g log = (sinceUp log).map Prod.snd ++ rs)
      (hs : ∀ x ∈ sinceUp log, x.1 = g) :
      TInv st log (some ⟨g, p, b⟩) (rs.map (.received g) ++ tail)
  | idle {g : Nat} {p : Phase} {b : Bool} {rs : List M} {tail : List (Item M)} (h : st ≠ .running)
      (he : Ends g p tail) : TInv st log (some ⟨g, p, b⟩) (rs.map (.received g) ++ tail)

/-- The invariant. -/
structure Inv (s : State M) (log : List (Ev M)) : Prop where
  thr : TInv s.st log s.th (s.queue.filter isThr)
  up : s.isUp = true ↔ s.st = .running
  alt : Alternates false (reports log)
  stat : status log = s.isUp
  gen : ∀ t, s.th = some t → t.gen < s.threads
  old : ∀ g, s.threads ≤ g → got g log = []
  recon : s.st = .reconnecting → s.th ≠ none ∨ s.armed = true ∨ .timeout s.rev ∈ s.queue
  halt : s.st = .halted → .start ∈ s.queue ∨ wanted log = false
  shut : s.st = .shutdown → wanted log = false

end Verif.Dlink
