import Verif.Configr.Props
import Verif.MopId.Heard
import Verif.MopId.Wire

/-!
# C130: the tables of stations are as the theorems suppose
-/

namespace Verif.Configr

open Nice (Simple Val Item)

theorem fixed_len {n : Nat} {v x : Bytes} (h : MopId.decFixed n v = some x) : x.length = n := by
  unfold MopId.decFixed at h
  obtain ⟨y, hy, rfl⟩ := Option.map_eq_some_iff.mp h
  exact (MopId.take2 (x := y.1) (y := y.2) hy).1

theorem fromLe_lt : ∀ b : Bytes, MopId.fromLe b < 256 ^ b.length
  | [] => by decide
  | x :: xs => by
    have := fromLe_lt xs
    have := x.toNat_lt
    simp only [MopId.fromLe, List.length_cons, Nat.pow_succ]
    omega

theorem num_lt {n : Nat} {v : Bytes} {x : Nat} (h : MopId.decNum n v = some x) : x < 256 ^ n := by
  unfold MopId.decNum at h
  obtain ⟨y, hy, rfl⟩ := Option.map_eq_some_iff.mp h
  have := fromLe_lt y.1
  rwa [(MopId.take2 (x := y.1) (y := y.2) hy).1] at this

theorem item_sized {m m' : MopId.SysId} {tag : Nat} {v : Bytes} (hs : Sized m) (h : MopId.decItem m tag v = some m') :
    Sized m' := by
  unfold MopId.decItem at h
  split at h
  all_goals first
    | (obtain ⟨x, hx, rfl⟩ := Option.map_eq_some_iff.mp h
       first
         | exact { hs with version := fun y hy => by injection hy with hy; subst hy; exact fixed_len hx }
         | exact { hs with user := fun y hy => by injection hy with hy; subst hy; exact fixed_len hx }
         | exact { hs with hwaddr := fun y hy => by injection hy with hy; subst hy; exact fixed_len hx }
         | exact { hs with resTimer := fun y hy => by injection hy with hy; subst hy; exact num_lt hx }
         | exact { hs with cmdSize := fun y hy => by injection hy with hy; subst hy; exact num_lt hx }
         | exact { hs with respSize := fun y hy => by injection hy with hy; subst hy; exact num_lt hx }
         | exact { hs with device := fun y hy => by injection hy with hy; subst hy; exact num_lt hx }
         | exact { hs with processor := fun y hy => by injection hy with hy; subst hy; exact num_lt hx }
         | exact { hs with datalink := fun y hy => by injection hy with hy; subst hy; exact num_lt hx }
         | exact { hs with bufsize := fun y hy => by injection hy with hy; subst hy; exact num_lt hx }
         | exact { hs with })
    | (injection h with h; subst h; exact { hs with })

theorem items_sized (n : Nat) : ∀ (b : Bytes) (m m' : MopId.SysId), b.length ≤ n → Sized m →
    MopId.decItems m b = some m' → Sized m' := by
  induction n with
  | zero =>
    intro b m m' hl hs h
    match b, hl with
    | [], _ => rw [MopId.decItems_nil] at h; injection h with h; subst h; exact hs
  | succ n ih =>
    intro b m m' hl hs h
    unfold MopId.decItems at h
    split at h
    · next t0 t1 l r =>
      split at h
      · cases h
      · split at h
        · cases h
        · next m1 h1 =>
          refine ih _ m1 m' ?_ (item_sized hs h1) h
          simp only [List.length_drop, List.length_cons] at hl ⊢
          omega
    · injection h with h; subst h; exact hs

theorem exact_eq {α : Type} {x : α × Bytes} {y : α} (h : MopId.exact x = some y) : x.1 = y := by
  unfold MopId.exact at h
  split at h
  · exact Option.some.inj h
  · cases h

/-- Whatever is received, the values have the sizes of their fields. -/
theorem parse_sized {b : Bytes} {m : MopId.SysId} (h : MopId.parse b = some (.sysId m)) : Sized m := by
  unfold MopId.parse at h
  split at h
  · cases h
  · next r =>
    obtain ⟨x, _, h⟩ := Option.bind_eq_some_iff.mp h
    obtain ⟨y, _, h⟩ := Option.bind_eq_some_iff.mp h
    obtain ⟨m1, h1, h2⟩ := Option.map_eq_some_iff.mp h
    injection h2 with h2
    subst h2
    refine items_sized _ _ _ _ (Nat.le_refl _) ?_ h1
    constructor <;> intro v hv <;> cases hv
  · obtain ⟨x, _, h⟩ := Option.bind_eq_some_iff.mp h
    obtain ⟨y, _, h⟩ := Option.bind_eq_some_iff.mp h
    exact absurd (exact_eq h) (by simp)
  · obtain ⟨x, _, h⟩ := Option.bind_eq_some_iff.mp h
    exact absurd (exact_eq h) (by simp)
  · obtain ⟨x, _, h⟩ := Option.bind_eq_some_iff.mp h
    obtain ⟨y, _, h⟩ := Option.bind_eq_some_iff.mp h
    exact absurd (exact_eq h) (by simp)
  · obtain ⟨x, _, h⟩ := Option.bind_eq_some_iff.mp h
    exact absurd (exact_eq h) (by simp)
  · exact absurd (exact_eq h) (by simp)
  · simp at h
  · simp at h
  · cases h

/-- After any events on a circuit, its table of stations is as the theorems suppose. -/
theorem heard_good (c : MopId.Circ) (es : List MopId.Ev) (h0 : c.heard = [])
    (h6 : ∀ e ∈ es, ∀ s b now dt w n, e = .frame s b now dt w n → s.length = 6)
    (name : Str) (hn : name.length ≤ 255 ∧ ∀ x ∈ name, x ≤ 255) (start : Int) :
    Good { name := name, heard := (MopId.run c es).heard, start := start } := by
  have key : ∀ (es : List MopId.Ev) (c : MopId.Circ), (∀ x ∈ c.heard, x.1.length = 6 ∧ Sized x.2.1) →
      (∀ e ∈ es, ∀ s b now dt w n, e = .frame s b now dt w n → s.length = 6) →
      ∀ x ∈ (MopId.run c es).heard, x.1.length = 6 ∧ Sized x.2.1 := by
    intro es
    induction es with
    | nil => intro c hc _; exact hc
    | cons e es ih =>
      intro c hc he
      rw [MopId.run]
      apply ih
      · rcases MopId.step_heard c e with h1 | ⟨s, b, now, dt, w, n, m, h2, h3, h1⟩
        · rw [h1]; exact hc
        · rw [h1]
          have hs := he e (by simp) s b now dt w n h2
          have hz := parse_sized h3
          intro x hx
          unfold MopId.put at hx
          split at hx
          · obtain ⟨y, hy, rfl⟩ := List.mem_map.mp hx
            split
            · exact ⟨hs, hz⟩
            · exact hc y hy
          · rcases List.mem_append.mp hx with hx | hx
            · exact hc x hx
            · rw [List.mem_singleton] at hx; subst hx; exact ⟨hs, hz⟩
      · exact fun e' h' => he e' (by simp [h'])
  have hk := key es c (by rw [h0]; simp) h6
  exact ⟨hn, MopId.heard_nodup c es (by rw [h0]; simp), fun x hx => (hk x hx).1, fun x hx => (hk x hx).2⟩

/-! ## Cases -/

/-- Two stations heard, the second address first; one of them said what software it has. -/
def exCirc : MopId.Circ := { ver := none, hwaddr := [2, 0, 0, 0, 0, 1] }

def exEvents : List MopId.Ev :=
  [.frame [2, 0, 0, 0, 0, 9] [7, 0, 0, 0, 1, 0, 3, 3, 1, 0, 2, 0, 2, 0x21, 0, 200, 0, 2, 1, 65] 5000 0 [] [],
   .frame [2, 0, 0, 0, 0, 8] [7, 0, 0, 0, 100, 0, 1, 37] 6000 0 [] []]

/-- `send` stops at the first item that cannot be encoded. -/
theorem send_stops (r : Rec) (b : List Rec) (hr : ∃ e, Nice.encode r.params = .error e) : ∀ a : List Rec,
    (∀ x ∈ a, ∃ e, Nice.encode x.params = .ok e) → (send (coded (a ++ r :: b))).2 = true ∧
      List.Forall₂ (fun (x : Rec) e => Nice.encode x.params = .ok e) a (bodies (send (coded (a ++ r :: b))).1)
  | [], _ => by
    obtain ⟨e, he⟩ := hr
    have : ∀ c l, send ((c, r) :: l) = ([], true) := fun c l => by unfold send; rw [he]
    cases b with
    | nil => rw [List.nil_append, coded, this]; exact ⟨rfl, .nil⟩
    | cons s b => rw [List.nil_append, coded, this]; exact ⟨rfl, .nil⟩
  | x :: a, ha => by
    obtain ⟨h1, h2⟩ := send_stops r b hr a (fun y hy => ha y (by simp [hy]))
    obtain ⟨e, he⟩ := ha x (by simp)
    have : ∀ c l, send ((c, x) :: l) = (.item c e :: (send l).1, (send l).2) := fun c l => by
      rw [send.eq_2, he]
    have hc : coded (x :: a ++ r :: b) = (3, x) :: coded (a ++ r :: b) := by
      cases a <;> rfl
    rw [hc, this]
    exact ⟨h1, .cons he h2⟩

/-- **An answer cut short (C130).**  If an item cannot be encoded, those before it are sent, nothing after them, and the
exception ends the answer. -/
theorem cut_short (up : Str → Str) (tm : Int → Tm) (cs : List Circ) (now : Int) (q : Req) (a b : List Rec) (r : Rec)
    (h : read up tm cs now q = some (a ++ r :: b)) (ha : ∀ x ∈ a, ∃ e, Nice.encode x.params = .ok e)
    (hr : ∃ e, Nice.encode r.params = .error e) :
    (answer up tm cs now q).2 = true ∧
      List.Forall₂ (fun (x : Rec) e => Nice.encode x.params = .ok e) a (bodies (answer up tm cs now q).1) := by
  obtain ⟨h1, h2, _⟩ := answer_send h
  obtain ⟨s1, s2⟩ := send_stops r b hr a ha
  rw [h1, h2]
  exact ⟨s1, s2⟩

def exTm : Int → Tm := fun _ => { mday := 16, mon := 11, hour := 21, min := 40, sec := 5 }

def exNow : Circ := { name := [69, 84, 72], heard := (MopId.run exCirc exEvents).heard, start := 1000 }

example : Good exNow := heard_good exCirc exEvents rfl (by
  intro e he s b now dt w n h
  subst h
  simp only [exEvents, List.mem_cons, List.not_mem_nil, or_false, MopId.Ev.frame.injEq] at he
  rcases he with ⟨rfl, _⟩ | ⟨rfl, _⟩ <;> rfl) _ (by decide) _

example : (exNow.heard.map (·.1)) = [[2, 0, 0, 0, 0, 9], [2, 0, 0, 0, 0, 8]] := by decide +kernel

example : codes (answer id exTm [exNow] 3661000 { info := 1, module := some moduleName, circuit := .none }).1 =
    [2, 3, 1, -128] := by decide +kernel

example : (bodies (answer id exTm [exNow] 3661000 { info := 1, module := none, circuit := .one [69, 84, 72] }).1).map
    (fun b => (Nice.decode b).toOption.map addrOf) = [some (some [2, 0, 0, 0, 0, 8]), some (some [2, 0, 0, 0, 0, 9])] := by
  decide +kernel

example : ∃ a r b, read id exTm [exNow] 0 { info := 1, module := none, circuit := .none } = some (a ++ r :: b) ∧
    (∀ x ∈ a, ∃ e, Nice.encode x.params = .ok e) ∧ ∃ e, Nice.encode r.params = .error e := by
  have h0 : ((read id exTm [exNow] 0 { info := 1, module := none, circuit := .none }).map fun l =>
      (l.head?.map fun r => (Nice.encode r.params).toOption.isNone)) = some (some true) := by decide +kernel
  cases hl : read id exTm [exNow] 0 { info := 1, module := none, circuit := .none } with
  | none => rw [hl] at h0; cases h0
  | some l =>
    rw [hl] at h0
    cases l with
    | nil => cases h0
    | cons r b =>
      refine ⟨[], r, b, rfl, by simp, ?_⟩
      cases hx : Nice.encode r.params with
      | error e => exact ⟨e, rfl⟩
      | ok v => simp [hx, Except.toOption] at h0

/-- The clock is set back. -/
example : answer id exTm [exNow] 0 { info := 1, module := none, circuit := .none } = ([.code 2], true) := by
  decide +kernel

example : Asks id [exNow] { info := 0, module := none, circuit := .plural (-1) } [{ exNow with heard := [] }] :=
  .all (Or.inr rfl)

end Verif.Configr
