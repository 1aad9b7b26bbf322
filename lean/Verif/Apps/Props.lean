import Verif.Apps.Model
import Mathlib.Data.List.Forall2

/-!
# Properties: objects that are programs (C137)
-/

namespace Verif.Apps

/-- A message of data. -/
def D (b : Bytes) : Msg := ⟨.data, b⟩

/-- What a manager expects of a mirror: the message with the code for success, if it asks for a loop; a failure if not. -/
def Echo (b r : Bytes) : Prop := (∃ t, b = 0 :: t ∧ r = 1 :: t) ∨ (∃ f t, b = f :: t ∧ f ≠ 0 ∧ r = [255])

/-- The answer as a function. -/
def echo : Bytes → Option Bytes
  | [] => none
  | f :: t => some (if f = 0 then 1 :: t else [255])

theorem echo_iff (b r : Bytes) : Echo b r ↔ echo b = some r := by
  cases b with
  | nil => simp [Echo, echo]
  | cons f t =>
    by_cases hf : f = 0
    · subst hf
      simp [Echo, echo, eq_comm]
    · simp only [Echo, echo, hf, if_false, Option.some.injEq, List.cons.injEq, false_and, exists_false, false_or]
      constructor
      · rintro ⟨_, _, _, _, rfl⟩; rfl
      · rintro rfl; exact ⟨f, t, ⟨rfl, rfl⟩, hf, rfl⟩

/-- **The module agrees (C137).**  The mirror that is a module (`Nml.mirror`, modules/mirror.py) gives that answer too. -/
theorem module_agrees (b : List UInt8) :
    (∀ r, Nml.mirror b = some r → Echo (b.map UInt8.toNat) (r.map UInt8.toNat)) ∧ (Nml.mirror b = none ↔ b = []) := by
  cases b with
  | nil => simp [Nml.mirror]
  | cons f t =>
    refine ⟨fun r h => ?_, ?_⟩
    · rw [echo_iff]
      unfold Nml.mirror at h
      by_cases hf : f = 0
      · subst hf
        simp only [if_true, Option.some.injEq] at h
        subst h
        rfl
      · have hn : f.toNat ≠ 0 := fun e => hf (UInt8.toNat_inj.1 e)
        simp only [hf, if_false, Option.some.injEq] at h
        subst h
        simp [echo, hn]
    · unfold Nml.mirror
      by_cases hf : f = 0 <;> simp [hf]

example : Echo ([0, 5, 6].map UInt8.toNat) ([1, 5, 6].map UInt8.toNat) := (module_agrees [0, 5, 6]).1 _ rfl

theorem loop_data (loop : List Msg → List Req × End)
    (hl : ∀ f b h, loop (D (f :: b) :: h) = say (.data (if f = 0 then 1 :: b else [255])) (loop h))
    (ds : List Bytes) (hd : ∀ d ∈ ds, d ≠ []) (h : List Msg) :
    ∃ rs, List.Forall₂ Echo ds rs ∧ loop (ds.map D ++ h) = (rs.map Req.data ++ (loop h).1, (loop h).2) := by
  induction ds with
  | nil => exact ⟨[], .nil, rfl⟩
  | cons d ds ih =>
    obtain ⟨rs, h1, h2⟩ := ih (fun x hx => hd x (by simp [hx]))
    cases d with
    | nil => exact absurd rfl (hd [] (by simp))
    | cons f b =>
      refine ⟨(if f = 0 then 1 :: b else [255]) :: rs, .cons ?_ h1, ?_⟩
      · rw [echo_iff]; rfl
      · rw [List.map_cons, List.cons_append, hl, h2]
        rfl

theorem forall2_fun {ds : List Bytes} {a b : List Bytes} (ha : List.Forall₂ Echo ds a) (hb : List.Forall₂ Echo ds b) :
    a = b := by
  induction ha generalizing b with
  | nil => cases hb; rfl
  | cons h _ ih =>
    cases hb with
    | cons h' t =>
      rw [ih t]
      have := ((echo_iff _ _).1 h).symm.trans ((echo_iff _ _).1 h')
      rw [Option.some.inj this]

/-- **The mirrors agree (C137).**  On a connection that is accepted, brings any messages of data that are not empty, and is
disconnected, the three programs send the same: an accept, and for each message its echo.  The third, if the name of the
node is known, ends with an exception in place of its status. -/
theorem mirrors_agree (n : Nat) (s : List Nat) (ds : List Bytes) (hd : ∀ d ∈ ds, d ≠ []) (x : Bytes) :
    ∃ rs, List.Forall₂ Echo ds rs ∧
      mirror1 (⟨.runstate, []⟩ :: (ds.map D ++ [⟨.disconnect, x⟩])) = (.accept [255, 255] :: rs.map .data, .exit 0) ∧
      mirror2 (⟨.runstate, []⟩ :: (ds.map D ++ [⟨.disconnect, x⟩])) = (.accept [255, 255] :: rs.map .data, .exit 0) ∧
      mirror3 (.named n s) (⟨.runstate, []⟩ :: (ds.map D ++ [⟨.disconnect, x⟩])) =
        (.accept [255, 255] :: rs.map .data, .crash) := by
  obtain ⟨r1, e1, h1⟩ := loop_data mirror1Loop (fun _ _ _ => rfl) ds hd [⟨.disconnect, x⟩]
  obtain ⟨r2, e2, h2⟩ := loop_data mirror2Loop (fun _ _ _ => rfl) ds hd [⟨.disconnect, x⟩]
  obtain ⟨r3, e3, h3⟩ := loop_data mirror3Loop (fun _ _ _ => rfl) ds hd [⟨.disconnect, x⟩]
  have e12 := forall2_fun e1 e2
  have e13 := forall2_fun e1 e3
  subst e12 e13
  refine ⟨r1, e1, ?_, ?_, ?_⟩
  · show say _ (mirror1Loop (⟨.runstate, []⟩ :: _)) = _
    have : mirror1Loop (⟨.runstate, []⟩ :: (ds.map D ++ [⟨.disconnect, x⟩])) =
      mirror1Loop (ds.map D ++ [⟨.disconnect, x⟩]) := rfl
    rw [this, h1]
    simp [say, mirror1Loop]
  · show say _ (mirror2Loop _) = _
    rw [h2]
    simp [say, mirror2Loop]
  · show say _ (mirror3Loop _) = _
    rw [h3]
    simp [say, mirror3Loop]

example : mirror2 [⟨.runstate, []⟩, D [0, 7], D [3], ⟨.disconnect, []⟩] =
    ([.accept [255, 255], .data [1, 7], .data [255]], .exit 0) := rfl

/-- **The second mirror does no more than the first (C137)**, whatever arrives. -/
theorem mirror2_prefix (h : List Msg) : (mirror2 h).1 <+: (mirror1 h).1 := by
  have key : ∀ h, (mirror2Loop h).1 <+: (mirror1Loop h).1 := by
    intro h
    induction h with
    | nil => exact List.prefix_refl _
    | cons m h ih =>
      obtain ⟨ty, b⟩ := m
      cases ty with
      | data =>
        cases b with
        | nil => exact List.prefix_refl _
        | cons f b => exact (List.prefix_cons_inj _).2 ih
      | connect => exact List.nil_prefix
      | disconnect => exact List.prefix_refl _
      | interrupt => exact List.nil_prefix
      | accept => exact List.nil_prefix
      | reject => exact List.nil_prefix
      | runstate => exact List.nil_prefix
  show (say _ (accepted mirror2Loop h)).1 <+: (say _ (mirror1Loop h)).1
  refine (List.prefix_cons_inj _).2 ?_
  cases h with
  | nil => exact List.nil_prefix
  | cons m h =>
    unfold accepted
    by_cases hr : m.ty = .runstate
    · simp only [hr, if_true]
      have : mirror1Loop (m :: h) = mirror1Loop h := by
        obtain ⟨ty, b⟩ := m
        cases hr
        rfl
      rw [this]
      exact key h
    · simp only [hr, if_false]
      exact List.nil_prefix

example : (mirror2 [⟨.runstate, []⟩, ⟨.interrupt, [1]⟩, D [0]]).1 ≠ (mirror1 [⟨.runstate, []⟩, ⟨.interrupt, [1]⟩, D [0]]).1 := by
  decide

/-- **Interrupts divide the mirrors (C137, negation).**  At an interrupt the first goes on, the second returns 2 and leaves
the connection, the third aborts it. -/
theorem interrupt_divides (n : Nat) (s : List Nat) (ds : List Bytes) (hd : ∀ d ∈ ds, d ≠ []) (b : Bytes) (h : List Msg) :
    ∃ rs, List.Forall₂ Echo ds rs ∧
      (mirror1 (⟨.runstate, []⟩ :: (ds.map D ++ ⟨.interrupt, b⟩ :: h))) =
        (.accept [255, 255] :: (rs.map .data ++ (mirror1Loop h).1), (mirror1Loop h).2) ∧
      mirror2 (⟨.runstate, []⟩ :: (ds.map D ++ ⟨.interrupt, b⟩ :: h)) = (.accept [255, 255] :: rs.map .data, .exit 2) ∧
      mirror3 (.named n s) (⟨.runstate, []⟩ :: (ds.map D ++ ⟨.interrupt, b⟩ :: h)) =
        (.accept [255, 255] :: (rs.map .data ++ [.abort]), .crash) := by
  obtain ⟨r1, e1, h1⟩ := loop_data mirror1Loop (fun _ _ _ => rfl) ds hd (⟨.interrupt, b⟩ :: h)
  obtain ⟨r2, e2, h2⟩ := loop_data mirror2Loop (fun _ _ _ => rfl) ds hd (⟨.interrupt, b⟩ :: h)
  obtain ⟨r3, e3, h3⟩ := loop_data mirror3Loop (fun _ _ _ => rfl) ds hd (⟨.interrupt, b⟩ :: h)
  have e12 := forall2_fun e1 e2
  have e13 := forall2_fun e1 e3
  subst e12 e13
  refine ⟨r1, e1, ?_, ?_, ?_⟩
  · show say _ (mirror1Loop (⟨.runstate, []⟩ :: _)) = _
    have : mirror1Loop (⟨.runstate, []⟩ :: (ds.map D ++ ⟨.interrupt, b⟩ :: h)) =
      mirror1Loop (ds.map D ++ ⟨.interrupt, b⟩ :: h) := rfl
    rw [this, h1]
    rfl
  · show say _ (mirror2Loop _) = _
    rw [h2]
    simp [say, mirror2Loop]
  · show say _ (mirror3Loop _) = _
    rw [h3]
    simp [say, mirror3Loop]

example : (mirror1 [⟨.runstate, []⟩, D [0, 9], ⟨.interrupt, []⟩, D [0, 8]]).1 =
    [.accept [255, 255], .data [1, 9], .data [1, 8]] := rfl

/-- **The third mirror and nodes without a name (C137, negation).**  It does not accept a connection from a node of which
only the number is known. -/
theorem mirror3_unnamed (n : Nat) (h : List Msg) : mirror3 (.number n) h = ([], .crash) := rfl

example : (mirror3 (.number 1025) [⟨.runstate, []⟩, D [0]]).1 ≠ (mirror2 [⟨.runstate, []⟩, D [0]]).1 := by decide

/-- **No `runstate` (C137).**  If what follows the accept is another message, the second and third mirror send nothing more,
whatever arrives. -/
theorem not_running (n : Nat) (s : List Nat) (m : Msg) (hm : m.ty ≠ .runstate) (h : List Msg) :
    mirror2 (m :: h) = ([.accept [255, 255]], .crash) ∧ mirror3 (.named n s) (m :: h) = ([.accept [255, 255]], .crash) := by
  have e : ∀ loop, accepted loop (m :: h) = ([], .crash) := fun loop => if_neg hm
  unfold mirror2 mirror3
  simp only [e]
  exact ⟨rfl, rfl⟩

example : mirror2 [D [0, 7], ⟨.runstate, []⟩] = ([.accept [255, 255]], .crash) :=
  (not_running 1025 [70] (D [0, 7]) (by decide) _).1

/-! ## Talk -/

theorem and_7f (x : Nat) : x &&& 0x7f = x % 128 := by
  have := Nat.and_two_pow_sub_one_eq_mod x 7
  simpa using this

/-- The sender as shown: by name, if it is known, else by number in decimal. -/
def sender : Dest → Bytes
  | .named _ s => s
  | .number n => n.repr.toList.map Char.toNat

theorem text_sender (d : Dest) : d.text = sender d := by cases d <;> rfl

/-- The line for a message. -/
def Line (d : Dest) (src : Nat) (b : Bytes) : Bytes :=
  ("TLK>".toList.map Char.toNat) ++ sender d ++ ("_TT".toList.map Char.toNat) ++
    src.repr.toList.map Char.toNat ++ (":".toList.map Char.toNat) ++
    b.map (· % 128) ++ [13, 10]

theorem talkLoop_map (pfx : Bytes) (h : List Msg) :
    (talkLoop pfx h).1 =
      (h.takeWhile (fun m => m.ty = .data)).map (fun m => pfx ++ m.data.map (fun x => x &&& 0x7f) ++ [13, 10]) := by
  induction h with
  | nil => rfl
  | cons m h ih =>
    unfold talkLoop
    rw [List.takeWhile_cons]
    obtain ⟨ty, b⟩ := m
    cases ty <;> simp [ih]

theorem line_text (d : Dest) (src : Nat) (b : Bytes) :
    prefixText d src ++ b.map (fun x => x &&& 0x7f) ++ [13, 10] = Line d src b := by
  have e : b.map (fun x => x &&& 0x7f) = b.map (· % 128) := List.map_congr_left fun x _ => and_7f x
  have e1 : "TLK>".toList.map Char.toNat = [84, 76, 75, 62] := by decide +kernel
  have e2 : "_TT".toList.map Char.toNat = [95, 84, 84] := by decide +kernel
  have e3 : ":".toList.map Char.toNat = [58] := by decide +kernel
  unfold Line prefixText
  rw [e, e1, e2, e3, text_sender]
  rfl

theorem talkLoop_lines (d : Dest) (src : Nat) (h : List Msg) :
    (talkLoop (prefixText d src) h).1 = (h.takeWhile (fun m => m.ty = .data)).map (fun m => Line d src m.data) := by
  rw [talkLoop_map]
  exact List.map_congr_left fun m _ => line_text d src m.data

/-- Connect data with the terminals of both sides: of Phase I, or after two bytes that say the format. -/
def Connect (c : Bytes) (dst src : Nat) : Prop :=
  ∃ p d0 d1 s0 s1 m r, c = p ++ [d0, d1, s0, s1, m] ++ r ∧ dst = d0 + 256 * d1 ∧ src = s0 + 256 * s1 ∧
    ((p = [] ∧ r = []) ∨ p.length = 2)

/-- **Talk (C137).**  If the connect data has a terminal that can be opened, the connection is accepted, and each message of
data up to the first of another kind is written to that terminal as one line: the node and terminal of the sender, and the
bytes without their high bits. -/
theorem talk_lines (opens : Nat → Bool) (d : Dest) (hd : ∀ x ∈ sender d, x < 128) (c : Bytes) (dst src : Nat)
    (hc : Connect c dst src) (ho : opens dst = true) (h : List Msg) :
    ∃ e, talk opens d c (⟨.runstate, []⟩ :: h) =
      ⟨some dst, (h.takeWhile (fun m => m.ty = .data)).map (fun m => Line d src m.data), [.accept []], e⟩ := by
  obtain ⟨p, d0, d1, s0, s1, m, r, rfl, rfl, rfl, hp⟩ := hc
  have hs : strip (p ++ [d0, d1, s0, s1, m] ++ r) = d0 :: d1 :: s0 :: s1 :: m :: r := by
    rcases hp with ⟨rfl, rfl⟩ | hp
    · rfl
    · match p, hp with
      | [a, b], _ =>
        unfold strip
        have : ([a, b] ++ [d0, d1, s0, s1, m] ++ r).length ≠ 5 := by simp
        rw [if_pos this]
        simp
  rw [← text_sender] at hd
  have hn : ¬∃ x ∈ d.text, 128 ≤ x := fun ⟨x, hx, h⟩ => absurd (hd x hx) (by omega)
  unfold talk
  simp only [hs, hn, if_false, ho, if_true, talkLoop_lines]
  exact ⟨_, rfl⟩

example : ∃ e, talk (fun n => n = 3) (.named 1025 [70, 79, 79]) [3, 0, 5, 0, 1]
    [⟨.runstate, []⟩, D [0xc8, 0xc9], ⟨.disconnect, []⟩, D [65]] =
      ⟨some 3, [Line (.named 1025 [70, 79, 79]) 5 [0xc8, 0xc9]], [.accept []], e⟩ :=
  talk_lines _ _ (by decide) _ 3 5 ⟨[], 3, 0, 5, 0, 1, [], rfl, rfl, rfl, .inl ⟨rfl, rfl⟩⟩ rfl _

example : Line (.named 1025 [70, 79, 79]) 5 [0xc8, 0xc9] = "TLK>FOO_TT5:HI\r\n".toList.map Char.toNat := by decide +kernel

/-- **When talk accepts (C137).**  Exactly if the connect data has five bytes or at least seven, the name is in ASCII, and
the terminal can be opened; else the program ends with an exception and sends nothing. -/
theorem talk_accepts_iff (opens : Nat → Bool) (d : Dest) (c : Bytes) (h : List Msg) :
    (((talk opens d c h).reqs = [.accept []] ∧ ∃ dst src, Connect c dst src ∧ opens dst = true ∧
        (talk opens d c h).tty = some dst) ∨
      talk opens d c h = ⟨none, [], [], .crash⟩) ∧
    ((talk opens d c h).reqs = [.accept []] ↔
      (∀ x ∈ sender d, x < 128) ∧ ∃ dst src, Connect c dst src ∧ opens dst = true) := by
  rw [← text_sender]
  have fwd : ∀ dst src, Connect c dst src → ∃ d0 d1 s0 s1 m r, strip c = d0 :: d1 :: s0 :: s1 :: m :: r ∧
      dst = d0 + 256 * d1 ∧ src = s0 + 256 * s1 := by
    rintro dst src ⟨p, d0, d1, s0, s1, m, r, rfl, rfl, rfl, hp⟩
    refine ⟨d0, d1, s0, s1, m, r, ?_, rfl, rfl⟩
    rcases hp with ⟨rfl, rfl⟩ | hp
    · rfl
    · match p, hp with
      | [a, b], _ =>
        unfold strip
        have : ([a, b] ++ [d0, d1, s0, s1, m] ++ r).length ≠ 5 := by simp
        rw [if_pos this]
        simp
  have bwd : ∀ d0 d1 s0 s1 m r, strip c = d0 :: d1 :: s0 :: s1 :: m :: r →
      Connect c (d0 + 256 * d1) (s0 + 256 * s1) := by
    intro d0 d1 s0 s1 m r hs
    have drop2 : c.drop 2 = d0 :: d1 :: s0 :: s1 :: m :: r → Connect c (d0 + 256 * d1) (s0 + 256 * s1) := by
      intro hs
      refine ⟨c.take 2, d0, d1, s0, s1, m, r, ?_, rfl, rfl, .inr ?_⟩
      · conv => lhs; rw [← List.take_append_drop 2 c, hs]
        simp
      · have := congrArg List.length hs
        simp only [List.length_drop, List.length_cons] at this
        simp only [List.length_take]
        omega
    unfold strip at hs
    split at hs
    · exact drop2 hs
    · split at hs
      · exact drop2 hs
      · next h5 =>
        have hl := congrArg List.length hs
        simp only [List.length_cons] at hl
        have hr : r = [] := by
          apply List.length_eq_zero_iff.1
          have := Decidable.not_not.1 h5
          omega
        subst hr
        exact ⟨[], d0, d1, s0, s1, m, [], by simpa using hs, rfl, rfl, .inl ⟨rfl, rfl⟩⟩
  unfold talk
  split
  · next t0 t1 s0 s1 m r hs =>
    have hC := bwd _ _ _ _ _ _ hs
    by_cases hn : ∃ x ∈ d.text, 128 ≤ x
    · rw [if_pos hn]
      refine ⟨.inr rfl, ⟨fun h => by simp at h, fun ⟨h, _⟩ => ?_⟩⟩
      obtain ⟨x, hx, hb⟩ := hn
      have := h x hx
      omega
    · rw [if_neg hn]
      have hasc : ∀ x ∈ d.text, x < 128 := fun x hx => Nat.lt_of_not_le fun hb => hn ⟨x, hx, hb⟩
      cases ho : opens (t0 + 256 * t1) with
      | true =>
        rw [if_pos rfl]
        have : ∀ T : Talk, T.reqs = [.accept []] → T.tty = some (t0 + 256 * t1) →
            ((T.reqs = [.accept []] ∧ ∃ dst src, Connect c dst src ∧ opens dst = true ∧ T.tty = some dst) ∨
              T = ⟨none, [], [], .crash⟩) ∧
            (T.reqs = [.accept []] ↔ (∀ x ∈ d.text, x < 128) ∧ ∃ dst src, Connect c dst src ∧ opens dst = true) :=
          fun T h1 h2 => ⟨.inl ⟨h1, _, _, hC, ho, h2⟩, ⟨fun _ => ⟨hasc, _, _, hC, ho⟩, fun _ => h1⟩⟩
        cases h with
        | nil => exact this _ rfl rfl
        | cons m h =>
          by_cases hr : m.ty = .runstate
          · dsimp only; rw [if_pos hr]; apply this <;> rfl
          · dsimp only; rw [if_neg hr]; apply this <;> rfl
      | false =>
        rw [if_neg (by simp)]
        refine ⟨.inr rfl, ⟨fun h => by simp at h, fun ⟨_, dst, src, hc, hop⟩ => ?_⟩⟩
        obtain ⟨a, b, e, f, g, i, h1, h2, _⟩ := fwd dst src hc
        rw [hs] at h1
        injection h1 with x1 h1
        injection h1 with x2 h1
        subst x1 x2 h2
        rw [ho] at hop
        cases hop
  · next hno =>
    refine ⟨.inr rfl, ⟨fun h => by simp at h, fun ⟨_, dst, src, hc, _⟩ => ?_⟩⟩
    obtain ⟨a, b, e, f, g, i, h1, _⟩ := fwd dst src hc
    exact absurd h1 (hno _ _ _ _ _ _)

example : (talk (fun _ => true) (.number 5) [0, 0, 3, 0, 5, 0] []).reqs = [] := by decide

end Verif.Apps
