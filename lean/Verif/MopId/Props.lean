import Verif.MopId.Lemmas
import Verif.MopId.Spec

/-!
# C119, C120, C121
-/

namespace Verif.MopId

/-! ## C119: identification and counters -/

/-- An identification message with any contents is read as it was sent.  A text of the software
has 1 to 127 characters. -/
theorem sysid_roundtrip (m : SysId) (b : Bytes) (h : encSysId m = some b) (hf : m.funcs.isSome)
    (hs : ∀ t, m.software = some (.text t) → t ≠ [] ∧ t.length ≤ 127) (ho : m.other = []) :
    parse b = some (.sysId m) := by
  unfold encSysId at h
  cases hr : le 2 m.receipt with
  | none => rw [hr] at h; cases h
  | some r =>
    cases ht : encItems m with
    | none => rw [hr, ht] at h; cases h
    | some t =>
      rw [hr, ht] at h
      simp only [Option.some.injEq] at h
      obtain ⟨r1, r2, _⟩ := le_spec _ _ _ hr
      subst h
      have e1 : take? 1 (0 :: (r ++ t)) = some ([0], r ++ t) := take?_app [0] (r ++ t) rfl
      simp only [parse, List.cons_append, e1, Option.bind_some, take?_app r t r1, r2,
        decItems_enc ht hf hs ho, Option.map_some]

example : ∃ b, encSysId
  { receipt := 77, funcs := some { carrier := true }, bufsize := some 1500,
    software := some (.text [65, 66]) } = some b := by
  exact ⟨_, rfl⟩

theorem item_some {tag : Nat} {v : Bytes} (h1 : tag < 65536) (h2 : v.length < 256) :
    ∃ b, item tag v = some b := by
  obtain ⟨a, ha⟩ := le_some 2 tag (by simpa using h1)
  obtain ⟨l, hl⟩ := le_some 1 v.length (by simpa using h2)
  exact ⟨_, by unfold item; rw [ha, hl]⟩

theorem ident_encodes (c : Circ) (h : Addressed c) (r : Nat) (hr : r < 65536) :
    ∃ b, encSysId (ident c r) = some b := by
  obtain ⟨x, hx⟩ := le_some 2 r (by simpa using hr)
  obtain ⟨hw, hv⟩ := h
  have e7 : ∃ b, optItem 7 (encFixed 6) (some c.hwaddr) = some b := by
    obtain ⟨b, hb⟩ := item_some (tag := 7) (v := c.hwaddr) (by omega) (by omega)
    exact ⟨b, by simp only [optItem, encFixed, if_pos hw, Option.bind_some, hb]⟩
  have e3 : ∃ b, optItem 3 (encFixed 6) c.server = some b := by
    cases hc : c.server with
    | none => exact ⟨[], rfl⟩
    | some y =>
      have hy := hv y hc
      obtain ⟨b, hb⟩ := item_some (tag := 3) (v := y) (by omega) (by omega)
      exact ⟨b, by simp only [optItem, encFixed, if_pos hy, Option.bind_some, hb]⟩
  obtain ⟨b3, e3⟩ := e3
  obtain ⟨b7, e7⟩ := e7
  have i2 : ∀ f : Funcs, ∃ b, item 2 (encFuncs f) = some b := fun f =>
    item_some (by omega) (by simp [encFuncs])
  unfold encSysId
  suffices hi : ∃ t, encItems (ident c r) = some t by
    obtain ⟨t, ht⟩ := hi
    have : (ident c r).receipt = r := by unfold ident; split <;> rfl
    rw [this, hx, ht]; exact ⟨_, rfl⟩
  cases hver : c.ver with
  | none =>
    obtain ⟨b2, e2⟩ := i2 { loop := true, counters := true }
    have hid : ident c r =
      { receipt := r, version := some [3, 0, 0], hwaddr := some c.hwaddr,
        funcs := some { loop := true, counters := true },
        device := some 9, datalink := some 1, processor := some 2,
        software := some (.text software) } := by
      unfold ident; rw [hver]; rfl
    rw [hid]
    unfold encItems
    simp only [Option.getD_some, e2, e7]
    exact ⟨_, rfl⟩
  | some v =>
    obtain ⟨b2, e2⟩ := i2 { loop := true, counters := true, carrier := true,
                            reserved := c.server.isSome }
    have hid : ident c r =
      { receipt := r, version := some [3, 0, 0], hwaddr := some c.hwaddr,
        funcs := some { loop := true, counters := true, carrier := true, reserved := c.server.isSome },
        device := some 9, datalink := some 1, processor := some 2, resTimer := some 15,
        cmdSize := some 512, respSize := some 512, user := c.server,
        software := some (.text software) } := by
      unfold ident; rw [hver]; rfl
    rw [hid]
    unfold encItems
    simp only [Option.getD_some, e2, e3, e7]
    exact ⟨_, rfl⟩

theorem software_text : software = "DECnet/Python".toList.map (fun c => UInt8.ofNat c.toNat) := by
  decide +kernel

theorem ident_describes (c : Circ) (r : Nat) : Describes c r (ident c r) := by
  cases hver : c.ver with
  | none =>
    have hid : ident c r =
      { receipt := r, version := some [3, 0, 0], hwaddr := some c.hwaddr,
        funcs := some { loop := true, counters := true },
        device := some 9, datalink := some 1, processor := some 2,
        software := some (.text software) } := by
      unfold ident; rw [hver]; rfl
    rw [hid]
    exact ⟨rfl, rfl, rfl, ⟨_, rfl, by simp [hver]⟩, by simp [hver], by simp [hver], by rw [← software_text],
      by simp⟩
  | some v =>
    have hid : ident c r =
      { receipt := r, version := some [3, 0, 0], hwaddr := some c.hwaddr,
        funcs := some { loop := true, counters := true, carrier := true, reserved := c.server.isSome },
        device := some 9, datalink := some 1, processor := some 2, resTimer := some 15,
        cmdSize := some 512, respSize := some 512, user := c.server,
        software := some (.text software) } := by
      unfold ident; rw [hver]; rfl
    rw [hid]
    exact ⟨rfl, rfl, rfl, ⟨_, rfl, by cases c.server <;> simp [hver]⟩, by simp [hver], by simp [hver],
      by rw [← software_text], by simp⟩

/-- Whatever is sent as identification describes the system to whoever reads it. -/
theorem ident_read (c : Circ) (h : Addressed c) (r : Nat) (hr : r < 65536) :
    ∃ b m, encSysId (ident c r) = some b ∧ parse b = some (.sysId m) ∧ Describes c r m := by
  obtain ⟨b, hb⟩ := ident_encodes c h r hr
  have hd := ident_describes c r
  obtain ⟨f, hf, _⟩ := hd.loop
  refine ⟨b, ident c r, hb, sysid_roundtrip _ b hb (by rw [hf]; rfl) ?_ hd.nothing.2.2, hd⟩
  intro t ht
  have h1 := hd.device
  simp only [Prod.mk.injEq] at h1
  rw [h1.2.2.2] at ht
  injection ht with ht; injection ht with ht
  subst ht
  decide +kernel

/-- A request for identification, from any station, is answered to that station alone by one message
with the number of the request, which describes the system. -/
theorem id_answered (c : Circ) (h : Addressed c) (src b : Bytes) (now dt : Int) (w n : List Nat) (r : Nat)
    (hp : parse b = some (.requestId r)) (hr : r < 65536) :
    ∃ a m, (step c (.frame src b now dt w n)).2.filter (fun o => o matches .send ..) = [.send src a] ∧
      parse a = some (.sysId m) ∧ Describes c r m ∧ (step c (.frame src b now dt w n)).1 = c ∧
      .raise ∉ (step c (.frame src b now dt w n)).2 := by
  obtain ⟨a, m, h1, h2, h3⟩ := ident_read c h r hr
  refine ⟨a, m, ?_, h2, h3, ?_, ?_⟩ <;> simp only [step, hp, h1, sendMsg]
  · cases c.server <;> rfl
  · cases c.server <;> simp

/-- The timer has the system described to all stations that listen, as no answer to a request. -/
theorem id_periodic (c : Circ) (h : Addressed c) :
    ∃ a m, (step c .timer).2 = [.send [0xAB, 0, 0, 2, 0, 0] a] ∧ parse a = some (.sysId m) ∧
      Describes c 0 m ∧ (step c .timer).1 = c := by
  obtain ⟨a, m, h1, h2, h3⟩ := ident_read c h 0 (by omega)
  exact ⟨a, m, by simp only [step, h1, sendMsg, consMc], h2, h3, rfl⟩

example : ∃ r, parse [5, 0, 0x34, 0x12] = some (.requestId r) := ⟨0x1234, by decide +kernel⟩

theorem capped_spec (k v : Nat) : (capped k v).length = k ∧ fromLe (capped k v) = min v (256 ^ k - 1) := by
  have hp : 0 < 256 ^ k := Nat.pow_pos (by omega)
  obtain ⟨b, hb⟩ := le_some k (min v (256 ^ k - 1)) (by omega)
  obtain ⟨h1, h2, _⟩ := le_spec _ _ _ hb
  unfold capped
  rw [hb]
  exact ⟨h1, h2⟩

theorem decNums_capped (k : Nat) : ∀ (l : List Nat) (rest : Bytes),
    decNums k l.length ((l.map (capped k)).flatten ++ rest) =
      some (l.map fun v => min v (256 ^ k - 1), rest)
  | [], rest => rfl
  | v :: l, rest => by
    obtain ⟨h1, h2⟩ := capped_spec k v
    simp only [List.length_cons, List.map_cons, List.flatten_cons, List.append_assoc, decNums]
    rw [take?_app _ _ h1]
    simp only [decNums_capped k l rest, h2, Option.map_some]

/-- A request for counters is answered to that station, with the number of the request and the values of
the counters, or the largest value that fits where they are larger. -/
theorem counters_answered (c : Circ) (src b : Bytes) (now dt : Int) (w n : List Nat) (r : Nat)
    (hp : parse b = some (.requestCounters r)) (hr : r < 65536) (hd : 0 ≤ dt) (hw : w.length = 9)
    (hn : n.length = 8) :
    ∃ a, (step c (.frame src b now dt w n)).2.filter (fun o => o matches .send ..) = [.send src a] ∧
      parse a = some (.counters r { secs := min dt.toNat 65535,
                                    wide := w.map fun v => min v 4294967295,
                                    narrow := n.map fun v => min v 65535 }) ∧
      .raise ∉ (step c (.frame src b now dt w n)).2 := by
  obtain ⟨x, hx⟩ := le_some 2 r (by simpa using hr)
  obtain ⟨x1, x2, _⟩ := le_spec _ _ _ hx
  refine ⟨11 :: x ++ capped 2 dt.toNat ++ (w.map (capped 4)).flatten ++ (n.map (capped 2)).flatten,
    ?_, ?_, ?_⟩
  · simp only [step, hp, sendCtrs, if_neg (show ¬ dt < 0 by omega), encCounters, hx, Option.map_some,
      sendMsg]
    cases c.server <;> rfl
  · obtain ⟨c1, c2⟩ := capped_spec 2 dt.toNat
    have e4 := decNums_capped 4 w ((n.map (capped 2)).flatten)
    have e2 := decNums_capped 2 n []
    rw [hw] at e4
    rw [hn] at e2
    simp only [List.append_nil] at e2
    have ed : (capped 2 dt.toNat ++ ((w.map (capped 4)).flatten ++ (n.map (capped 2)).flatten)).drop 2 =
        (w.map (capped 4)).flatten ++ (n.map (capped 2)).flatten := by
      rw [List.drop_left' c1]
    simp only [parse, List.cons_append, List.append_assoc, take?_app x _ x1, Option.bind_some, x2,
      decCounters, decNum, take?_app _ _ c1, Option.map_some, ed, e4, e2, exact, c2, if_pos]
  · simp only [step, hp, sendCtrs, if_neg (show ¬ dt < 0 by omega), encCounters, hx, Option.map_some,
      sendMsg]
    cases c.server <;> simp

theorem parse_receipt {b : Bytes} :
    (∀ r, parse b = some (.requestId r) → r < 65536) ∧
    (∀ r, parse b = some (.requestCounters r) → r < 65536) := by
  have le2 : ∀ y : Bytes, y.length = 2 → fromLe y < 65536 := by
    intro y hy
    match y, hy with
    | [u, v], _ =>
      have := u.toNat_lt; have := v.toNat_lt
      simp only [fromLe]; omega
  have tk : ∀ (n : Nat) (z : Bytes) (q : Bytes × Bytes), take? n z = some q → q.1.length = n := by
    intro n z q hq
    unfold take? at hq
    split at hq
    · cases hq
    · injection hq with hq; subst hq; simp; omega
  constructor
  · intro r h
    unfold parse at h
    split at h <;> (try (simp only [Option.bind_eq_some_iff, Option.map_eq_some_iff, exact] at h))
    all_goals first
      | (obtain ⟨x, _, y, hy, h⟩ := h
         split at h
         · injection h with h; injection h with h; rw [← h]; exact le2 _ (tk _ _ _ hy)
         · cases h)
      | (exfalso; revert h; simp)
  · intro r h
    unfold parse at h
    split at h <;> (try (simp only [Option.bind_eq_some_iff, Option.map_eq_some_iff, exact] at h))
    all_goals first
      | (obtain ⟨y, hy, h⟩ := h
         split at h
         · injection h with h; injection h with h; rw [← h]; exact le2 _ (tk _ _ _ hy)
         · cases h)
      | (exfalso; revert h; simp)

/-- Of all messages, whatever their contents, one raises an exception, and so stops the node: a request
for counters while the clock shows a time before that at which they were zeroed. -/
theorem frame_raises_iff (c : Circ) (h : Addressed c) (src b : Bytes) (now dt : Int) (w n : List Nat) :
    .raise ∈ (step c (.frame src b now dt w n)).2 ↔
      (∃ r, parse b = some (.requestCounters r)) ∧ dt < 0 := by
  obtain ⟨pr1, pr2⟩ := parse_receipt (b := b)
  cases hp : parse b with
  | none => simp [step, hp]
  | some m =>
    cases m with
    | sysId m => simp only [step, hp, deliver]; split <;> simp
    | counters r x => simp only [step, hp, deliver]; split <;> simp
    | requestId r =>
      obtain ⟨a, m, h1, _⟩ := ident_read c h r (pr1 r hp)
      simp only [step, hp, h1, sendMsg]
      cases c.server <;> simp
    | requestCounters r =>
      obtain ⟨x, hx⟩ := le_some 2 r (by simpa using pr2 r hp)
      simp only [step, hp, sendCtrs, encCounters, hx, Option.map_some, sendMsg]
      by_cases hd : dt < 0
      · simp [hd]
      · cases c.server <;> simp [hd]
    | consoleRequest v => simp only [step, hp]; split <;> simp
    | consoleRelease => simp only [step, hp]; split <;> simp
    | consoleCommand f p => simp only [step, hp]; split <;> simp
    | consoleResponse f p => simp [step, hp]

/-- Finding: the clock is set back (or local time is, when summer time ends) below the time of start, and
any station asks for counters. -/
theorem clock_back_stops : (step { ver := none, hwaddr := [2, 0, 0, 0, 0, 1] }
    (.frame [2, 0, 0, 0, 0, 2] [9, 1, 0] 0 (-3000) [] [])).2 = [.raise] := by decide +kernel

/-! ## C70: another kind of reply -/

/-- Finding: an identification message (or counters) of any station counts as the reply to a loop test,
if it has the number. -/
theorem other_kind_counts (c : Circ) (src b : Bytes) (now dt : Int) (w n : List Nat) (m : SysId)
    (hp : parse b = some (.sysId m)) (h0 : m.receipt ≠ 0) (hr : m.receipt ∈ c.requests) :
    (step c (.frame src b now dt w n)).2 = [.deliver m.receipt] := by
  simp only [step, hp, deliver]
  rw [if_pos ⟨h0, hr⟩]

example : parse [7, 0, 5, 0] = some (.sysId { receipt := 5 }) := by decide +kernel

end Verif.MopId
