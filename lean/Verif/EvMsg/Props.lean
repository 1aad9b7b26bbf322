import Verif.EvMsg.Lemmas

/-!
# C108: event messages
-/
namespace Verif.EvMsg

open Verif.Fields (Bytes le fromLe)

/-! ## Coding -/

theorem encode_body {e : Event} (h : e.Ok) {b : Bytes} :
    encode e = .ok b ↔ ∃ d, encBody (layout e.cls e.code) e.body = .ok d ∧ b = hdrBytes e ++ d := by
  rw [encode_eq h]
  cases encBody (layout e.cls e.code) e.body with
  | error x => simp [Except.map]
  | ok d => simp [Except.map, eq_comm]

/-- C108: an event with the entity that goes with it, and data items that fit, is encoded, and decoded it is the same
event: class, number, time, source, entity, items and sinks (counters beyond their range arrive at the largest
value).  This is so for every event class, known or not. -/
theorem event_roundtrip {e : Event} {ent : Entity} {items : List Nice.Item} (h : e.Ok)
    (hb : e.body = some (ent, items)) (ho : ent.Ok) (ha : About e.cls e.code ent)
    (hv : ∀ i ∈ items, i.Valid) (hf : ∀ i ∈ items, i.Fits) :
    ∃ b, encode e = .ok b ∧ decode b = .ok (e.seen, []) := by
  obtain ⟨k, hk, hr, hs⟩ := about_layout ha
  obtain ⟨ib, hi⟩ := (Nice.encodes_iff hv).2 hf
  refine ⟨hdrBytes e ++ (entBytes ent ++ ib), ?_, ?_⟩
  · rw [encode_body h]
    refine ⟨_, ?_, rfl⟩
    rw [hk, hb]
    simp only [encBody, hr, ok_bind, ent_enc ho, mapErr_of_ok _ hi, pure_eq]
  · rw [decode_eq, decHdr_enc h]
    simp only [ok_bind, hk, decBody, decEnt_enc ho, hs,
      mapErr_of_ok _ (Nice.response_roundtrip hv hi), pure_eq, Except.map]
    simp [Event.seen, hb]

/-- With an item that does not fit, or a header field that does not, nothing is encoded. -/
theorem unfit_refused {e : Event} {ent : Entity} {items : List Nice.Item}
    (hb : e.body = some (ent, items)) (ha : About e.cls e.code ent) (hv : ∀ i ∈ items, i.Valid)
    (hbad : 512 ≤ e.cls ∨ 32 ≤ e.code ∨ 65536 ≤ e.halfday ∨ 65536 ≤ e.seconds ∨ 1024 ≤ e.ms ∨
      65536 ≤ e.source.addr ∨ (∃ c ∈ e.source.name, 256 ≤ c) ∨ (∃ i ∈ items, ¬ i.Fits)) :
    ∃ x, encode e = .error x := by
  cases he : encode e with
  | error x => exact ⟨x, rfl⟩
  | ok b =>
    exfalso
    unfold encode at he
    obtain ⟨code, h1, he⟩ := bind_ok.1 he
    obtain ⟨cls, h2, he⟩ := bind_ok.1 he
    obtain ⟨hd, h3, he⟩ := bind_ok.1 he
    obtain ⟨sec, h4, he⟩ := bind_ok.1 he
    obtain ⟨ms, h5, he⟩ := bind_ok.1 he
    obtain ⟨src, h6, he⟩ := bind_ok.1 he
    have b1 : e.code < 32 := by
      unfold bits at h1; split at h1
      · rename_i h; simpa using h
      · cases h1
    have b2 : e.cls < 512 := by
      unfold bits at h2; split at h2
      · rename_i h; simpa using h
      · cases h2
    have b5 : e.ms < 1024 := by
      unfold bits at h5; split at h5
      · rename_i h; simpa using h
      · cases h5
    have b3 := (Nice.toBytes2.1 (mapErr_ok.1 h3)).1
    have b4 := (Nice.toBytes2.1 (mapErr_ok.1 h4)).1
    unfold Node.enc at h6
    obtain ⟨_, h7, h6⟩ := bind_ok.1 h6
    obtain ⟨_, _, h6⟩ := bind_ok.1 h6
    obtain ⟨_, h8, _⟩ := bind_ok.1 h6
    have b7 := (Nice.toBytes2.1 (mapErr_ok.1 h7)).1
    have b8 := (Fields.latin1Enc_ok.1 (mapErr_ok.1 h8)).1
    obtain ⟨k, hk, hr, _⟩ := about_layout ha
    rw [hk, hb] at he
    simp only [hr, ok_bind] at he
    obtain ⟨eb, _, he⟩ := bind_ok.1 he
    obtain ⟨ib, hi, _⟩ := bind_ok.1 he
    have b9 := (Nice.encodes_iff hv).1 ⟨ib, mapErr_ok.1 hi⟩
    rcases hbad with h | h | h | h | h | h | ⟨c, hc, h⟩ | ⟨i, hi, h⟩
    · omega
    · omega
    · omega
    · omega
    · omega
    · omega
    · have := b8 c hc; omega
    · exact h (b9 i hi)

/-- The message of the test suite for 4.10, circuit up, with the adjacent node, and one of an unknown class. -/
def sample : Event where
  console := true
  file := false
  monitor := true
  cls := 4
  code := 10
  halfday := 32767
  seconds := 43198
  ms := 987
  msAbsent := false
  source := { addr := 1027, name := [71, 82, 79, 75], exec := false }
  body := some (.str 3 [68, 77, 67, 45, 48],
    [.par 8 (.many [.num .du 2 1028, .num .c 1 0]), .ctr 5 .w2 70000])

example : ∃ b, encode sample = .ok b ∧ decode b = .ok (sample.seen, []) :=
  event_roundtrip (ent := .str 3 [68, 77, 67, 45, 48])
    (items := [.par 8 (.many [.num .du 2 1028, .num .c 1 0]), .ctr 5 .w2 70000])
    { cls := by decide, code := by decide, halfday := by decide, seconds := by decide, ms := by decide,
      source := ⟨by decide, by decide, by decide, by decide⟩ }
    rfl ⟨by decide, by decide, by decide, by decide, by decide, by decide⟩
    (.circuit (by decide) (by decide) (by decide))
    (by
      intro i hi
      simp only [List.mem_cons, List.not_mem_nil, or_false] at hi
      rcases hi with rfl | rfl
      · refine ⟨by decide, by decide, by decide, ?_⟩
        intro s hs
        simp only [List.mem_cons, List.not_mem_nil, or_false] at hs
        rcases hs with rfl | rfl <;> simp [Nice.Simple.Valid, Nice.Num.maxLen]
      · show 5 < 4096; decide)
    (by
      intro i hi
      simp only [List.mem_cons, List.not_mem_nil, or_false] at hi
      rcases hi with rfl | rfl
      · intro s hs
        simp only [List.mem_cons, List.not_mem_nil, or_false] at hs
        rcases hs with rfl | rfl <;> simp [Nice.Simple.Fits]
      · show (0 : Int) ≤ 70000; decide)

example : (encode sample).toOption = some ([1, 5, 10, 1, 255, 127, 190, 168, 219, 3, 3, 4, 4, 71, 82, 79, 75,
    3, 5, 68, 77, 67, 45, 48, 8, 0, 0xc2, 2, 4, 4, 0x81, 0, 5, 0xc0, 255, 255]) := by decide +kernel

/-- test_event.py, test_unk_cls2. -/
example : (decode [1, 7, 0x0f, 0x40, 0, 0, 0, 0, 0, 0x80, 3, 4, 4, 71, 82, 79, 75, 0, 0x8c, 0x0c, 0x83, 65, 82, 75]).toOption =
    some ({ console := true, file := true, monitor := true, cls := 256, code := 15, halfday := 0, seconds := 0, ms := 0,
            msAbsent := true, source := { addr := 1027, name := [71, 82, 79, 75], exec := false },
            body := some (.node { addr := 3212, name := [65, 82, 75], exec := true }, []) }, []) := by
  decide +kernel

/-- In 2070. -/
example : ∃ x, encode { sample with halfday := 68000 } = .error x :=
  unfit_refused (e := { sample with halfday := 68000 }) (ent := .str 3 [68, 77, 67, 45, 48])
    (items := [.par 8 (.many [.num .du 2 1028, .num .c 1 0]), .ctr 5 .w2 70000]) rfl
    (.circuit (by decide) (by decide) (by decide))
    (by
      intro i hi
      simp only [List.mem_cons, List.not_mem_nil, or_false] at hi
      rcases hi with rfl | rfl
      · refine ⟨by decide, by decide, by decide, ?_⟩
        intro s hs
        simp only [List.mem_cons, List.not_mem_nil, or_false] at hs
        rcases hs with rfl | rfl <;> simp [Nice.Simple.Valid, Nice.Num.maxLen]
      · show 5 < 4096; decide)
    (.inr (.inr (.inl (by decide))))

/-- C108: different events have different messages. -/
theorem event_injective {e e' : Event} {ent ent' : Entity} {items items' : List Nice.Item} (h : e.Ok) (h' : e'.Ok)
    (hb : e.body = some (ent, items)) (hb' : e'.body = some (ent', items')) (ho : ent.Ok) (ho' : ent'.Ok)
    (ha : About e.cls e.code ent) (ha' : About e'.cls e'.code ent')
    (hv : ∀ i ∈ items, i.Valid ∧ i.Fits ∧ i.sat = i) (hv' : ∀ i ∈ items', i.Valid ∧ i.Fits ∧ i.sat = i)
    {b : Bytes} (he : encode e = .ok b) (he' : encode e' = .ok b) : e = e' := by
  have s : ∀ {x : Event} {en : Entity} {is : List Nice.Item}, x.body = some (en, is) →
      (∀ i ∈ is, i.Valid ∧ i.Fits ∧ i.sat = i) → x.seen = x := by
    intro x en is hx hi
    have : is.map Nice.Item.sat = is := by
      conv_rhs => rw [← List.map_id is]
      exact List.map_congr_left fun i hh => (hi i hh).2.2
    cases x
    simp only at hx
    simp [Event.seen, hx, this]
  obtain ⟨c, h1, h2⟩ := event_roundtrip h hb ho ha (fun i hi => (hv i hi).1) (fun i hi => (hv i hi).2.1)
  obtain ⟨c', h1', h2'⟩ := event_roundtrip h' hb' ho' ha' (fun i hi => (hv' i hi).1) (fun i hi => (hv' i hi).2.1)
  rw [he] at h1; rw [he'] at h1'
  cases h1; cases h1'
  rw [h2, s hb hv, s hb' hv'] at h2'
  cases h2'; rfl

/-- C108: in an event about a circuit, an entity coded as a line is taken as the circuit of that name. -/
theorem line_taken_as_circuit {e : Event} {s : List Nat} {items : List Nice.Item} (h : e.Ok)
    (hb : e.body = some (.str 3 s, items)) (ho : (Entity.str 3 s).Ok) (ha : About e.cls e.code (.str 3 s))
    (hk : Known e.cls) (hn : e.cls = 0 → e.code < 8)
    {ib : Bytes} (hv : ∀ i ∈ items, i.Valid) (hi : Nice.encode items = .ok ib) :
    decode (hdrBytes e ++ (entBytes (.str 1 s) ++ ib)) = .ok (e.seen, []) := by
  have hl := about_circuit ha hk hn
  have ho1 : (Entity.str 1 s).Ok := ⟨by decide, by decide, by decide, by decide, ho.2.2.2.2.1, ho.2.2.2.2.2⟩
  rw [decode_eq, decHdr_enc h]
  simp only [ok_bind, hl, decBody, decEnt_enc ho1, mapErr_of_ok _ (Nice.response_roundtrip hv hi), pure_eq, Except.map]
  simp [Event.seen, hb, readAs]

example : (decode [1, 5, 10, 1, 255, 127, 190, 168, 219, 3, 3, 4, 4, 71, 82, 79, 75, 1, 5, 68, 77, 67, 45, 48]).toOption.map
    (·.1.body) = some (some (.str 3 [68, 77, 67, 45, 48], [])) := by decide +kernel

/-! ## What cannot be read -/

/-- C108: a message that is not understood is a `DecodeError`, except that a multiple value within a multiple value is a
TypeError, and one or two bytes after a complete message an AttributeError. -/
theorem event_errors {b : Bytes} {x : Err} (h : decode b = .error x) :
    x = .decodeError ∨ x = .typeError ∨
      (x = .attributeError ∧ ∃ a t e, b = a ++ t ∧ decode a = .ok (e, []) ∧ (t.length = 1 ∨ t.length = 2)) := by
  rw [decode_eq] at h
  cases hh : decHdr b with
  | error y => rw [hh] at h; cases h; exact .inl (decHdr_err hh)
  | ok y =>
    obtain ⟨e, r⟩ := y
    rw [hh] at h
    simp only [ok_bind] at h
    cases hl : layout e.cls e.code with
    | none => rw [hl] at h; cases h
    | some k =>
      rw [hl] at h
      simp only [decBody] at h
      cases he : decEnt k r with
      | error y => rw [he] at h; cases h; exact .inl (decEnt_err he)
      | ok z =>
        obtain ⟨ent, r2⟩ := z
        rw [he] at h
        simp only [ok_bind] at h
        cases hd : Nice.decode r2 with
        | ok is => rw [hd] at h; cases h
        | error y =>
          rw [hd] at h
          cases h
          rcases Nice.decode_errors hd with rfl | rfl | ⟨rfl, a, t, is, rfl, ha, ht⟩
          · exact .inl rfl
          · exact .inr (.inl rfl)
          · refine .inr (.inr ⟨rfl, ?_⟩)
            have hne : a ++ t ≠ [] := by
              intro h0
              have := congrArg List.length h0
              simp only [List.length_append, List.length_nil] at this; omega
            obtain ⟨p2, rfl, hp2⟩ := (decEnt_ok he).2.2 hne
            obtain ⟨p1, rfl, hp1⟩ := (decHdr_ok hh).2.2 (by simp [hne])
            refine ⟨p1 ++ (p2 ++ a), t, { e with body := some (ent, is) }, by simp, ?_, ht⟩
            rw [decode_eq, hp1]
            simp only [ok_bind, hl, decBody, hp2, mapErr_of_ok _ ha, pure_eq, Except.map]

/-- C108, what is wrong: one or two bytes after the message of any event are not a `DecodeError`. -/
theorem stray_bytes {e : Event} {ent : Entity} {items : List Nice.Item} (h : e.Ok)
    (hb : e.body = some (ent, items)) (ho : ent.Ok) (ha : About e.cls e.code ent)
    (hv : ∀ i ∈ items, i.Valid) {b t : Bytes} (he : encode e = .ok b) (ht : t.length = 1 ∨ t.length = 2) :
    decode (b ++ t) = .error .attributeError := by
  obtain ⟨k, hk, hr, hs⟩ := about_layout ha
  obtain ⟨d, hd, rfl⟩ := (encode_body h).1 he
  rw [hk, hb] at hd
  simp only [encBody, hr, ok_bind, ent_enc ho] at hd
  obtain ⟨ib, hi, hd⟩ := bind_ok.1 hd
  cases hd
  rw [decode_eq, List.append_assoc, List.append_assoc, decHdr_enc h]
  simp only [ok_bind, hk, decBody, decEnt_enc ho,
    Nice.stray_bytes (Nice.response_roundtrip hv (mapErr_ok.1 hi)) ht]
  rfl

/-- `sample` and one byte more. -/
example : decode ([1, 5, 10, 1, 255, 127, 190, 168, 219, 3, 3, 4, 4, 71, 82, 79, 75,
    3, 5, 68, 77, 67, 45, 48, 8, 0, 0xc2, 2, 4, 4, 0x81, 0, 5, 0xc0, 255, 255] ++ [0]) = .error .attributeError := rfl

/-- C108, what is wrong: an event of the routing or data link layer with a number that is not known is read without
entity and data, whatever they are. -/
theorem unknown_number_loses {e : Event} {d : Bytes} (h : e.Ok)
    (hc : (e.cls = 4 ∧ 20 ≤ e.code) ∨ (e.cls = 5 ∧ 19 ≤ e.code)) :
    decode (hdrBytes e ++ d) = .ok ({ e with body := none }, d) ∧
      encode { e with body := none } = .ok (hdrBytes e) := by
  have hl : layout e.cls e.code = none := by
    unfold layout
    rcases hc with ⟨h1, h2⟩ | ⟨h1, h2⟩
    · rw [if_neg (by omega), if_pos h1, if_neg (by omega), if_neg (by omega), if_neg (by omega)]
    · rw [if_neg (by omega), if_neg (by omega), if_pos h1, if_neg (by omega), if_neg (by omega)]
  constructor
  · rw [decode_eq, decHdr_enc h]
    simp only [ok_bind, hl, decBody, Except.map]
  · rw [encode_eq (e := { e with body := none }) ⟨h.1, h.2, h.3, h.4, h.5, h.6⟩, hl]
    simp [encBody, Except.map, hdrBytes]

/-- Event 4.20 about circuit X with one parameter. -/
example : (decode [1, 7, 0x14, 1, 0, 0, 0, 0, 0, 0, 3, 4, 0, 3, 1, 88, 1, 0, 1, 9]).toOption.map (·.1.body) =
    some none := by decide +kernel

/-! ## Time -/

/-- C108: the time displayed is that of the clock when the event was made, to the millisecond. -/
theorem time_exact {e : Event} {t : Nat} (h : (e.halfday, e.seconds, e.ms) = stamp t) (ha : e.msAbsent = false) :
    shownTime e = t / 1000 := by
  simp only [stamp, Prod.mk.injEq] at h
  obtain ⟨h1, h2, h3⟩ := h
  simp only [shownTime, ha, Bool.false_eq_true, if_false]
  omega

/-- C108: the time can be sent up to the end of the 65536th half day (18 September 2066), and not later. -/
theorem time_fits (t : Nat) :
    ((stamp t).1 < 65536 ↔ t < 65536 * 43200 * 1000000) ∧ (stamp t).2.1 < 43200 ∧ (stamp t).2.2 < 1000 := by
  simp only [stamp]
  refine ⟨?_, ?_, ?_⟩ <;> omega

/-- C108: events made later are not shown earlier. -/
theorem time_order {e e' : Event} {t t' : Nat} (h : (e.halfday, e.seconds, e.ms) = stamp t)
    (h' : (e'.halfday, e'.seconds, e'.ms) = stamp t') (ha : e.msAbsent = false) (ha' : e'.msAbsent = false)
    (hle : t ≤ t') : shownTime e ≤ shownTime e' := by
  rw [time_exact h ha, time_exact h' ha']; omega

/-- 9 Nov 2021 23:59:58.987 (test_event.py, test_decode_bigts). -/
example : stamp 1415577598987654 = (32767, 43198, 987) ∧ shownTime sample = 1415577598987 := by decide

end Verif.EvMsg
