import Verif.EvMsg.Props

/-!
# C108: the event listener and the local sinks
-/
namespace Verif.EvMsg

open Verif.Fields (Bytes le fromLe)

/-! ## Lemmas -/

theorem decNode_length {b r : Bytes} {n : Node} (h : decNode b = .ok (n, r)) :
    (nodeBytes n).length + r.length = b.length := by
  match b, h with
  | a :: b :: l :: tl, h =>
    simp only [decNode] at h
    split at h
    · cases h
    · simp only [Except.ok.injEq, Prod.mk.injEq] at h
      obtain ⟨rfl, rfl⟩ := h
      simp only [nodeBytes, List.length_append, Fields.le_length, List.length_cons, List.length_map,
        Fields.latin1Dec, List.length_take, List.length_drop]
      omega

theorem decEnt_length {k : Kind} {b r : Bytes} {e : Entity} (h : decEnt k b = .ok (e, r)) :
    (entBytes e).length + r.length = b.length := by
  cases b with
  | nil => cases h
  | cons c tl =>
    simp only [decEnt] at h
    split at h
    · obtain ⟨⟨n, r1⟩, h1, h2⟩ := bind_ok.1 h
      simp only [pure_eq, Except.ok.injEq, Prod.mk.injEq] at h2
      obtain ⟨rfl, rfl⟩ := h2
      have := decNode_length h1
      simp only [entBytes, List.length_cons]; omega
    · split at h
      · match tl, h with
        | x :: a :: tl, h =>
          simp only [Except.ok.injEq, Prod.mk.injEq] at h
          obtain ⟨rfl, rfl⟩ := h
          simp only [entBytes, List.length_cons, List.length_nil]; omega
      · split at h
        · simp only [Except.ok.injEq, Prod.mk.injEq] at h
          obtain ⟨rfl, rfl⟩ := h
          simp only [entBytes, List.length_cons, List.length_nil]; omega
        · split at h
          · rename_i s r1 ha
            simp only [Except.ok.injEq, Prod.mk.injEq] at h
            obtain ⟨rfl, rfl⟩ := h
            obtain ⟨v, hv, rfl⟩ := Fields.aDec_ok.1 ha
            obtain ⟨hv1, hv2, rfl⟩ := Fields.iDec_ok.1 hv
            simp only [entBytes, List.length_cons, List.length_map, Fields.latin1Dec, List.length_append]; omega
          · cases h

theorem decHdr_length {b r : Bytes} {e : Event} (h : decHdr b = .ok (e, r)) :
    (hdrBytes e).length + r.length = b.length := by
  match b, h with
  | f :: fl :: c0 :: c1 :: h0 :: h1 :: s0 :: s1 :: m0 :: m1 :: tl, h =>
    simp only [decHdr] at h
    split at h
    · cases h
    · obtain ⟨⟨src, r1⟩, hn, h2⟩ := bind_ok.1 h
      simp only [pure_eq, Except.ok.injEq, Prod.mk.injEq] at h2
      obtain ⟨rfl, rfl⟩ := h2
      have := decNode_length hn
      simp only [hdrBytes, List.length_append, Fields.le_length, List.length_cons, List.length_nil]
      omega

/-- An event read from a message, taken apart. -/
theorem decode_parts {b r : Bytes} {e : Event} (h : decode b = .ok (e, r)) :
    ∃ r1, decHdr b = .ok ({ e with body := none }, r1) ∧ e.Ok ∧
      ((layout e.cls e.code = none ∧ e.body = none ∧ r = r1) ∨
        ∃ k ent r2 items, layout e.cls e.code = some k ∧ decEnt k r1 = .ok (ent, r2) ∧
          Nice.decode r2 = .ok items ∧ e.body = some (ent, items) ∧ r = []) := by
  rw [decode_eq] at h
  obtain ⟨⟨e0, r1⟩, hh, h⟩ := bind_ok.1 h
  obtain ⟨ok, hb, _⟩ := decHdr_ok hh
  simp only at h
  cases hl : layout e0.cls e0.code with
  | none =>
    rw [hl] at h
    simp only [decBody, Except.map, Except.ok.injEq, Prod.mk.injEq] at h
    obtain ⟨rfl, rfl⟩ := h
    refine ⟨r1, ?_, ⟨ok.1, ok.2, ok.3, ok.4, ok.5, ok.6⟩, .inl ⟨hl, rfl, rfl⟩⟩
    rw [hh]; cases e0; simp only at hb; rw [hb]
  | some k =>
    rw [hl] at h
    cases hd : decBody (some k) r1 with
    | error x => rw [hd] at h; cases h
    | ok y =>
      rw [hd] at h
      simp only [Except.map, Except.ok.injEq, Prod.mk.injEq] at h
      obtain ⟨rfl, rfl⟩ := h
      simp only [decBody] at hd
      obtain ⟨⟨ent, r2⟩, h1, h2⟩ := bind_ok.1 hd
      obtain ⟨items, h3, h4⟩ := bind_ok.1 h2
      cases h4
      refine ⟨r1, ?_, ⟨ok.1, ok.2, ok.3, ok.4, ok.5, ok.6⟩,
        .inr ⟨k, ent, r2, items, hl, h1, mapErr_ok.1 h3, rfl, rfl⟩⟩
      rw [hh]; cases e0; simp only at hb; simp only; rw [hb]

theorem fileRecord_ok {e : Event} {f : Bytes} :
    fileRecord e = .ok f ↔ ∃ b, encode e = .ok b ∧ b.length < 65536 ∧ f = le 2 b.length ++ b := by
  unfold fileRecord
  rw [bind_ok]
  constructor
  · rintro ⟨b, hb, h⟩
    obtain ⟨l, hl, h⟩ := bind_ok.1 h
    obtain ⟨h1, rfl⟩ := Nice.toBytes2.1 (mapErr_ok.1 hl)
    cases h
    exact ⟨b, hb, h1, rfl⟩
  · rintro ⟨b, hb, h1, rfl⟩
    exact ⟨b, hb, by rw [mapErr_of_ok _ (Nice.toBytes2.2 ⟨h1, rfl⟩)]; rfl⟩

/-! ## The file -/

/-- C108: a file of records can be read in one way only. -/
theorem records_unique {f : Bytes} {a b : List Bytes} (ha : Records f a) (hb : Records f b) : a = b := by
  induction ha generalizing b with
  | nil => cases hb; rfl
  | @cons r rest rs hr _ ih =>
    generalize hf : UInt8.ofNat (r.length % 256) :: UInt8.ofNat (r.length / 256) :: (r ++ rest) = f at hb
    cases hb with
    | nil => cases hf
    | @cons r' rest' rs' hr' h' =>
      simp only [List.cons.injEq] at hf
      obtain ⟨h1, h2, h3⟩ := hf
      have e1 := congrArg UInt8.toNat h1
      have e2 := congrArg UInt8.toNat h2
      rw [Fields.ofNat_toNat_lt (Nat.mod_lt _ (by omega)), Fields.ofNat_toNat_lt (Nat.mod_lt _ (by omega))] at e1
      rw [Fields.ofNat_toNat_lt (by omega), Fields.ofNat_toNat_lt (by omega)] at e2
      obtain ⟨rfl, rfl⟩ := List.append_inj h3 (by omega)
      rw [ih h']

/-- The event of the record is the one received: the same header and data, and the same entity but for the kind of
thing a name is of. -/
structure Stored (e e' : Event) : Prop where
  header : { e with body := none } = { e' with body := none }
  body : (e.body = none ∧ e'.body = none) ∨
    ∃ a b items, e.body = some (a, items) ∧ e'.body = some (b, items) ∧ SameName a b

/-- C108: the record of an event received can be read back as that event. -/
theorem record_faithful {m r f : Bytes} {e : Event} (h : decode m = .ok (e, r)) (hf : fileRecord e = .ok f) :
    ∃ b e', f = le 2 b.length ++ b ∧ b.length < 65536 ∧ decode b = .ok (e', []) ∧ Stored e e' := by
  obtain ⟨r1, hh, ok, hc⟩ := decode_parts h
  obtain ⟨b, hb, hlen, rfl⟩ := fileRecord_ok.1 hf
  obtain ⟨d, hd, rfl⟩ := (encode_body ok).1 hb
  rcases hc with ⟨hl, hn, _⟩ | ⟨k, ent, r2, items, hl, he, hi, hbo, _⟩
  · rw [hl] at hd
    simp only [encBody, Except.ok.injEq] at hd
    subst hd
    refine ⟨_, { e with body := none }, rfl, hlen, ?_, ⟨rfl, .inl ⟨hn, rfl⟩⟩⟩
    rw [decode_eq, decHdr_enc ok]
    simp only [ok_bind, hl, decBody, Except.map]
  · rw [hl, hbo] at hd
    simp only [encBody] at hd
    obtain ⟨ent', hr, hd⟩ := bind_ok.1 hd
    obtain ⟨eok, era, _⟩ := decEnt_ok he
    obtain ⟨ok', same, ra⟩ := retype_ok hr eok (fun c hc => layout_str (hc ▸ hl))
    rw [ent_enc ok'] at hd
    simp only [ok_bind] at hd
    obtain ⟨ib, hib, hd⟩ := bind_ok.1 hd
    cases hd
    obtain ⟨hv, ib', hib', _, hdec⟩ := Nice.reencode hi
    rw [mapErr_ok.1 hib] at hib'
    cases hib'
    refine ⟨_, { e with body := some (ent', items) }, rfl, hlen, ?_, ⟨rfl, .inr ⟨ent, ent', items, hbo, rfl, same⟩⟩⟩
    rw [decode_eq, decHdr_enc ok]
    simp only [ok_bind, hl, decBody, decEnt_enc ok', ra era, mapErr_of_ok _ hdec, pure_eq, Except.map]

/-- C108: an event received with the entity that goes with it can be written to the file, and the record is the event
itself. -/
theorem received_storable {m r : Bytes} {e : Event} {ent : Entity} {items : List Nice.Item}
    (h : decode m = .ok (e, r)) (hb : e.body = some (ent, items)) (ha : About e.cls e.code ent)
    (hl : m.length < 65536) :
    ∃ f b, fileRecord e = .ok f ∧ f = le 2 b.length ++ b ∧ decode b = .ok (e, []) := by
  obtain ⟨r1, hh, ok, hc⟩ := decode_parts h
  obtain ⟨k, hk, hr, hs⟩ := about_layout ha
  rcases hc with ⟨hl', _⟩ | ⟨k', ent', r2, items', hl', he, hi, hbo, _⟩
  · rw [hk] at hl'; cases hl'
  · rw [hb] at hbo; cases hbo
    rw [hk] at hl'; cases hl'
    obtain ⟨eok, era, _⟩ := decEnt_ok he
    obtain ⟨hv, ib, hib, hlib, hdec⟩ := Nice.reencode hi
    have henc : encode e = .ok (hdrBytes e ++ (entBytes ent ++ ib)) := by
      rw [encode_body ok, hk, hb]
      refine ⟨_, ?_, rfl⟩
      simp only [encBody, hr, ok_bind, ent_enc eok, mapErr_of_ok _ hib, pure_eq]
    have e1 := decHdr_length hh
    have e2 := decEnt_length he
    have e3 : (hdrBytes { e with body := none }).length = (hdrBytes e).length := rfl
    refine ⟨_, _, fileRecord_ok.2 ⟨_, henc, ?_, rfl⟩, rfl, ?_⟩
    · simp only [List.length_append]; omega
    · rw [decode_eq, decHdr_enc ok]
      simp only [ok_bind, hk, decBody, decEnt_enc eok, hs, mapErr_of_ok _ hdec, pure_eq, Except.map]
      cases e
      simp only at hb
      rw [hb]

/-! ## The listener -/

/-- The events of the messages that are understood. -/
def received (bs : List Bytes) : List Event :=
  bs.filterMap fun b => match decode b with | .ok (e, _) => some e | .error _ => none

theorem toBytes_cases (i : Int) :
    (∃ l, Fields.toBytes 2 i = .ok l) ∨ Fields.toBytes 2 i = .error .overflowError := by
  unfold Fields.toBytes
  split
  · exact .inl ⟨_, rfl⟩
  · exact .inr rfl

theorem retype_err {k : Kind} {ent : Entity} {x : Err} (h : retype k ent = .error x) : caught x = false := by
  unfold retype at h
  split at h <;> simp only [reduceCtorEq, Except.error.injEq] at h <;> rw [← h] <;> rfl

theorem encBody_err {k : Option Kind} {body : Option (Entity × List Nice.Item)} {x : Err}
    (h : encBody k body = .error x) (hb : ∀ ent items,
    body = some (ent, items) → ent.Ok ∧ ∃ ib, Nice.encode items = .ok ib) (hl : body = none → k = none)
    (hk : ∀ c, k = some (.str c) → c = 1 ∨ c = 3 ∨ c = 4) : caught x = false := by
  cases k with
  | none => simp only [encBody, reduceCtorEq] at h
  | some k =>
    cases body with
    | none => cases hl rfl
    | some p =>
      obtain ⟨ent, items⟩ := p
      obtain ⟨eok, ib, hib⟩ := hb _ _ rfl
      simp only [encBody] at h
      cases hr : retype k ent with
      | error z =>
        rw [hr] at h
        simp only [error_bind, Except.error.injEq] at h
        rw [← h]
        exact retype_err hr
      | ok ent' =>
        rw [hr] at h
        have := (retype_ok hr eok (fun c hc => hk c (by rw [hc]))).1
        simp only [ok_bind, ent_enc this, mapErr_of_ok _ hib, pure_eq, reduceCtorEq] at h

theorem bind_err {α β : Type} {x : Except Err α} {f : α → Except Err β} {y : Err} (h : (x >>= f) = .error y) :
    x = .error y ∨ ∃ a, x = .ok a ∧ f a = .error y := by
  cases x with
  | error e => simpa [bind, Except.bind] using h
  | ok a => exact .inr ⟨a, rfl, h⟩

theorem fileRecord_err {e : Event} {x : Err} (h : fileRecord e = .error x) :
    x = .encode .overflowError ∨ encode e = .error x := by
  unfold fileRecord at h
  rcases bind_err h with h | ⟨b, hb, h⟩
  · exact .inr h
  · rcases bind_err h with h | ⟨l, _, h⟩
    · rcases toBytes_cases (b.length : Int) with ⟨l, hl⟩ | hl
      · rw [mapErr_of_ok _ hl] at h; cases h
      · rw [hl] at h
        simp only [Except.mapError, Except.error.injEq] at h
        exact .inl h.symm
    · cases h

theorem bits_no_overflow {e : Event} (h : e.Ok) (x : Err) (hx : fileRecord e = .error x) (hb : ∀ ent items,
    e.body = some (ent, items) → ent.Ok ∧ ∃ ib, Nice.encode items = .ok ib) (hl : e.body = none → layout e.cls e.code = none)
    (hk : ∀ c, layout e.cls e.code = some (.str c) → c = 1 ∨ c = 3 ∨ c = 4) : caught x = false := by
  rcases fileRecord_err hx with rfl | he
  · rfl
  · rw [encode_eq h] at he
    cases hy : encBody (layout e.cls e.code) e.body with
    | ok d => rw [hy] at he; simp only [Except.map, reduceCtorEq] at he
    | error z =>
      rw [hy] at he
      simp only [Except.map, Except.error.injEq] at he
      rw [← he]
      exact encBody_err hy hb hl hk

theorem caught_record {m r : Bytes} {e : Event} {x : Err} (h : decode m = .ok (e, r)) (hx : fileRecord e = .error x) :
    caught x = false := by
  obtain ⟨r1, hh, ok, hc⟩ := decode_parts h
  refine bits_no_overflow ok x hx ?_ ?_ (fun c => layout_str)
  · intro ent items hb
    rcases hc with ⟨_, hn, _⟩ | ⟨k', ent', r2, items', hl', he, hi, hbo, _⟩
    · rw [hn] at hb; cases hb
    · rw [hb] at hbo; cases hbo
      obtain ⟨_, ib, hib, _⟩ := Nice.reencode hi
      exact ⟨(decEnt_ok he).1, ib, hib⟩
  · intro hn
    rcases hc with ⟨hl, _⟩ | ⟨k', ent', r2, items', hl', he, hi, hbo, _⟩
    · exact hl
    · rw [hn] at hbo; cases hbo

/-- What ends the connection: data items that are not a `DecodeError`, or an event for the file that cannot be
encoded. -/
def Ends (s : Sinks) (b : Bytes) : Prop :=
  decode b = .error .attributeError ∨ decode b = .error .typeError ∨
    ∃ e r, decode b = .ok (e, r) ∧ s.file = true ∧ e.file = true ∧ ∀ f, fileRecord e ≠ .ok f

/-- C108: the connection of a listener goes on exactly if no message is one of those. -/
theorem listen_goes_on (s : Sinks) (bs : List Bytes) : (listen s bs).2 = true ↔ ∀ b ∈ bs, ¬ Ends s b := by
  have key : ∀ b, (handle s b).2 = true ↔ ¬ Ends s b := by
    intro b
    unfold handle Ends
    cases hd : decode b with
    | error x =>
      rcases event_errors hd with rfl | rfl | ⟨rfl, _⟩ <;> simp [caught]
    | ok y =>
      obtain ⟨e, r⟩ := y
      simp only [reduceCtorEq, false_or, Except.ok.injEq, Prod.mk.injEq]
      unfold deliver
      by_cases hs : (s.file && e.file) = true
      · simp only [hs, if_true]
        rw [Bool.and_eq_true] at hs
        cases hf : fileRecord e with
        | ok f =>
          simp only [true_iff]
          rintro ⟨e', r', ⟨rfl, rfl⟩, _, _, h⟩
          exact h f hf
        | error x =>
          simp only [caught_record hd hf, Bool.false_eq_true, false_iff, not_not]
          exact ⟨e, r, ⟨rfl, rfl⟩, hs.1, hs.2, fun f h => by rw [hf] at h; cases h⟩
      · simp only [hs, if_false, true_iff, Bool.false_eq_true]
        rintro ⟨e', r', ⟨rfl, rfl⟩, h1, h2, _⟩
        simp [h1, h2] at hs
  induction bs with
  | nil => simp [listen]
  | cons b bs ih =>
    have kb := key b
    simp only [listen, List.mem_cons, forall_eq_or_imp]
    cases hh : handle s b with
    | mk o up =>
      rw [hh] at kb
      cases up with
      | true => exact ⟨fun h => ⟨kb.1 rfl, ih.1 h⟩, fun h => ih.2 h.2⟩
      | false =>
        simp only [Bool.false_eq_true, false_iff]
        simp only [Bool.false_eq_true, false_iff] at kb
        exact fun h => kb h.1

theorem fileOf_append (a b : List Out) : fileOf (a ++ b) = fileOf a ++ fileOf b := by
  simp [fileOf]

theorem logged_append (a b : List Out) : logged (a ++ b) = logged a ++ logged b := by
  simp [logged]

theorem monitored_append (a b : List Out) : monitored (a ++ b) = monitored a ++ monitored b := by
  simp [monitored]

/-- C108: while the connection goes on, every event that is understood is given to each sink asked for that there is,
in the order of the messages and once, messages not understood being passed over; and the file holds one record for
each event for the file, from which the event can be read. -/
theorem listener_delivers (s : Sinks) (bs : List Bytes) (h : (listen s bs).2 = true) :
    logged (listen s bs).1 = (received bs).filter (fun e => s.console && e.console) ∧
    monitored (listen s bs).1 = (received bs).filter (fun e => s.monitor && e.monitor) ∧
    ∃ rs, Records (fileOf (listen s bs).1) rs ∧
      List.Forall₂ (fun e b => ∃ e', decode b = .ok (e', []) ∧ Stored e e')
        ((received bs).filter fun e => s.file && e.file) rs := by
  induction bs with
  | nil => exact ⟨rfl, rfl, [], .nil, .nil⟩
  | cons b bs ih =>
    simp only [listen] at h ⊢
    cases hh : handle s b with
    | mk o up =>
      rw [hh] at h
      cases up with
      | false => cases h
      | true =>
        obtain ⟨i1, i2, rs, i3, i4⟩ := ih h
        simp only
        rw [logged_append, monitored_append, fileOf_append, i1, i2]
        unfold handle at hh
        cases hd : decode b with
        | error x =>
          rw [hd] at hh
          simp only [Prod.mk.injEq] at hh
          obtain ⟨rfl, _⟩ := hh
          have : received (b :: bs) = received bs := by simp [received, hd]
          rw [this]
          exact ⟨rfl, rfl, rs, i3, i4⟩
        | ok y =>
          obtain ⟨e, r⟩ := y
          have hrec : received (b :: bs) = e :: received bs := by simp [received, hd]
          rw [hrec]
          rw [hd] at hh
          simp only [deliver] at hh
          by_cases hs : (s.file && e.file) = true
          · simp only [hs, if_true] at hh
            cases hf : fileRecord e with
            | error x =>
              rw [hf] at hh
              simp only [Prod.mk.injEq, caught_record hd hf] at hh
              exact absurd hh.2 (by decide)
            | ok f =>
              rw [hf] at hh
              simp only [Prod.mk.injEq, and_true] at hh
              subst hh
              obtain ⟨m, e', hfm, hlm, hdm, hst⟩ := record_faithful hd hf
              refine ⟨?_, ?_, m :: rs, ?_, ?_⟩
              · cases hc : (s.console && e.console) <;> cases hm : (s.monitor && e.monitor) <;>
                  simp [logged, hc]
              · cases hc : (s.console && e.console) <;> cases hm : (s.monitor && e.monitor) <;>
                  simp [monitored, hm]
              · have hfo : fileOf ((if (s.console && e.console) = true then [Out.log e] else []) ++ [Out.record f] ++
                    if (s.monitor && e.monitor) = true then [Out.monitor e] else []) = f := by
                  cases hc : (s.console && e.console) <;> cases hm : (s.monitor && e.monitor) <;> simp [fileOf]
                rw [hfo, hfm, Nice.le2]
                have := Records.cons (r := m) hlm i3
                rw [← Nat.mod_eq_of_lt (show m.length / 256 < 256 by omega)] at this
                simpa using this
              · rw [List.filter_cons_of_pos (by simpa using hs)]
                exact .cons ⟨e', hdm, hst⟩ i4
          · simp only [hs, if_false, Prod.mk.injEq, and_true, Bool.false_eq_true] at hh
            subst hh
            refine ⟨?_, ?_, rs, ?_, ?_⟩
            · cases hc : (s.console && e.console) <;> cases hm : (s.monitor && e.monitor) <;>
                simp [logged, hc]
            · cases hc : (s.console && e.console) <;> cases hm : (s.monitor && e.monitor) <;>
                simp [monitored, hm]
            · have hfo : fileOf ((if (s.console && e.console) = true then [Out.log e] else []) ++
                  if (s.monitor && e.monitor) = true then [Out.monitor e] else []) = [] := by
                cases hc : (s.console && e.console) <;> cases hm : (s.monitor && e.monitor) <;> simp [fileOf]
              rw [hfo]; exact i3
            · rw [List.filter_cons_of_neg (by simpa using hs)]
              exact i4

/-- Events 0.0 for console and file, a message that is not understood, event 4.10 for the console. -/
def messages : List Bytes :=
  [[1, 3, 0, 0, 0, 0, 0, 0, 0, 0x80, 3, 4, 4, 71, 82, 79, 75, 255],
   [2, 3, 0, 0],
   [1, 1, 10, 1, 255, 127, 190, 168, 219, 3, 3, 4, 0, 3, 1, 88]]

example : (listen ⟨true, true, false⟩ messages).2 = true ∧ (logged (listen ⟨true, true, false⟩ messages).1).length = 2 ∧
    fileOf (listen ⟨true, true, false⟩ messages).1 =
      [18, 0, 1, 3, 0, 0, 0, 0, 0, 0, 0, 0x80, 3, 4, 4, 71, 82, 79, 75, 255] := by decide +kernel

/-- C108, what is wrong: whoever may send events can end the connection with one or two bytes too many; an event that
has none of the entities it should have ends it if there is a file; later events of the connection are lost. -/
theorem listener_ended :
    (∃ b, (∃ e, decode b = .ok (e, [])) ∧ ∀ (s : Sinks) (t : UInt8) (bs : List Bytes),
      listen s ((b ++ [t]) :: bs) = ([], false)) ∧
    (∃ b e, decode b = .ok (e, []) ∧ e.cls = 2 ∧ e.body = some (.str 3 [88], []) ∧ ∀ (s : Sinks) (bs : List Bytes),
      s.file = true → listen s (b :: bs) = (if s.console then [.log e] else [], false)) := by
  constructor
  · refine ⟨[1, 3, 0, 0, 0, 0, 0, 0, 0, 0x80, 3, 4, 4, 71, 82, 79, 75, 255], ⟨_, rfl⟩, fun s t bs => ?_⟩
    rfl
  · refine ⟨[1, 3, 0x80, 0, 0, 0, 0, 0, 0, 0x80, 3, 4, 0, 3, 1, 88], _, rfl, rfl, rfl, fun s bs hs => ?_⟩
    obtain ⟨c, f, m⟩ := s
    simp only at hs
    subst hs
    cases c <;> cases m <;> rfl

end Verif.EvMsg
