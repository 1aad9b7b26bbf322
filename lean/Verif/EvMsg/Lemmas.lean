import Verif.EvMsg.Spec

namespace Verif.EvMsg

open Verif.Fields (Bytes le fromLe toBytes byte latin1Enc latin1Dec aEnc aDec)

theorem bind_ok {α β : Type} {x : Except Err α} {f : α → Except Err β} {y : β} :
    (x >>= f) = .ok y ↔ ∃ a, x = .ok a ∧ f a = .ok y := by
  cases x with
  | error e => simp [bind, Except.bind]
  | ok a => simp [bind, Except.bind]

@[simp] theorem pure_eq {α : Type} {a : α} : (pure a : Except Err α) = .ok a := rfl

@[simp] theorem ok_bind {α β : Type} {a : α} {f : α → Except Err β} : (Except.ok a >>= f) = f a := rfl
@[simp] theorem error_bind {α β : Type} {x : Err} {f : α → Except Err β} :
    ((Except.error x : Except Err α) >>= f) = .error x := rfl

@[simp] theorem mapErr_ok {α ε : Type} {x : Except ε α} {g : ε → Err} {a : α} :
    x.mapError g = .ok a ↔ x = .ok a := by
  cases x <;> simp [Except.mapError]

theorem mapErr_of_ok {α ε : Type} {x : Except ε α} (g : ε → Err) {a : α} (h : x = .ok a) :
    x.mapError g = .ok a := mapErr_ok.2 h

/-! ## Nodes -/

def nodeBytes (n : Node) : Bytes :=
  le 2 n.addr ++ UInt8.ofNat (n.name.length + if n.exec then 0x80 else 0) :: n.name.map UInt8.ofNat

theorem node_enc {n : Node} (h : n.Ok) : n.enc = .ok (nodeBytes n) := by
  obtain ⟨h1, _, h3, h4⟩ := h
  unfold Node.enc
  rw [mapErr_of_ok _ (Nice.toBytes2.2 ⟨h1, rfl⟩),
    mapErr_of_ok _ (Fields.byte_ok.2 ⟨by split <;> omega, rfl⟩),
    mapErr_of_ok _ (Fields.latin1Enc_ok.2 ⟨h4, rfl⟩)]
  simp [nodeBytes]

theorem decNode_enc {n : Node} (h : n.Ok) (r : Bytes) : decNode (nodeBytes n ++ r) = .ok (n, r) := by
  obtain ⟨h1, h2, h3, h4⟩ := h
  obtain ⟨a, b, hab, hf⟩ := Nice.le2_cons h1
  unfold nodeBytes
  rw [hab]
  simp only [List.cons_append, List.nil_append, decNode, hf]
  have hl : (UInt8.ofNat (n.name.length + if n.exec then 0x80 else 0)).toNat =
      n.name.length + if n.exec then 0x80 else 0 := Fields.ofNat_toNat_lt (by split <;> omega)
  rw [if_neg (by omega), hl]
  have hk : (n.name.length + if n.exec then 0x80 else 0) % 128 = n.name.length := by split <;> omega
  have he : (decide (128 ≤ n.name.length + if n.exec then 0x80 else 0)) = n.exec := by
    cases n.exec
    · simp; omega
    · simp
  rw [hk, he, List.take_left' (by simp), List.drop_left' (by simp), Fields.latin1Dec_enc h4]

theorem latin1Dec_lt (b : Bytes) : ∀ c ∈ latin1Dec b, c < 256 := by
  intro c hc
  simp only [latin1Dec, List.mem_map] at hc
  obtain ⟨x, _, rfl⟩ := hc
  simpa using x.toNat_lt

/-- What is read of a node can be sent; and unless the name was cut short at the end of the message, it was read from
a part of it that does not depend on what comes after. -/
theorem decNode_ok {b r : Bytes} {n : Node} (h : decNode b = .ok (n, r)) :
    n.Ok ∧ (r ≠ [] → ∃ p, b = p ++ r ∧ ∀ r', decNode (p ++ r') = .ok (n, r')) := by
  match b, h with
  | a :: b :: l :: tl, h =>
    simp only [decNode] at h
    split at h
    · cases h
    · rename_i hz
      simp only [Except.ok.injEq, Prod.mk.injEq] at h
      obtain ⟨rfl, rfl⟩ := h
      refine ⟨⟨Nice.fromLe2_lt a b, ?_, ?_, latin1Dec_lt _⟩, ?_⟩
      · show fromLe [a, b] % 1024 = 0 → fromLe [a, b] = 0
        omega
      · simp only [latin1Dec, List.length_map, List.length_take]; omega
      · intro hr
        refine ⟨a :: b :: l :: tl.take (l.toNat % 128), by simp, fun r' => ?_⟩
        simp only [List.cons_append, decNode]
        rw [if_neg hz]
        have hlen : (tl.take (l.toNat % 128)).length = l.toNat % 128 := by
          have : 0 < (tl.drop (l.toNat % 128)).length := List.length_pos_iff.2 hr
          simp only [List.length_drop] at this
          simp only [List.length_take]; omega
        rw [List.take_left' hlen, List.drop_left' hlen]

theorem decNode_err {b : Bytes} {x : Err} (h : decNode b = .error x) : x = .decodeError := by
  match b, h with
  | [], h => cases h; rfl
  | [_], h => cases h; rfl
  | [_, _], h => cases h; rfl
  | a :: b :: l :: tl, h =>
    simp only [decNode] at h
    split at h
    · cases h; rfl
    · cases h

/-! ## Entities -/

def entBytes : Entity → Bytes
  | .node n => 0 :: nodeBytes n
  | .area a => [5, 0, UInt8.ofNat a]
  | .none => [255]
  | .str c s => UInt8.ofNat c :: UInt8.ofNat s.length :: s.map UInt8.ofNat

theorem aEnc_255 {s : List Nat} (h1 : s.length ≤ 255) (h2 : ∀ c ∈ s, c < 256) :
    aEnc 255 s = .ok (UInt8.ofNat s.length :: s.map UInt8.ofNat) :=
  Fields.aEnc_ok.2 ⟨h2, Fields.iEnc_ok.2 ⟨by simpa using h1, by simp; omega, by simp⟩⟩

theorem ent_enc {e : Entity} (h : e.Ok) : e.enc = .ok (entBytes e) := by
  cases e with
  | node n => simp only [Entity.enc, node_enc h, ok_bind, pure_eq, entBytes]
  | area a =>
    simp only [Entity.enc]
    rw [mapErr_of_ok _ (Fields.byte_ok.2 ⟨h, rfl⟩)]
    rfl
  | none => rfl
  | str c s =>
    obtain ⟨h1, _, _, _, h2, h3⟩ := h
    simp only [Entity.enc]
    rw [mapErr_of_ok _ (Fields.byte_ok.2 ⟨h1, rfl⟩), mapErr_of_ok _ (aEnc_255 h2 h3)]
    rfl

theorem aDec_bytes {s : List Nat} (h1 : s.length ≤ 255) (h2 : ∀ c ∈ s, c < 256) (r : Bytes) :
    aDec 255 (UInt8.ofNat s.length :: (s.map UInt8.ofNat ++ r)) = .ok (s, r) :=
  Fields.aDec_ok.2 ⟨s.map UInt8.ofNat,
    Fields.iDec_ok.2 ⟨by simpa using h1, by simp; omega, by simp⟩, (Fields.latin1Dec_enc h2).symm⟩

theorem u8_ne {c k : Nat} (hc : c < 256) (hk : k < 256) (h : c ≠ k) : UInt8.ofNat c ≠ UInt8.ofNat k := by
  intro h2
  apply h
  rw [← Fields.ofNat_toNat_lt hc, ← Fields.ofNat_toNat_lt hk, h2]

/-- The entity as the class of the layout reads it: a line where a circuit is due is a circuit. -/
def readAs (k : Kind) : Entity → Entity
  | .str c s => .str (if k = .str 3 ∧ c = 1 then 3 else c) s
  | e => e

theorem decEnt_enc {e : Entity} (h : e.Ok) (k : Kind) (r : Bytes) :
    decEnt k (entBytes e ++ r) = .ok (readAs k e, r) := by
  cases e with
  | node n =>
    simp only [entBytes, List.cons_append, decEnt, if_true, decNode_enc h, ok_bind, pure_eq, readAs]
  | area a =>
    simp only [entBytes, List.cons_append, List.nil_append, decEnt, readAs]
    rw [if_neg (by decide), if_pos trivial, Fields.ofNat_toNat_lt h]
  | none => rfl
  | str c s =>
    obtain ⟨h1, h2, h3, h4, h5, h6⟩ := h
    simp only [entBytes, List.cons_append, decEnt, readAs]
    have n0 : UInt8.ofNat c ≠ 0 := u8_ne (k := 0) h1 (by omega) h2
    have n5 : UInt8.ofNat c ≠ 5 := u8_ne (k := 5) h1 (by omega) h3
    have nf : UInt8.ofNat c ≠ 255 := u8_ne (k := 255) h1 (by omega) h4
    rw [if_neg n0, if_neg n5, if_neg nf, aDec_bytes h5 h6]
    simp only [Except.ok.injEq, Prod.mk.injEq, Entity.str.injEq, and_true]
    by_cases hk : k = .str 3 ∧ c = 1
    · rw [if_pos hk, if_pos ⟨hk.1, by rw [hk.2]; rfl⟩]; rfl
    · rw [if_neg hk, if_neg (fun x => hk ⟨x.1, ?_⟩), Fields.ofNat_toNat_lt h1]
      have := congrArg UInt8.toNat x.2
      rw [Fields.ofNat_toNat_lt h1] at this
      exact this

theorem decEnt_ok {k : Kind} {b r : Bytes} {e : Entity} (h : decEnt k b = .ok (e, r)) :
    e.Ok ∧ readAs k e = e ∧ (r ≠ [] → ∃ p, b = p ++ r ∧ ∀ r', decEnt k (p ++ r') = .ok (e, r')) := by
  cases b with
  | nil => cases h
  | cons c tl =>
    simp only [decEnt] at h
    split at h
    · rename_i hc
      obtain ⟨⟨n, r1⟩, h1, h2⟩ := bind_ok.1 h
      simp only [pure_eq, Except.ok.injEq, Prod.mk.injEq] at h2
      obtain ⟨rfl, rfl⟩ := h2
      obtain ⟨a, b⟩ := decNode_ok h1
      refine ⟨a, rfl, fun hr => ?_⟩
      obtain ⟨p, rfl, hp⟩ := b hr
      refine ⟨c :: p, rfl, fun r' => ?_⟩
      simp only [List.cons_append, decEnt]
      rw [if_pos hc, hp]; rfl
    · rename_i hc
      split at h
      · rename_i hc5
        match tl, h with
        | x :: a :: tl, h =>
          simp only [Except.ok.injEq, Prod.mk.injEq] at h
          obtain ⟨rfl, rfl⟩ := h
          refine ⟨by simpa [Entity.Ok] using a.toNat_lt, rfl, fun _ => ⟨[c, x, a], rfl, fun r' => ?_⟩⟩
          simp only [List.cons_append, List.nil_append, decEnt]
          rw [if_neg hc, if_pos hc5]
      · rename_i hc5
        split at h
        · rename_i hcf
          simp only [Except.ok.injEq, Prod.mk.injEq] at h
          obtain ⟨rfl, rfl⟩ := h
          refine ⟨trivial, rfl, fun _ => ⟨[c], rfl, fun r' => ?_⟩⟩
          simp only [List.cons_append, List.nil_append, decEnt]
          rw [if_neg hc, if_neg hc5, if_pos hcf]
        · rename_i hcf
          split at h
          · rename_i s r1 ha
            simp only [Except.ok.injEq, Prod.mk.injEq] at h
            obtain ⟨rfl, rfl⟩ := h
            obtain ⟨v, hv, rfl⟩ := Fields.aDec_ok.1 ha
            obtain ⟨hv1, hv2, rfl⟩ := Fields.iDec_ok.1 hv
            have hcn : ∀ n : Nat, n < 256 → c ≠ UInt8.ofNat n → c.toNat ≠ n := by
              intro n _ h1 h2; apply h1; rw [← h2]; simp
            refine ⟨?_, ?_, fun _ => ?_⟩
            · have hlt : (if k = .str 3 ∧ c = 1 then (3 : UInt8) else c).toNat < 256 := by
                simpa using UInt8.toNat_lt _
              refine ⟨hlt, ?_, ?_, ?_, by simpa [latin1Dec] using hv1, latin1Dec_lt _⟩
              · split
                · decide
                · exact hcn 0 (by omega) hc
              · split
                · decide
                · exact hcn 5 (by omega) hc5
              · split
                · decide
                · exact hcn 255 (by omega) hcf
            · simp only [readAs, Entity.str.injEq, and_true]
              by_cases h1 : k = .str 3 ∧ c = 1
              · rw [if_pos h1, if_neg (fun h2 => absurd h2.2 (by decide))]
              · rw [if_neg h1, if_neg]
                exact fun h2 => h1 ⟨h2.1, UInt8.toNat_inj.1 h2.2⟩
            · refine ⟨c :: UInt8.ofNat v.length :: v, by simp, fun r' => ?_⟩
              simp only [List.cons_append, decEnt]
              rw [if_neg hc, if_neg hc5, if_neg hcf,
                Fields.aDec_ok.2 ⟨v, Fields.iDec_ok.2 ⟨hv1, hv2, rfl⟩, rfl⟩]
          · cases h

theorem decEnt_err {k : Kind} {b : Bytes} {x : Err} (h : decEnt k b = .error x) : x = .decodeError := by
  cases b with
  | nil => cases h; rfl
  | cons c tl =>
    simp only [decEnt] at h
    split at h
    · cases hn : decNode tl with
      | ok a => rw [hn] at h; cases h
      | error y => rw [hn] at h; cases h; exact decNode_err hn
    · split at h
      · split at h
        · cases h
        · cases h; rfl
      · split at h
        · cases h
        · split at h
          · cases h
          · cases h; rfl

/-! ## Header -/

def hdrBytes (e : Event) : Bytes :=
  [1, UInt8.ofNat (bit 0 e.console + bit 1 e.file + bit 2 e.monitor)] ++ le 2 (e.code + 64 * e.cls) ++
    le 2 e.halfday ++ le 2 e.seconds ++ le 2 (e.ms + bit 15 e.msAbsent) ++ nodeBytes e.source

/-- What `encode` appends to the header. -/
def encBody (k : Option Kind) (body : Option (Entity × List Nice.Item)) : Except Err Bytes :=
  match k, body with
  | some k, some (ent, items) => do
    let ent ← retype k ent
    let eb ← ent.enc
    let ib ← (Nice.encode items).mapError ofNice
    return eb ++ ib
  | some k, none => do
    let ent ← defaultEnt k
    ent.enc
  | none, _ => .ok []

theorem encode_eq {e : Event} (h : e.Ok) :
    encode e = (encBody (layout e.cls e.code) e.body).map (hdrBytes e ++ ·) := by
  obtain ⟨h1, h2, h3, h4, h5, h6⟩ := h
  unfold encode
  simp only [bits]
  rw [if_pos (by simpa using h2), if_pos (by simpa using h1), if_pos (by simpa using h5),
    mapErr_of_ok _ (Nice.toBytes2.2 ⟨h3, rfl⟩), mapErr_of_ok _ (Nice.toBytes2.2 ⟨h4, rfl⟩), node_enc h6]
  simp only [ok_bind]
  unfold encBody
  cases layout e.cls e.code with
  | none => simp [Except.map, hdrBytes]
  | some k =>
    cases e.body with
    | none =>
      simp only
      cases defaultEnt k with
      | error x => rfl
      | ok ent =>
        simp only [ok_bind]
        cases ent.enc with
        | error x => rfl
        | ok eb => simp [Except.map, hdrBytes]
    | some x =>
      simp only
      cases retype k x.1 with
      | error x => rfl
      | ok ent =>
        simp only [ok_bind]
        cases ent.enc with
        | error x => rfl
        | ok eb =>
          simp only [ok_bind]
          cases (Nice.encode x.2).mapError ofNice with
          | error x => rfl
          | ok ib => simp [Except.map, hdrBytes]

/-- What `decode` makes of the part after the header. -/
def decBody (k : Option Kind) (r : Bytes) : Except Err (Option (Entity × List Nice.Item) × Bytes) :=
  match k with
  | some k => do
    let (ent, r) ← decEnt k r
    let items ← (Nice.decode r).mapError ofNice
    return (some (ent, items), [])
  | none => .ok (none, r)

/-- The header of a message: the event without body, and the rest. -/
def decHdr : Bytes → Except Err (Event × Bytes)
  | f :: fl :: c0 :: c1 :: h0 :: h1 :: s0 :: s1 :: m0 :: m1 :: r =>
    if f ≠ 1 then .error .decodeError
    else do
      let (src, r) ← decNode r
      return ({ console := fl.toNat % 2 = 1, file := fl.toNat / 2 % 2 = 1, monitor := fl.toNat / 4 % 2 = 1,
                cls := fromLe [c0, c1] / 64 % 512, code := fromLe [c0, c1] % 32,
                halfday := fromLe [h0, h1], seconds := fromLe [s0, s1],
                ms := fromLe [m0, m1] % 1024, msAbsent := fromLe [m0, m1] / 32768 = 1, source := src,
                body := none }, r)
  | _ => .error .decodeError

theorem decode_eq (b : Bytes) :
    decode b = decHdr b >>= fun x =>
      (decBody (layout x.1.cls x.1.code) x.2).map fun y => ({ x.1 with body := y.1 }, y.2) := by
  match b with
  | [] | [_] | [_, _] | [_, _, _] | [_, _, _, _] | [_, _, _, _, _] | [_, _, _, _, _, _] | [_, _, _, _, _, _, _]
  | [_, _, _, _, _, _, _, _] | [_, _, _, _, _, _, _, _, _] => rfl
  | f :: fl :: c0 :: c1 :: h0 :: h1 :: s0 :: s1 :: m0 :: m1 :: r =>
    simp only [decode, decHdr]
    split
    · rfl
    · cases decNode r with
      | error x => rfl
      | ok y =>
        simp only [ok_bind, pure_eq]
        cases layout (fromLe [c0, c1] / 64 % 512) (fromLe [c0, c1] % 32) with
        | none => rfl
        | some k =>
          simp only [decBody]
          cases decEnt k y.2 with
          | error x => rfl
          | ok z =>
            simp only [ok_bind]
            cases (Nice.decode z.2).mapError ofNice with
            | error x => rfl
            | ok is => rfl

theorem decHdr_enc {e : Event} (h : e.Ok) (r : Bytes) :
    decHdr (hdrBytes e ++ r) = .ok ({ e with body := none }, r) := by
  obtain ⟨h1, h2, h3, h4, h5, h6⟩ := h
  obtain ⟨c0, c1, hc, fc⟩ := Nice.le2_cons (show e.code + 64 * e.cls < 65536 by omega)
  obtain ⟨d0, d1, hd, fd⟩ := Nice.le2_cons h3
  obtain ⟨s0, s1, hs, fs⟩ := Nice.le2_cons h4
  obtain ⟨m0, m1, hm, fm⟩ := Nice.le2_cons (show e.ms + bit 15 e.msAbsent < 65536 by
    unfold bit; split <;> omega)
  unfold hdrBytes
  rw [hc, hd, hs, hm]
  simp only [List.cons_append, List.nil_append, decHdr, ne_eq, not_true_eq_false, if_false,
    decNode_enc h6, ok_bind, pure_eq, fc, fd, fs, fm]
  have hfl : (UInt8.ofNat (bit 0 e.console + bit 1 e.file + bit 2 e.monitor)).toNat =
      bit 0 e.console + bit 1 e.file + bit 2 e.monitor :=
    Fields.ofNat_toNat_lt (by unfold bit; split <;> split <;> split <;> omega)
  rw [hfl]
  have ec : decide ((bit 0 e.console + bit 1 e.file + bit 2 e.monitor) % 2 = 1) = e.console := by
    cases e.console <;> cases e.file <;> cases e.monitor <;> rfl
  have ef : decide ((bit 0 e.console + bit 1 e.file + bit 2 e.monitor) / 2 % 2 = 1) = e.file := by
    cases e.console <;> cases e.file <;> cases e.monitor <;> rfl
  have em : decide ((bit 0 e.console + bit 1 e.file + bit 2 e.monitor) / 4 % 2 = 1) = e.monitor := by
    cases e.console <;> cases e.file <;> cases e.monitor <;> rfl
  have ea : decide ((e.ms + bit 15 e.msAbsent) / 32768 = 1) = e.msAbsent := by
    cases e.msAbsent <;> simp [bit] <;> omega
  have e1 : (e.code + 64 * e.cls) / 64 % 512 = e.cls := by omega
  have e2 : (e.code + 64 * e.cls) % 32 = e.code := by omega
  have e3 : (e.ms + bit 15 e.msAbsent) % 1024 = e.ms := by unfold bit; split <;> omega
  rw [ec, ef, em, ea, e1, e2, e3]

theorem decHdr_ok {b r : Bytes} {e : Event} (h : decHdr b = .ok (e, r)) :
    e.Ok ∧ e.body = none ∧ (r ≠ [] → ∃ p, b = p ++ r ∧ ∀ r', decHdr (p ++ r') = .ok (e, r')) := by
  match b, h with
  | f :: fl :: c0 :: c1 :: h0 :: h1 :: s0 :: s1 :: m0 :: m1 :: tl, h =>
    simp only [decHdr] at h
    split at h
    · cases h
    · rename_i hf
      obtain ⟨⟨src, r1⟩, hn, h2⟩ := bind_ok.1 h
      simp only [pure_eq, Except.ok.injEq, Prod.mk.injEq] at h2
      obtain ⟨rfl, rfl⟩ := h2
      obtain ⟨ok, pre⟩ := decNode_ok hn
      refine ⟨⟨?_, ?_, Nice.fromLe2_lt _ _, Nice.fromLe2_lt _ _, ?_, ok⟩, rfl, fun hr => ?_⟩
      · exact Nat.mod_lt _ (by omega)
      · exact Nat.mod_lt _ (by omega)
      · exact Nat.mod_lt _ (by omega)
      · obtain ⟨p, rfl, hp⟩ := pre hr
        refine ⟨f :: fl :: c0 :: c1 :: h0 :: h1 :: s0 :: s1 :: m0 :: m1 :: p, rfl, fun r' => ?_⟩
        simp only [List.cons_append, decHdr]
        rw [if_neg hf, hp]; rfl

theorem decHdr_err {b : Bytes} {x : Err} (h : decHdr b = .error x) : x = .decodeError := by
  match b, h with
  | [], h | [_], h | [_, _], h | [_, _, _], h | [_, _, _, _], h | [_, _, _, _, _], h | [_, _, _, _, _, _], h
  | [_, _, _, _, _, _, _], h | [_, _, _, _, _, _, _, _], h | [_, _, _, _, _, _, _, _, _], h => cases h; rfl
  | f :: fl :: c0 :: c1 :: h0 :: h1 :: s0 :: s1 :: m0 :: m1 :: tl, h =>
    simp only [decHdr] at h
    split at h
    · cases h; rfl
    · cases hn : decNode tl with
      | ok y => rw [hn] at h; cases h
      | error y => rw [hn] at h; cases h; exact decNode_err hn

/-! ## Layouts -/

theorem about_layout {cls code : Nat} {ent : Entity} (h : About cls code ent) :
    ∃ k, layout cls code = some k ∧ retype k ent = .ok ent ∧ readAs k ent = ent := by
  cases h with
  | eventsLost => exact ⟨_, rfl, rfl, rfl⟩
  | nodeCounters h => rcases h with rfl | rfl <;> exact ⟨_, rfl, rfl, rfl⟩
  | lineCounters h => rcases h with rfl | rfl <;> exact ⟨_, rfl, rfl, rfl⟩
  | service h => rcases h with rfl | rfl | rfl <;> exact ⟨_, rfl, rfl, rfl⟩
  | otherNetman h =>
    refine ⟨.any, ?_, rfl, ?_⟩
    · unfold layout
      rw [if_pos rfl, if_neg (by omega), if_neg (by omega), if_neg (by omega), if_neg (by omega)]
    · cases ent <;> simp [readAs]
  | session => exact ⟨_, rfl, rfl, rfl⟩
  | ecl => exact ⟨_, rfl, rfl, rfl⟩
  | circuit h1 h2 h3 =>
    refine ⟨.str 3, ?_, rfl, rfl⟩
    unfold layout
    rw [if_neg (by omega), if_pos rfl, if_neg h2, if_neg h3, if_pos (by omega)]
  | reachability => exact ⟨_, rfl, rfl, rfl⟩
  | areaReachability => exact ⟨_, rfl, rfl, rfl⟩
  | dataLink h =>
    refine ⟨.str 3, ?_, rfl, rfl⟩
    unfold layout
    rw [if_neg (by omega), if_neg (by omega), if_pos rfl, if_pos (by omega)]
  | dte h => rcases h with rfl | rfl <;> exact ⟨_, rfl, rfl, rfl⟩
  | physical => exact ⟨_, rfl, rfl, rfl⟩
  | system h => rcases h with rfl | rfl | rfl | rfl | rfl | rfl | rfl <;> exact ⟨_, rfl, rfl, rfl⟩
  | unknown h =>
    refine ⟨.any, ?_, rfl, ?_⟩
    · simp only [Known, List.mem_cons, List.not_mem_nil, or_false, not_or] at h
      unfold layout
      rw [if_neg h.1, if_neg h.2.2.2.1, if_neg h.2.2.2.2.1, if_neg h.2.2.2.2.2.1, if_neg]
      simp only [List.mem_cons, List.not_mem_nil, or_false, not_or]
      exact ⟨h.2.1, h.2.2.1, h.2.2.2.2.2.2⟩
    · cases ent <;> simp [readAs]

theorem about_circuit {cls code : Nat} {s : List Nat} (h : About cls code (.str 3 s)) (hk : Known cls)
    (hn : cls = 0 → code < 8) : layout cls code = some (.str 3) := by
  cases h with
  | service h => rcases h with rfl | rfl | rfl <;> rfl
  | otherNetman h => have := hn rfl; omega
  | circuit h1 h2 h3 =>
    unfold layout
    rw [if_neg (by omega), if_pos rfl, if_neg h2, if_neg h3, if_pos (by omega)]
  | dataLink h =>
    unfold layout
    rw [if_neg (by omega), if_neg (by omega), if_pos rfl, if_pos (by omega)]
  | unknown h => exact absurd hk h

theorem retype_ok {k : Kind} {a b : Entity} (h : retype k a = .ok b) (ha : a.Ok)
    (hk : ∀ c, k = .str c → c = 1 ∨ c = 3 ∨ c = 4) :
    b.Ok ∧ SameName a b ∧ (readAs k a = a → readAs k b = b) := by
  unfold retype at h
  split at h
  · cases h; exact ⟨ha, by cases a <;> simp [SameName], id⟩
  · cases h; exact ⟨ha, rfl, id⟩
  · cases h
  · cases h; exact ⟨ha, rfl, id⟩
  · cases h; exact ⟨ha, rfl, id⟩
  · cases h
    obtain ⟨_, _, _, _, h1, h2⟩ := ha
    rcases hk _ rfl with rfl | rfl | rfl <;>
      exact ⟨⟨by omega, by omega, by omega, by omega, h1, h2⟩, rfl, fun _ => rfl⟩
  · cases h

theorem layout_str {cls code c : Nat} (h : layout cls code = some (.str c)) : c = 1 ∨ c = 3 ∨ c = 4 := by
  unfold layout at h
  split at h
  · split at h
    · cases h
    · split at h
      · cases h
      · split at h
        · cases h; simp
        · split at h
          · cases h; simp
          · cases h
  · split at h
    · split at h
      · cases h
      · split at h
        · cases h
        · split at h
          · cases h; simp
          · cases h
    · split at h
      · split at h
        · cases h; simp
        · split at h
          · cases h; simp
          · cases h
      · split at h
        · cases h; simp
        · split at h <;> cases h

end Verif.EvMsg
