import Verif.NspPkt.Lemmas

/-! Property C31: NSP messages survive the wire. -/
namespace Verif.NspPkt
open Verif.Fields (Bytes le toBytes iEnc iDec signedEnc exEnc)
open Verif.Nsp (Msg Body AckNum)

/-! ## Specification -/

/-- A message body with its sequence number reduced to 12 bits. -/
def bodyOnWire : Body → Body
  | .dataSeg n dly bom eom p => .dataSeg (n % 4096) dly bom eom p
  | .intMsg n p => .intMsg (n % 4096) p
  | .linkSvc n f i v => .linkSvc (n % 4096) f i v
  | b => b

/-- The classes that carry acknowledgment fields. -/
def HasAcks : Body → Prop
  | .dataSeg .. | .intMsg .. | .linkSvc .. | .ackData | .ackOther => True
  | _ => False

/-- `m'` says the same as `m`: same kind of message, same flags, numbers and contents; same link
addresses (a Connect Acknowledgment has no source address); and, for the classes that have them, the
same list of acknowledgments, in the same order. -/
structure Same (m m' : Msg) : Prop where
  body : m'.body = bodyOnWire m.body
  dst : m'.dst = m.dst
  src : m.body ≠ .ackConn → m'.src = m.src
  acks : HasAcks m.body → m'.ack.toList ++ m'.ack2.toList =
    (m.ack.toList ++ m.ack2.toList).map (fun a => ⟨a.num % 4096, a.qual⟩)
  noAcks : ¬ HasAcks m.body → m'.ack = none ∧ m'.ack2 = none

/-- Messages the protocol allows: two acknowledgments are for different subchannels, an
acknowledgment message has one, and link service flags are not the reserved ones. -/
def Allowed (m : Msg) : Prop :=
  match m.body with
  | .dataSeg .. | .intMsg .. => ∀ a ∈ m.ack, ∀ b ∈ m.ack2, a.isCross ≠ b.isCross
  | .ackData | .ackOther =>
    (∀ a ∈ m.ack, ∀ b ∈ m.ack2, a.isCross ≠ b.isCross) ∧ (m.ack.isSome ∨ m.ack2.isSome)
  | .linkSvc _ f i _ => i ≤ 1 ∧ f ≠ 3
  | _ => True

/-! ## Proof -/

theorem acks_list (m : Msg) : (acks m).1.toList ++ (acks m).2.toList =
    (m.ack.toList ++ m.ack2.toList).map (fun a => ⟨a.num % 4096, a.qual⟩) := by
  unfold acks
  cases m.ack <;> cases m.ack2 <;> rfl

theorem ackCheck_ok {m : Msg} (h : ∀ a ∈ m.ack, ∀ b ∈ m.ack2, a.isCross ≠ b.isCross) (b : Body) :
    ackCheck ⟨m.dst, m.src, (acks m).1, (acks m).2, b⟩ = .ok () := by
  unfold ackCheck acks
  cases h1 : m.ack with
  | none => cases h2 : m.ack2 <;> rfl
  | some x =>
    cases h2 : m.ack2 with
    | none => rfl
    | some y =>
      simp only [Option.map]
      have := h x h1 y h2
      rw [if_neg]
      exact this

theorem ackCheck_bad {m : Msg} {a c : AckNum} (h1 : m.ack = some a) (h2 : m.ack2 = some c)
    (h : a.isCross = c.isCross) (b : Body) :
    ackCheck ⟨m.dst, m.src, (acks m).1, (acks m).2, b⟩ = .error .invalidAck := by
  unfold ackCheck acks
  rw [h1, h2]
  exact if_pos h

theorem acks_some {m : Msg} (h : m.ack.isSome ∨ m.ack2.isSome) : (acks m).1 ≠ none := by
  unfold acks
  cases h1 : m.ack <;> cases h2 : m.ack2 <;> simp [h1, h2] at h ⊢

/-- The class a body is sent as. -/
def clsOf : Body → Cls
  | .dataSeg .. => .dataSeg
  | .intMsg .. => .intMsg
  | .linkSvc .. => .linkSvc
  | .ackData => .ackData
  | .ackOther => .ackOther
  | .ackConn => .ackConn
  | .connInit .. => .connInit
  | .connConf .. => .connConf
  | .discInit .. => .discInit
  | .discConf _ => .discConf

theorem flag_lt (b : Body) : flag b < 128 := by
  cases b with
  | dataSeg n d bom eom p => cases bom <;> cases eom <;> simp [flag]
  | connInit r _ _ _ _ => cases r <;> simp [flag]
  | _ => simp [flag]

theorem flag_class (b : Body) : findclass (UInt8.ofNat (flag b % 256)) = .ok (clsOf b) := by
  cases b with
  | dataSeg n d bom eom p => cases bom <;> cases eom <;> simp [flag, findclass, index, clsOf]
  | connInit r _ _ _ _ => cases r <;> simp [flag, findclass, index, clsOf]
  | discConf r => simp [flag, findclass, index, clsOf, discIndex]
  | _ => simp [flag, findclass, index, clsOf]

theorem toNat_flag (b : Body) : (UInt8.ofNat (flag b % 256)).toNat = flag b := by
  have := flag_lt b
  rw [UInt8.toNat_ofNat']
  omega

theorem seg_rt (n : Nat) (dly : Bool) :
    ((n &&& 0o7777) ||| ((if dly then 1 else 0) <<< 12)) = n % 4096 + (if dly then 4096 else 0) := by
  rw [and4095, Fields.or_shift_add (show n % 4096 < 2 ^ 12 by omega)]
  cases dly <;> rfl

theorem connDec_enc {m : Msg} {f i z : Nat} {b r : Bytes} (h : connEnc m f i z = .ok b) :
    connDec (b ++ r) = .ok ((m.dst, m.src, f, i, z), r) := by
  simp only [connEnc, bind_ok, up_ok, toBytes_nat] at h
  obtain ⟨_, ⟨hd, rfl⟩, _, ⟨hs, rfl⟩, fb, hf, ib, hi, _, ⟨hz, rfl⟩, he⟩ := h
  simp only [pure, Except.pure, Except.ok.injEq] at he
  subst he
  by_cases hf4 : f / 4 ≠ 0
  · rw [if_pos hf4] at hf
    cases hf
  · rw [if_neg hf4, up_ok, toBytes_nat, Fields.or_shift_add (show 1 < 2 ^ 2 by decide)] at hf
    obtain ⟨hfl, rfl⟩ := hf
    simp only [connDec, List.append_assoc, dec2_le hd, dec2_le hs, dec1_le hfl, infoDec_enc hi,
      dec2_le hz, bind, Except.bind, pure, Except.pure]
    rw [if_neg, shr, and3]
    · congr 2
      simp only [Prod.mk.injEq, and_true, true_and]
      omega
    · rw [and3, shr]
      omega

theorem discDec_enc {m : Msg} {rs : Nat} {b r : Bytes} (h : discEnc m rs = .ok b) :
    dec2 (b ++ r) = .ok (m.dst, le 2 m.src ++ (le 2 rs ++ r)) ∧ m.src < 65536 ∧ rs < 65536 := by
  simp only [discEnc, bind_ok, up_ok, toBytes_nat] at h
  obtain ⟨_, ⟨hd, rfl⟩, _, ⟨hs, rfl⟩, _, ⟨hr, rfl⟩, he⟩ := h
  simp only [pure, Except.pure, Except.ok.injEq] at he
  subst he
  rw [List.append_assoc, List.append_assoc, dec2_le hd]
  exact ⟨rfl, hs, hr⟩

/-- What the receiver gets from an encoded message. -/
def seen (m : Msg) : Msg :=
  match m.body with
  | .ackConn => ⟨m.dst, 0, none, none, .ackConn⟩
  | .dataSeg .. | .intMsg .. | .linkSvc .. | .ackData | .ackOther =>
    ⟨m.dst, m.src, (acks m).1, (acks m).2, bodyOnWire m.body⟩
  | b => ⟨m.dst, m.src, none, none, b⟩

theorem body_rt {m : Msg} {b : Bytes} (h : bodyEnc m = .ok b) (ha : Allowed m) :
    bodyDec (clsOf m.body) (flag m.body) b = .ok (seen m, []) := by
  cases hb : m.body with
  | ackData =>
    rw [bodyEnc, hb] at h
    rw [Allowed, hb] at ha
    have := ackHdr_rt (r := []) h noAck_nil
    rw [List.append_nil] at this
    simp only [clsOf, bodyDec, this, bind, Except.bind, ackCheck', ackCheck_ok ha.1, if_neg (acks_some ha.2),
      pure, Except.pure, seen, hb, bodyOnWire]
  | ackOther =>
    rw [bodyEnc, hb] at h
    rw [Allowed, hb] at ha
    have := ackHdr_rt (r := []) h noAck_nil
    rw [List.append_nil] at this
    simp only [clsOf, bodyDec, this, bind, Except.bind, ackCheck', ackCheck_ok ha.1, if_neg (acks_some ha.2),
      pure, Except.pure, seen, hb, bodyOnWire]
  | ackConn =>
    simp only [bodyEnc, hb, up_ok, toBytes_nat] at h
    obtain ⟨hd, rfl⟩ := h
    have := dec2_le hd []
    rw [List.append_nil] at this
    simp only [clsOf, bodyDec, this, bind, Except.bind, pure, Except.pure, seen, hb]
  | dataSeg n dly bom eom p =>
    simp only [bodyEnc, hb, bind_ok, segEnc, up_ok, seg_rt, toBytes_nat] at h
    obtain ⟨hd, hh, _, ⟨hl, rfl⟩, he⟩ := h
    simp only [pure, Except.pure, Except.ok.injEq] at he
    subst he
    rw [Allowed, hb] at ha
    have hlt : n % 4096 + (if dly then 4096 else 0) < 32768 := by split <;> omega
    simp only [clsOf, bodyDec, List.append_assoc, ackHdr_rt hh (noAck_le hlt p), dec2_le hl, bind,
      Except.bind, ackCheck_ok ha, pure, Except.pure, seen, hb, bodyOnWire]
    have e1 : n % 4096 + (if dly then 4096 else 0) &&& 0o7777 = n % 4096 := by
      rw [and4095]; split <;> omega
    have e2 : ((n % 4096 + (if dly then 4096 else 0)) >>> 12 &&& 1 == 1) = dly := by
      rw [shr, Nat.and_one_is_mod]
      cases dly
      · rw [show (n % 4096 + if false = true then 4096 else 0) / 2 ^ 12 % 2 = 0 by
          rw [if_neg Bool.noConfusion]; omega]
        rfl
      · rw [show (n % 4096 + if true = true then 4096 else 0) / 2 ^ 12 % 2 = 1 by
          rw [if_pos rfl]; omega]
        rfl
    rw [e1, e2]
    cases bom <;> cases eom <;> simp [flag]
  | intMsg n p =>
    simp only [bodyEnc, hb, bind_ok, seqEnc, up_ok, toBytes_nat, and4095] at h
    obtain ⟨hd, hh, _, ⟨hl, rfl⟩, he⟩ := h
    simp only [pure, Except.pure, Except.ok.injEq] at he
    subst he
    rw [Allowed, hb] at ha
    have hlt : n % 4096 < 32768 := by omega
    simp only [clsOf, bodyDec, List.append_assoc, ackHdr_rt hh (noAck_le hlt p), dec2_le hl, bind,
      Except.bind, ackCheck_ok ha, pure, Except.pure, seen, hb, bodyOnWire, and4095, Nat.mod_mod]
  | linkSvc n f i v =>
    simp only [bodyEnc, hb, bind_ok, seqEnc, up_ok, toBytes_nat, and4095, lsFlags] at h
    obtain ⟨hd, hh, _, ⟨hl, rfl⟩, fb, hf, vb, hv, he⟩ := h
    simp only [pure, Except.pure, Except.ok.injEq] at he
    subst he
    rw [Allowed, hb] at ha
    simp only at ha
    have hlt : n % 4096 < 32768 := by omega
    by_cases h4 : f / 4 ≠ 0 ∨ i / 4 ≠ 0
    · rw [if_pos h4] at hf
      cases hf
    rw [if_neg h4, up_ok, toBytes_nat, Fields.or_shift_add (show f < 2 ^ 2 by omega)] at hf
    obtain ⟨hfl, rfl⟩ := hf
    have hv' := sDec_enc (r := []) hv
    rw [List.append_nil] at hv'
    simp only [clsOf, bodyDec, List.append_assoc, ackHdr_rt hh (noAck_le hlt _), dec2_le hl, dec1_le hfl,
      hv', bind, Except.bind, pure, Except.pure, seen, hb, bodyOnWire, and4095, Nat.mod_mod, and3, shr]
    have e1 : (f + i * 2 ^ 2) % 4 = f := by omega
    have e2 : (f + i * 2 ^ 2) / 2 ^ 2 % 4 = i := by omega
    rw [e1, e2, if_neg (by omega)]
  | connInit r f i z p =>
    rw [bodyEnc, hb] at h
    simp only at h
    by_cases hd : m.dst ≠ 0
    · rw [if_pos hd] at h
      cases h
    rw [if_neg hd] at h
    simp only [bind_ok] at h
    obtain ⟨hdr, hh, he⟩ := h
    simp only [pure, Except.pure, Except.ok.injEq] at he
    subst he
    simp only [clsOf, bodyDec, connDec_enc hh, bind, Except.bind, pure, Except.pure, seen, hb, if_neg hd]
    cases r <;> simp [flag]
  | connConf f i z d =>
    simp only [bodyEnc, hb, bind_ok, up_ok] at h
    obtain ⟨hdr, hh, x, hx, he⟩ := h
    simp only [pure, Except.pure, Except.ok.injEq] at he
    subst he
    simp only [clsOf, bodyDec, connDec_enc hh, tolDec_enc hx, bind, Except.bind, pure, Except.pure, seen, hb]
  | discConf r =>
    rw [bodyEnc, hb] at h
    obtain ⟨h1, h2, h3⟩ := discDec_enc (r := []) h
    rw [List.append_nil] at h1
    simp only [clsOf, bodyDec, h1, dec2_le h2, dec2_le h3, bind, Except.bind, pure, Except.pure, seen, hb]
  | discInit r d =>
    simp only [bodyEnc, hb, bind_ok, up_ok] at h
    obtain ⟨hdr, hh, x, hx, he⟩ := h
    simp only [pure, Except.pure, Except.ok.injEq] at he
    subst he
    obtain ⟨h1, h2, h3⟩ := discDec_enc (r := x) hh
    simp only [clsOf, bodyDec, h1, dec2_le h2, dec2_le h3, tolDec_enc hx, bind, Except.bind, pure,
      Except.pure, seen, hb]

theorem seen_same (m : Msg) : Same m (seen m) := by
  cases hb : m.body <;> constructor <;> simp [seen, hb, bodyOnWire, HasAcks, acks_list]

/-- **C31.**  Whatever message the sender encodes, the receiver decodes to a message of the class it
was sent as, that says the same. -/
theorem nsp_roundtrip {m : Msg} {b : Bytes} (h : encode m = .ok b) (ha : Allowed m) :
    ∃ m', decode b = .ok (.msg (clsOf m.body) m') ∧ Same m m' := by
  simp only [encode, bind_ok, up_ok, toBytes_nat] at h
  obtain ⟨_, ⟨_, rfl⟩, bb, hb, he⟩ := h
  simp only [pure, Except.pure, Except.ok.injEq] at he
  subst he
  refine ⟨seen m, ?_, seen_same m⟩
  have h2 := body_rt hb ha
  simp only [le1, List.cons_append, List.nil_append, decode, flag_class, toNat_flag, bind, Except.bind, h2,
    pure, Except.pure]
  rfl

/-- **C31.**  The values that can be sent: 16 bit link addresses, segment sizes and reasons, 7 bit
`info`, 8 bit signed credit, two bit options, at most 16 bytes of optional data, any payload, any
sequence number. -/
def Sendable (m : Msg) : Prop :=
  m.dst < 65536 ∧ (m.body ≠ .ackConn → m.src < 65536) ∧
  (HasAcks m.body → (∀ a ∈ m.ack, a.qual ≤ 3) ∧ (∀ a ∈ m.ack2, a.qual ≤ 3)) ∧
  match m.body with
  | .linkSvc _ f i v => f < 4 ∧ i < 4 ∧ -128 ≤ v ∧ v < 128
  | .connInit _ f i z _ => m.dst = 0 ∧ f < 4 ∧ i < 128 ∧ z < 65536
  | .connConf f i z d => f < 4 ∧ i < 128 ∧ z < 65536 ∧ d.length ≤ 16
  | .discInit r d => r < 65536 ∧ d.length ≤ 16
  | .discConf r => r < 65536
  | _ => True

theorem toBytes_up {k n : Nat} (h : n < 256 ^ k) : up (toBytes k (n : Int)) = .ok (le k n) := by
  rw [up_ok, toBytes_nat]; exact ⟨h, rfl⟩

theorem ok_bind {α β : Type} (a : α) (f : α → Except PErr β) : (Except.ok a >>= f) = f a := rfl

theorem pure_ok {α : Type} (a : α) : (pure a : Except PErr α) = .ok a := rfl

theorem toBytes2 {n : Nat} (h : n < 65536) : up (toBytes 2 (n : Int)) = .ok (le 2 n) :=
  toBytes_up (by simpa using h)

theorem toBytes1 {n : Nat} (h : n < 256) : up (toBytes 1 (n : Int)) = .ok (le 1 n) :=
  toBytes_up (by simpa using h)

theorem ackEnc_ok' {a : Option AckNum} (h : ∀ x ∈ a, x.qual ≤ 3) : ∃ b, ackEnc a = .ok b := by
  cases a with
  | none => exact ⟨[], rfl⟩
  | some x =>
    have := h x rfl
    refine ⟨le 2 (0x8000 + x.qual * 4096 + x.num % 4096), ?_⟩
    simp only [ackEnc]
    rw [if_neg (by omega), and4095, shl, show (2 : Nat) ^ 12 = 4096 by decide, toBytes2 (by omega)]

theorem ackHdrEnc_ok {m : Msg} (hd : m.dst < 65536) (hs : m.src < 65536) (h1 : ∀ x ∈ m.ack, x.qual ≤ 3)
    (h2 : ∀ x ∈ m.ack2, x.qual ≤ 3) : ∃ b, ackHdrEnc m = .ok b := by
  obtain ⟨a, ha⟩ := ackEnc_ok' h1
  obtain ⟨a2, ha2⟩ := ackEnc_ok' h2
  refine ⟨le 2 m.dst ++ le 2 m.src ++ a ++ a2, ?_⟩
  simp only [ackHdrEnc, toBytes2 hd, toBytes2 hs, ha, ha2, ok_bind, pure_ok]

theorem connEnc_ok {m : Msg} {f i z : Nat} (hd : m.dst < 65536) (hs : m.src < 65536) (hf : f < 4)
    (hi : i < 128) (hz : z < 65536) : ∃ b, connEnc m f i z = .ok b := by
  have e1 : up (exEnc 1 i) = .ok (Fields.exGroups i) := by
    rw [up_ok]
    simp only [exEnc]
    rw [if_neg]
    rw [Fields.exGroups, dif_pos (by rw [shr]; omega)]
    simp
  have e2 : (if f / 4 ≠ 0 then Except.error (PErr.fld .fieldOverflow)
      else up (toBytes 1 ((1 ||| (f <<< 2) : Nat)))) = .ok (le 1 (1 ||| (f <<< 2))) := by
    rw [if_neg (by omega), toBytes1]
    rw [Fields.or_shift_add (show 1 < 2 ^ 2 by decide)]
    omega
  refine ⟨le 2 m.dst ++ le 2 m.src ++ le 1 (1 ||| (f <<< 2)) ++ Fields.exGroups i ++ le 2 z, ?_⟩
  simp only [connEnc, toBytes2 hd, toBytes2 hs, toBytes2 hz, e2, e1, ok_bind, pure_ok]

theorem iEnc_ok' {d : Bytes} (h : d.length ≤ 16) : up (iEnc 16 d) = .ok (UInt8.ofNat d.length :: d) := by
  rw [up_ok, Fields.iEnc_ok]
  exact ⟨h, by omega, rfl⟩

/-- **C31.**  Every sendable message is encoded without an exception. -/
theorem nsp_encodes {m : Msg} (h : Sendable m) : ∃ b, encode m = .ok b := by
  suffices hb : ∃ b, bodyEnc m = .ok b by
    obtain ⟨b, hb⟩ := hb
    refine ⟨le 1 (flag m.body) ++ b, ?_⟩
    simp only [encode, toBytes1 (Nat.lt_trans (flag_lt _) (by decide)), hb, ok_bind, pure_ok]
  obtain ⟨hd, hs, hq, hm⟩ := h
  cases hb : m.body with
  | ackConn => exact ⟨_, by simp only [bodyEnc, hb]; exact toBytes2 hd⟩
  | ackData =>
    rw [hb] at hs hq
    have hs := hs Body.noConfusion
    obtain ⟨b, e⟩ := ackHdrEnc_ok hd hs (hq trivial).1 (hq trivial).2
    exact ⟨b, by rw [bodyEnc, hb]; exact e⟩
  | ackOther =>
    rw [hb] at hs hq
    have hs := hs Body.noConfusion
    obtain ⟨b, e⟩ := ackHdrEnc_ok hd hs (hq trivial).1 (hq trivial).2
    exact ⟨b, by rw [bodyEnc, hb]; exact e⟩
  | dataSeg n dly bom eom p =>
    rw [hb] at hs hq
    have hs := hs Body.noConfusion
    obtain ⟨b, e⟩ := ackHdrEnc_ok hd hs (hq trivial).1 (hq trivial).2
    have hlt : n % 4096 + (if dly then 4096 else 0) < 65536 := by split <;> omega
    refine ⟨b ++ le 2 (n % 4096 + (if dly then 4096 else 0)) ++ p, ?_⟩
    simp only [bodyEnc, hb, e, ok_bind, segEnc, seg_rt, toBytes2 hlt, pure_ok]
  | intMsg n p =>
    rw [hb] at hs hq
    have hs := hs Body.noConfusion
    obtain ⟨b, e⟩ := ackHdrEnc_ok hd hs (hq trivial).1 (hq trivial).2
    have hlt : n % 4096 < 65536 := by omega
    refine ⟨b ++ le 2 (n % 4096) ++ p, ?_⟩
    simp only [bodyEnc, hb, e, ok_bind, seqEnc, and4095, toBytes2 hlt, pure_ok]
  | linkSvc n f i v =>
    rw [hb] at hs hq hm
    have hs := hs Body.noConfusion
    simp only at hm
    obtain ⟨b, e⟩ := ackHdrEnc_ok hd hs (hq trivial).1 (hq trivial).2
    have hlt : n % 4096 < 65536 := by omega
    have hf : f + i * 2 ^ 2 < 256 := by omega
    have hv : signedEnc 1 v = .ok (le 1 (v % 256 ^ 1).toNat) := by
      rw [Fields.signedEnc_ok]
      exact ⟨by omega, by omega, rfl⟩
    refine ⟨b ++ le 2 (n % 4096) ++ le 1 (f + i * 2 ^ 2) ++ le 1 (v % 256 ^ 1).toNat, ?_⟩
    simp only [bodyEnc, hb, e, ok_bind, seqEnc, and4095, toBytes2 hlt, pure_ok,
      lsFlags]
    rw [if_neg (by omega), Fields.or_shift_add (show f < 2 ^ 2 by omega), toBytes1 hf, hv]
    rfl
  | connInit r f i z p =>
    rw [hb] at hs hm
    have hs := hs Body.noConfusion
    simp only at hm
    obtain ⟨b, e⟩ := connEnc_ok hd hs hm.2.1 hm.2.2.1 hm.2.2.2
    refine ⟨b ++ p, ?_⟩
    simp only [bodyEnc, hb, e, ok_bind, pure_ok]
    rw [if_neg (by omega)]
  | connConf f i z d =>
    rw [hb] at hs hm
    have hs := hs Body.noConfusion
    simp only at hm
    obtain ⟨b, e⟩ := connEnc_ok hd hs hm.1 hm.2.1 hm.2.2.1
    refine ⟨b ++ (UInt8.ofNat d.length :: d), ?_⟩
    simp only [bodyEnc, hb, e, iEnc_ok' hm.2.2.2, ok_bind, pure_ok]
  | discConf r =>
    rw [hb] at hs hm
    have hs := hs Body.noConfusion
    simp only at hm
    refine ⟨le 2 m.dst ++ le 2 m.src ++ le 2 r, ?_⟩
    simp only [bodyEnc, hb, discEnc, toBytes2 hd, toBytes2 hs, toBytes2 hm, ok_bind, pure_ok]
  | discInit r d =>
    rw [hb] at hs hm
    have hs := hs Body.noConfusion
    simp only at hm
    refine ⟨le 2 m.dst ++ le 2 m.src ++ le 2 r ++ (UInt8.ofNat d.length :: d), ?_⟩
    simp only [bodyEnc, hb, discEnc, toBytes2 hd, toBytes2 hs, toBytes2 hm.1, iEnc_ok' hm.2, ok_bind, pure_ok]

/-- A data segment with both acknowledgments, sequence number above 4096. -/
def exMsg : Msg := ⟨0x1234, 0x4321, some ⟨4097, 0⟩, some ⟨7, 2⟩, .dataSeg 5000 true true false [1, 2, 0x80]⟩

theorem exMsg_sendable : Sendable exMsg := by
  refine ⟨by decide, fun _ => by decide, fun _ => ⟨?_, ?_⟩, trivial⟩ <;>
    (intro a ha; simp only [exMsg, Option.mem_def, Option.some.injEq] at ha; subst ha; decide)

theorem exMsg_allowed : Allowed exMsg := by
  intro a ha b hb
  simp only [exMsg, Option.mem_def, Option.some.injEq] at ha hb
  subst ha hb
  decide

example : ∃ b, encode exMsg = .ok b ∧
    decode b = .ok (.msg .dataSeg
      ⟨0x1234, 0x4321, some ⟨1, 0⟩, some ⟨7, 2⟩, .dataSeg 904 true true false [1, 2, 0x80]⟩) :=
  ⟨[0x20, 0x34, 0x12, 0x21, 0x43, 0x01, 0x80, 0x07, 0xa0, 0x88, 0x13, 1, 2, 0x80], by decide +kernel,
    by decide +kernel⟩

end Verif.NspPkt
