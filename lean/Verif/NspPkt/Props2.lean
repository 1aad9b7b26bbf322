import Verif.NspPkt.Props

/-! Property C31, continued: what a receiver accepts and what it does with the rest. -/
namespace Verif.NspPkt
open Verif.Fields (Bytes le toBytes iEnc iDec signedEnc exEnc)
open Verif.Nsp (Msg Body AckNum)

/-! ## Class selection -/

/-- The values class `c` fixes for the fields of the first byte, nsp_packets.py 116-365: `mbz`,
`mbz2`, and `type`, `subtype`, `int_ls`, `int` where the class gives them. -/
def fixedOk (c : Cls) (k : Nat) : Bool :=
  let type := (k >>> 2) &&& 3
  let subtype := (k >>> 4) &&& 7
  k &&& 3 == 0 && k >>> 7 == 0 &&
  match c with
  | .ackData => type == 1 && subtype == 0
  | .ackOther => type == 1 && subtype == 1
  | .ackConn => type == 1 && subtype == 2
  | .dataSeg => type == 0 && (k >>> 4) &&& 1 == 0
  | .intMsg => type == 0 && subtype == 3 && (k >>> 4) &&& 1 == 1 && (k >>> 5) &&& 1 == 1
  | .linkSvc => type == 0 && subtype == 1 && (k >>> 4) &&& 1 == 1 && (k >>> 5) &&& 1 == 0
  | .connInit => type == 2
  | .connConf => type == 2 && subtype == 2
  | .discConf | .noRes | .discComp | .noLink => type == 2 && subtype == 4
  | .discInit => type == 2 && subtype == 3

/-- The fixed values never disagree with the first byte of a packet of the class. -/
theorem flag_fixed : ∀ k : Fin 256, ∀ c, index k.val = some c → fixedOk c k.val = true := by
  intro k c h
  have all : ∀ k : Fin 256, (match index k.val with
    | some c => fixedOk c k.val
    | none => true) = true := by decide +kernel
  have := all k
  rw [h] at this
  exact this

/-- A received Disconnect Confirm is of class `DiscConf`, never of the subclass meant for its reason
(so `isinstance (pkt, NoRes)`, nsp.py 1456, never holds for a received packet). -/
theorem discConf_class {b : UInt8} {c : Cls} (h : findclass b = .ok c) :
    c ≠ .noRes ∧ c ≠ .noLink ∧ c ≠ .discComp := by
  have all : ∀ k : Fin 256, ∀ c ∈ (findclass (UInt8.ofNat k.val)).toOption,
      c ≠ .noRes ∧ c ≠ .noLink ∧ c ≠ .discComp := by decide +kernel
  have := all ⟨b.toNat, b.toNat_lt⟩ c
  simp only [UInt8.ofNat_toNat] at this
  exact this (by rw [h]; rfl)

example : decode [0x48, 1, 0, 2, 0, 1, 0] = .ok (.msg .discConf ⟨1, 2, none, none, .discConf 1⟩) := by
  decide +kernel

/-! ## What gets through -/

/-- All numbers are within the width of their fields. -/
def InRange (m : Msg) : Prop :=
  m.dst < 65536 ∧ m.src < 65536 ∧ (∀ a ∈ m.ack, a.num < 4096 ∧ a.qual ≤ 3) ∧
  (∀ a ∈ m.ack2, a.num < 4096 ∧ a.qual ≤ 3) ∧
  match m.body with
  | .dataSeg n .. | .intMsg n _ => n < 4096
  | .linkSvc n f i v => n < 4096 ∧ f < 4 ∧ i < 4 ∧ -128 ≤ v ∧ v < 128
  | .connInit _ f i z _ => m.dst = 0 ∧ f < 4 ∧ i < 128 ∧ z < 65536
  | .connConf f i z d => f < 4 ∧ i < 128 ∧ z < 65536 ∧ d.length ≤ 16
  | .discInit r d => r < 65536 ∧ d.length ≤ 16
  | .discConf r => r < 65536
  | _ => True

theorem dec2_ok {b r : Bytes} {n : Nat} (h : dec2 b = .ok (n, r)) : n < 65536 := by
  match b, h with
  | x :: y :: tl, h =>
    simp only [dec2, Except.ok.injEq, Prod.mk.injEq] at h
    have := x.toNat_lt
    have := y.toNat_lt
    omega

theorem dec1_ok {b r : Bytes} {n : Nat} (h : dec1 b = .ok (n, r)) : n < 256 := by
  match b, h with
  | x :: tl, h =>
    simp only [dec1, Except.ok.injEq, Prod.mk.injEq] at h
    have := x.toNat_lt
    omega

theorem sDec_ok {b r : Bytes} {n : Int} (h : sDec b = .ok (n, r)) : -128 ≤ n ∧ n < 128 := by
  match b, h with
  | x :: tl, h =>
    simp only [sDec, Except.ok.injEq, Prod.mk.injEq] at h
    have := x.toNat_lt
    obtain ⟨h, _⟩ := h
    split at h <;> omega

theorem ackDec_ok {b r : Bytes} {a : Option AckNum} (h : ackDec b = (a, r)) :
    ∀ x ∈ a, x.num < 4096 ∧ x.qual ≤ 3 := by
  intro x hx
  match b, h with
  | [], h => simp only [ackDec, Prod.mk.injEq] at h; rw [← h.1] at hx; cases hx
  | [_], h => simp only [ackDec, Prod.mk.injEq] at h; rw [← h.1] at hx; cases hx
  | p :: q :: tl, h =>
    simp only [ackDec] at h
    split at h
    · split at h
      · simp only [Prod.mk.injEq] at h
        rw [← h.1] at hx
        simp only [Option.mem_def, Option.some.injEq] at hx
        subst hx
        refine ⟨?_, by assumption⟩
        simp only [and4095]
        omega
      · simp only [Prod.mk.injEq] at h; rw [← h.1] at hx; cases hx
    · simp only [Prod.mk.injEq] at h; rw [← h.1] at hx; cases hx

theorem ackHdrDec_ok {b r : Bytes} {d s : Nat} {a a2 : Option AckNum}
    (h : ackHdrDec b = .ok ((d, s, a, a2), r)) :
    d < 65536 ∧ s < 65536 ∧ (∀ x ∈ a, x.num < 4096 ∧ x.qual ≤ 3) ∧ (∀ x ∈ a2, x.num < 4096 ∧ x.qual ≤ 3) := by
  simp only [ackHdrDec, bind_ok] at h
  obtain ⟨⟨d', r1⟩, h1, ⟨s', r2⟩, h2, h3⟩ := h
  simp only [pure, Except.pure, Except.ok.injEq, Prod.mk.injEq] at h3
  obtain ⟨⟨rfl, rfl, ha, ha2⟩, _⟩ := h3
  exact ⟨dec2_ok h1, dec2_ok h2, ackDec_ok (r := _) (Prod.ext ha rfl), ackDec_ok (r := _) (Prod.ext ha2 rfl)⟩

theorem infoDec_ok {b r : Bytes} {n : Nat} (h : infoDec b = .ok (n, r)) : n < 128 := by
  rw [infoDec, up_ok] at h
  match b, h with
  | x :: tl, h =>
    simp only [Fields.exDec, Fields.exLoop] at h
    split at h
    · simp only [Except.ok.injEq, Prod.mk.injEq] at h
      obtain ⟨h, _⟩ := h
      rw [Fields.and7f] at h
      simp only [Nat.mul_zero, Nat.shiftLeft_zero, Nat.zero_or] at h
      omega
    · split at h <;> first | cases h | contradiction

theorem connDec_ok {b r : Bytes} {d s f i z : Nat} (h : connDec b = .ok ((d, s, f, i, z), r)) :
    d < 65536 ∧ s < 65536 ∧ f < 4 ∧ i < 128 ∧ z < 65536 := by
  simp only [connDec, bind_ok] at h
  obtain ⟨⟨d', r1⟩, h1, ⟨s', r2⟩, h2, ⟨f', r3⟩, h3, h⟩ := h
  simp only at h
  split at h
  · cases h
  · simp only [bind_ok] at h
    obtain ⟨⟨i', r4⟩, h4, ⟨z', r5⟩, h5, h6⟩ := h
    simp only [pure, Except.pure, Except.ok.injEq, Prod.mk.injEq] at h6
    obtain ⟨⟨rfl, rfl, rfl, rfl, rfl⟩, _⟩ := h6
    refine ⟨dec2_ok h1, dec2_ok h2, ?_, infoDec_ok h4, dec2_ok h5⟩
    rw [and3]
    omega

theorem tolDec_ok {b r d : Bytes} (h : tolDec 16 b = .ok (d, r)) : d.length ≤ 16 := by
  match b, h with
  | [], h =>
    simp only [tolDec, Except.ok.injEq, Prod.mk.injEq] at h
    rw [← h.1]
    exact Nat.zero_le _
  | x :: tl, h =>
    simp only [tolDec] at h
    split at h
    · simp only [Except.ok.injEq, Prod.mk.injEq] at h
      rw [← h.1]
      exact Nat.zero_le _
    · rw [up_ok, Fields.iDec_ok] at h
      exact h.1

theorem ackCheck_inv {m : Msg} {u : Unit} (h : ackCheck m = .ok u) :
    ∀ a ∈ m.ack, ∀ b ∈ m.ack2, a.isCross ≠ b.isCross := by
  intro a ha b hb
  simp only [ackCheck, Option.mem_def.1 ha, Option.mem_def.1 hb] at h
  split at h
  · cases h
  · assumption

theorem ackCheck'_inv {m : Msg} {u : Unit} (h : ackCheck' m = .ok u) :
    (∀ a ∈ m.ack, ∀ b ∈ m.ack2, a.isCross ≠ b.isCross) ∧ (m.ack.isSome ∨ m.ack2.isSome) := by
  simp only [ackCheck', bind_ok] at h
  obtain ⟨u', h1, h2⟩ := h
  refine ⟨ackCheck_inv h1, ?_⟩
  split at h2
  · cases h2
  · rename_i hn
    left
    cases hm : m.ack
    · exact absurd hm hn
    · rfl

theorem bodyDec_ok {c : Cls} {k : Nat} {b r : Bytes} {m : Msg} (h : bodyDec c k b = .ok (m, r)) :
    InRange m ∧ Allowed m := by
  cases c with
  | ackData =>
    simp only [bodyDec, bind_ok] at h
    obtain ⟨⟨⟨d, s, a, a2⟩, r1⟩, h1, u, h2, h3⟩ := h
    simp only [pure, Except.pure, Except.ok.injEq, Prod.mk.injEq] at h3
    obtain ⟨rfl, _⟩ := h3
    obtain ⟨i1, i2, i3, i4⟩ := ackHdrDec_ok h1
    exact ⟨⟨i1, i2, i3, i4, trivial⟩, ackCheck'_inv h2⟩
  | ackOther =>
    simp only [bodyDec, bind_ok] at h
    obtain ⟨⟨⟨d, s, a, a2⟩, r1⟩, h1, u, h2, h3⟩ := h
    simp only [pure, Except.pure, Except.ok.injEq, Prod.mk.injEq] at h3
    obtain ⟨rfl, _⟩ := h3
    obtain ⟨i1, i2, i3, i4⟩ := ackHdrDec_ok h1
    exact ⟨⟨i1, i2, i3, i4, trivial⟩, ackCheck'_inv h2⟩
  | ackConn =>
    simp only [bodyDec, bind_ok] at h
    obtain ⟨⟨d, r1⟩, h1, h3⟩ := h
    simp only [pure, Except.pure, Except.ok.injEq, Prod.mk.injEq] at h3
    obtain ⟨rfl, _⟩ := h3
    exact ⟨⟨dec2_ok h1, by simp, by simp, by simp, trivial⟩, trivial⟩
  | dataSeg =>
    simp only [bodyDec, bind_ok] at h
    obtain ⟨⟨⟨d, s, a, a2⟩, r1⟩, h1, ⟨v, r2⟩, hv, u, h2, h3⟩ := h
    simp only [pure, Except.pure, Except.ok.injEq, Prod.mk.injEq] at h3
    obtain ⟨rfl, _⟩ := h3
    obtain ⟨i1, i2, i3, i4⟩ := ackHdrDec_ok h1
    refine ⟨⟨i1, i2, i3, i4, ?_⟩, ackCheck_inv h2⟩
    simp only [and4095]
    omega
  | intMsg =>
    simp only [bodyDec, bind_ok] at h
    obtain ⟨⟨⟨d, s, a, a2⟩, r1⟩, h1, ⟨v, r2⟩, hv, u, h2, h3⟩ := h
    simp only [pure, Except.pure, Except.ok.injEq, Prod.mk.injEq] at h3
    obtain ⟨rfl, _⟩ := h3
    obtain ⟨i1, i2, i3, i4⟩ := ackHdrDec_ok h1
    refine ⟨⟨i1, i2, i3, i4, ?_⟩, ackCheck_inv h2⟩
    simp only [and4095]
    omega
  | linkSvc =>
    simp only [bodyDec, bind_ok] at h
    obtain ⟨⟨⟨d, s, a, a2⟩, r1⟩, h1, ⟨v, r2⟩, hv, ⟨f, r3⟩, hf, ⟨x, r4⟩, hx, h3⟩ := h
    simp only at h3
    split at h3
    · cases h3
    · rename_i hls
      simp only [pure, Except.pure, Except.ok.injEq, Prod.mk.injEq] at h3
      obtain ⟨rfl, _⟩ := h3
      obtain ⟨i1, i2, i3, i4⟩ := ackHdrDec_ok h1
      have := sDec_ok hx
      simp only [and3, shr] at hls
      refine ⟨⟨i1, i2, i3, i4, ?_⟩, ?_⟩
      · simp only [and4095, and3, shr]
        omega
      · simp only [Allowed, and3, shr]
        omega
  | connInit =>
    simp only [bodyDec, bind_ok] at h
    obtain ⟨⟨⟨d, s, f, i, z⟩, r1⟩, h1, h3⟩ := h
    simp only at h3
    split at h3
    · cases h3
    · rename_i hd
      simp only [pure, Except.pure, Except.ok.injEq, Prod.mk.injEq] at h3
      obtain ⟨rfl, _⟩ := h3
      obtain ⟨i1, i2, i3, i4, i5⟩ := connDec_ok h1
      exact ⟨⟨i1, i2, by simp, by simp, ⟨by simpa using hd, i3, i4, i5⟩⟩, trivial⟩
  | connConf =>
    simp only [bodyDec, bind_ok] at h
    obtain ⟨⟨⟨d, s, f, i, z⟩, r1⟩, h1, ⟨x, r2⟩, hx, h3⟩ := h
    simp only [pure, Except.pure, Except.ok.injEq, Prod.mk.injEq] at h3
    obtain ⟨rfl, _⟩ := h3
    obtain ⟨i1, i2, i3, i4, i5⟩ := connDec_ok h1
    exact ⟨⟨i1, i2, by simp, by simp, ⟨i3, i4, i5, tolDec_ok hx⟩⟩, trivial⟩
  | discInit =>
    simp only [bodyDec, bind_ok] at h
    obtain ⟨⟨d, r1⟩, h1, ⟨s, r2⟩, h2, ⟨rs, r3⟩, h4, ⟨x, r5⟩, hx, h3⟩ := h
    simp only [pure, Except.pure, Except.ok.injEq, Prod.mk.injEq] at h3
    obtain ⟨rfl, _⟩ := h3
    exact ⟨⟨dec2_ok h1, dec2_ok h2, by simp, by simp, ⟨dec2_ok h4, tolDec_ok hx⟩⟩, trivial⟩
  | _ =>
    simp only [bodyDec, bind_ok] at h
    obtain ⟨⟨d, r1⟩, h1, ⟨s, r2⟩, h2, ⟨rs, r3⟩, h4, h3⟩ := h
    simp only [pure, Except.pure, Except.ok.injEq, Prod.mk.injEq] at h3
    obtain ⟨rfl, _⟩ := h3
    exact ⟨⟨dec2_ok h1, dec2_ok h2, by simp, by simp, dec2_ok h4⟩, trivial⟩

/-- **C31.**  Whatever bytes arrive, a message that gets through to a connection is one the protocol
allows, with every number within its field. -/
theorem accepted_allowed {buf : Bytes} {c : Cls} {m : Msg} (h : receive buf = .mapped c m) :
    InRange m ∧ Allowed m := by
  unfold receive at h
  cases hd : decode buf with
  | error e => rw [hd] at h; cases h
  | ok x =>
    rw [hd] at h
    cases x with
    | bare => cases h
    | msg c' m' =>
      simp only [Rx.mapped.injEq] at h
      obtain ⟨rfl, rfl⟩ := h
      match buf, hd with
      | b :: tl, hd =>
        simp only [decode, bind_ok] at hd
        obtain ⟨c2, _, ⟨m2, rest⟩, hb, he⟩ := hd
        simp only at he
        split at he
        · cases he
        · simp only [pure, Except.pure, Except.ok.injEq, Dec.msg.injEq] at he
          obtain ⟨rfl, rfl⟩ := he
          exact bodyDec_ok hb

example : receive [0x10, 1, 0, 2, 0, 5, 0, 4, 0xff] = .mapped .linkSvc ⟨1, 2, none, none, .linkSvc 5 0 1 (-1)⟩ := by
  decide +kernel

/-- A message the protocol does not allow is dropped (one with two acknowledgments for the same
subchannel, without acknowledgment, or with reserved link service flags). -/
theorem disallowed_dropped {m : Msg} {b : Bytes} (h : encode m = .ok b) (ha : ¬ Allowed m) :
    receive b = .dropped := by
  simp only [encode, bind_ok, up_ok, toBytes_nat] at h
  obtain ⟨_, ⟨_, rfl⟩, bb, hb, he⟩ := h
  simp only [pure, Except.pure, Except.ok.injEq] at he
  subst he
  have key : ∃ e, bodyDec (clsOf m.body) (flag m.body) bb = .error e := by
    cases hm : m.body with
    | ackConn => exact absurd (by rw [Allowed, hm]; trivial) ha
    | connInit => exact absurd (by rw [Allowed, hm]; trivial) ha
    | connConf => exact absurd (by rw [Allowed, hm]; trivial) ha
    | discConf => exact absurd (by rw [Allowed, hm]; trivial) ha
    | discInit => exact absurd (by rw [Allowed, hm]; trivial) ha
    | linkSvc n f i v =>
      simp only [bodyEnc, hm, bind_ok, seqEnc, up_ok, toBytes_nat, and4095, lsFlags] at hb
      obtain ⟨hd, hh, _, ⟨hl, rfl⟩, fb, hf, vb, hv, he⟩ := hb
      simp only [pure, Except.pure, Except.ok.injEq] at he
      subst he
      rw [Allowed, hm] at ha
      simp only at ha
      have hlt : n % 4096 < 32768 := by omega
      by_cases h4 : f / 4 ≠ 0 ∨ i / 4 ≠ 0
      · rw [if_pos h4] at hf
        cases hf
      rw [if_neg h4, up_ok, toBytes_nat, Fields.or_shift_add (show f < 2 ^ 2 by omega)] at hf
      obtain ⟨hfl, rfl⟩ := hf
      have hv' := sDec_enc (r := []) hv
      rw [List.append_nil] at hv'
      refine ⟨.invalidLS, ?_⟩
      simp only [clsOf, bodyDec, List.append_assoc, ackHdr_rt hh (noAck_le hlt _), dec2_le hl, dec1_le hfl,
        hv', bind, Except.bind, pure, Except.pure, and4095, Nat.mod_mod, and3, shr]
      have e1 : (f + i * 2 ^ 2) % 4 = f := by omega
      have e2 : (f + i * 2 ^ 2) / 2 ^ 2 % 4 = i := by omega
      rw [e1, e2, if_pos (by omega)]
    | dataSeg n dly bom eom p =>
      simp only [bodyEnc, hm, bind_ok, segEnc, up_ok, seg_rt, toBytes_nat] at hb
      obtain ⟨hd, hh, _, ⟨hl, rfl⟩, he⟩ := hb
      simp only [pure, Except.pure, Except.ok.injEq] at he
      subst he
      rw [Allowed, hm] at ha
      have hlt : n % 4096 + (if dly then 4096 else 0) < 32768 := by split <;> omega
      have hbad : ∃ a c, m.ack = some a ∧ m.ack2 = some c ∧ a.isCross = c.isCross := by
        simpa using ha
      obtain ⟨a, c, h1, h2, h3⟩ := hbad
      refine ⟨.invalidAck, ?_⟩
      simp only [clsOf, bodyDec, List.append_assoc, ackHdr_rt hh (noAck_le hlt p), dec2_le hl, bind,
        Except.bind, ackCheck_bad h1 h2 h3]
    | intMsg n p =>
      simp only [bodyEnc, hm, bind_ok, seqEnc, up_ok, toBytes_nat, and4095] at hb
      obtain ⟨hd, hh, _, ⟨hl, rfl⟩, he⟩ := hb
      simp only [pure, Except.pure, Except.ok.injEq] at he
      subst he
      rw [Allowed, hm] at ha
      have hlt : n % 4096 < 32768 := by omega
      have hbad : ∃ a c, m.ack = some a ∧ m.ack2 = some c ∧ a.isCross = c.isCross := by
        simpa using ha
      obtain ⟨a, c, h1, h2, h3⟩ := hbad
      refine ⟨.invalidAck, ?_⟩
      simp only [clsOf, bodyDec, List.append_assoc, ackHdr_rt hh (noAck_le hlt p), dec2_le hl, bind,
        Except.bind, ackCheck_bad h1 h2 h3]
    | ackData =>
      rw [bodyEnc, hm] at hb
      rw [Allowed, hm] at ha
      have := ackHdr_rt (r := []) hb noAck_nil
      rw [List.append_nil] at this
      refine ⟨.invalidAck, ?_⟩
      simp only [clsOf, bodyDec, this, bind, Except.bind, ackCheck']
      by_cases hbad : ∃ a c, m.ack = some a ∧ m.ack2 = some c ∧ a.isCross = c.isCross
      · obtain ⟨a, c, h1, h2, h3⟩ := hbad
        simp only [ackCheck_bad h1 h2 h3]
      · have h0 : ∀ a ∈ m.ack, ∀ b ∈ m.ack2, a.isCross ≠ b.isCross := by simpa using hbad
        have h1 : ¬ (m.ack.isSome ∨ m.ack2.isSome) := fun h => ha ⟨h0, h⟩
        have h2 : (acks m).1 = none := by
          unfold acks
          cases e1 : m.ack <;> cases e2 : m.ack2 <;> simp [e1, e2] at h1 ⊢
        simp only [ackCheck_ok h0, if_pos h2]
    | ackOther =>
      rw [bodyEnc, hm] at hb
      rw [Allowed, hm] at ha
      have := ackHdr_rt (r := []) hb noAck_nil
      rw [List.append_nil] at this
      refine ⟨.invalidAck, ?_⟩
      simp only [clsOf, bodyDec, this, bind, Except.bind, ackCheck']
      by_cases hbad : ∃ a c, m.ack = some a ∧ m.ack2 = some c ∧ a.isCross = c.isCross
      · obtain ⟨a, c, h1, h2, h3⟩ := hbad
        simp only [ackCheck_bad h1 h2 h3]
      · have h0 : ∀ a ∈ m.ack, ∀ b ∈ m.ack2, a.isCross ≠ b.isCross := by simpa using hbad
        have h1 : ¬ (m.ack.isSome ∨ m.ack2.isSome) := fun h => ha ⟨h0, h⟩
        have h2 : (acks m).1 = none := by
          unfold acks
          cases e1 : m.ack <;> cases e2 : m.ack2 <;> simp [e1, e2] at h1 ⊢
        simp only [ackCheck_ok h0, if_pos h2]
  obtain ⟨e, he⟩ := key
  simp only [receive, le1, List.cons_append, List.nil_append, decode, flag_class, toNat_flag, bind,
    Except.bind, he]

example : ¬ Allowed ⟨1, 2, some ⟨3, 0⟩, some ⟨4, 1⟩, .ackData⟩ := by
  intro h
  exact h.1 _ rfl _ rfl rfl

/-- **C31.**  A non-empty packet, however damaged, is either dropped or mapped: it does not stop the
node at this point. -/
theorem nonempty_survives {buf : Bytes} (h : buf ≠ []) : receive buf ≠ .stops := by
  intro hs
  unfold receive at hs
  match buf, h with
  | b :: tl, _ =>
    cases hd : decode (b :: tl) with
    | error e => rw [hd] at hs; cases hs
    | ok x =>
      rw [hd] at hs
      cases x with
      | msg c m => cases hs
      | bare =>
        simp only [decode, bind_ok] at hd
        obtain ⟨_, _, ⟨m, rest⟩, _, he⟩ := hd
        simp only at he
        split at he <;> cases he

example : receive [0x30, 1] = .dropped := by decide +kernel

/-- Finding: an NSP packet of length zero stops the node. -/
theorem empty_packet_stops_node : receive [] = .stops := rfl

/-- Finding: the tolerant image field accepts a length beyond the end of the packet, except when it
is too large by one or two: such a Connect Confirm is dropped. -/
theorem tolerant_gap : tolDec 16 [4, 1] = .ok ([], []) ∧
    tolDec 16 [3, 1] = .error (.fld .missingData) ∧ tolDec 16 [2, 1] = .error (.fld .missingData) := by
  decide +kernel

/-- An acknowledgment field with a reserved QUAL value is skipped; the fields after it are unaffected. -/
theorem reserved_qual_skipped {q n : Nat} (hq : 4 ≤ q ∧ q < 8) (hn : n < 4096) (r : Bytes) :
    ackDec (le 2 (0x8000 + q * 4096 + n) ++ r) = (none, r) := by
  simp only [le2, List.cons_append, List.nil_append, ackDec, UInt8.toNat_ofNat']
  have e : (32768 + q * 4096 + n) % 256 % 2 ^ 8 + 256 * ((32768 + q * 4096 + n) / 256 % 256 % 2 ^ 8) =
      32768 + q * 4096 + n := by omega
  rw [e, if_pos ((and32768 (by omega)).2 (by omega)), shr, and7]
  have e2 : (32768 + q * 4096 + n) / 2 ^ 12 % 8 = q := by omega
  rw [e2, if_neg (by omega)]

end Verif.NspPkt
