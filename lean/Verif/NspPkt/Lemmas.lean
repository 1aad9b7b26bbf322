import Verif.NspPkt.Model
import Verif.Fields.Lemmas
import Verif.Fields.Roundtrip

namespace Verif.NspPkt
open Verif.Fields (Bytes le toBytes iEnc iDec signedEnc exEnc)
open Verif.Nsp (Msg Body AckNum)

theorem up_ok {α} {x : Except Fields.Err α} {y : α} : up x = .ok y ↔ x = .ok y := by
  cases x <;> simp [up, Except.mapError]

theorem bind_ok {α β : Type} {x : Except PErr α} {f : α → Except PErr β} {y : β} :
    (x >>= f) = .ok y ↔ ∃ a, x = .ok a ∧ f a = .ok y := by
  cases x <;> simp [bind, Except.bind]

theorem toBytes_nat {k n : Nat} {b : Bytes} :
    toBytes k (n : Int) = .ok b ↔ n < 256 ^ k ∧ b = le k n := by
  rw [Fields.toBytes_ok]
  constructor
  · rintro ⟨_, h, e⟩
    refine ⟨?_, by simpa using e⟩
    have := Fields.toNat_lt_pow (k := k) (i := (n : Int)) (by omega) h
    simpa using this
  · rintro ⟨h, e⟩
    refine ⟨by omega, ?_, by simpa using e⟩
    exact_mod_cast h

theorem le1 (n : Nat) : le 1 n = [UInt8.ofNat (n % 256)] := rfl
theorem le2 (n : Nat) : le 2 n = [UInt8.ofNat (n % 256), UInt8.ofNat (n / 256 % 256)] := rfl

theorem dec2_le {n : Nat} (h : n < 65536) (r : Bytes) : dec2 (le 2 n ++ r) = .ok (n, r) := by
  simp only [le2, List.cons_append, List.nil_append, dec2, UInt8.toNat_ofNat']
  congr 2
  omega

theorem dec1_le {n : Nat} (h : n < 256) (r : Bytes) : dec1 (le 1 n ++ r) = .ok (n, r) := by
  simp only [le1, List.cons_append, List.nil_append, dec1, UInt8.toNat_ofNat']
  congr 2
  omega

theorem and4095 (n : Nat) : n &&& 0o7777 = n % 4096 := Nat.and_two_pow_sub_one_eq_mod n 12
theorem and3 (n : Nat) : n &&& 3 = n % 4 := Nat.and_two_pow_sub_one_eq_mod n 2
theorem and7 (n : Nat) : n &&& 7 = n % 8 := Nat.and_two_pow_sub_one_eq_mod n 3
theorem shr (n k : Nat) : n >>> k = n / 2 ^ k := Nat.shiftRight_eq_div_pow n k
theorem shl (n k : Nat) : n <<< k = n * 2 ^ k := Nat.shiftLeft_eq n k

theorem and32768 {n : Nat} (h : n < 65536) : n &&& 0x8000 ≠ 0 ↔ 0x8000 ≤ n := by
  have e : n &&& 0x8000 = n / 32768 % 2 * 32768 := by
    have := Nat.and_two_pow n 15
    rw [show (2:Nat) ^ 15 = 0x8000 by decide] at this
    rw [this, Nat.testBit_eq_decide_div_mod_eq, show (2:Nat) ^ 15 = 32768 by decide]
    rcases Nat.mod_two_eq_zero_or_one (n / 32768) with h | h <;> rw [h] <;> rfl
  rw [e]
  omega

/-- The number of an acknowledgment field as sent. -/
def AckNum.wire (a : AckNum) : AckNum := ⟨a.num % 4096, a.qual⟩

theorem ackEnc_ok {a : Option AckNum} {b : Bytes} (h : ackEnc a = .ok b) :
    (a = none ∧ b = []) ∨ ∃ x, a = some x ∧ x.qual ≤ 3 ∧
      b = le 2 (0x8000 + x.qual * 4096 + x.num % 4096) := by
  cases a with
  | none =>
    left
    simp only [ackEnc, Except.ok.injEq] at h
    exact ⟨rfl, h.symm⟩
  | some x =>
    right
    simp only [ackEnc] at h
    by_cases hq : 3 < x.qual
    · rw [if_pos hq] at h
      cases h
    · rw [if_neg hq, up_ok, toBytes_nat, and4095, shl] at h
      exact ⟨x, rfl, by omega, h.2⟩

theorem ackDec_present {x : AckNum} (hq : x.qual ≤ 3) (r : Bytes) :
    ackDec (le 2 (0x8000 + x.qual * 4096 + x.num % 4096) ++ r) = (some (AckNum.wire x), r) := by
  have hn : x.num % 4096 < 4096 := Nat.mod_lt _ (by omega)
  simp only [le2, List.cons_append, List.nil_append, ackDec, UInt8.toNat_ofNat']
  have e : (32768 + x.qual * 4096 + x.num % 4096) % 256 % 2 ^ 8 +
      256 * ((32768 + x.qual * 4096 + x.num % 4096) / 256 % 256 % 2 ^ 8) =
      32768 + x.qual * 4096 + x.num % 4096 := by omega
  rw [e, if_pos ((and32768 (by omega)).2 (by omega)), shr, and7, and4095]
  have e2 : (32768 + x.qual * 4096 + x.num % 4096) / 2 ^ 12 % 8 = x.qual := by omega
  have e3 : (32768 + x.qual * 4096 + x.num % 4096) % 4096 = x.num % 4096 := by omega
  rw [e2, e3, if_pos hq]
  rfl

/-- Nothing that looks like an acknowledgment field follows. -/
def NoAck (r : Bytes) : Prop := ∀ a b tl, r = a :: b :: tl → b.toNat < 128

theorem ackDec_absent {r : Bytes} (h : NoAck r) : ackDec r = (none, r) := by
  match r, h with
  | [], _ => rfl
  | [_], _ => rfl
  | a :: b :: tl, h =>
    have hb := h a b tl rfl
    simp only [ackDec]
    have := a.toNat_lt
    rw [if_neg]
    rw [and32768 (by omega)]
    omega

theorem noAck_nil : NoAck [] := by intro a b tl h; cases h

theorem noAck_le {n : Nat} (h : n < 32768) (r : Bytes) : NoAck (le 2 n ++ r) := by
  intro a b tl e
  simp only [le2, List.cons_append, List.nil_append, List.cons.injEq] at e
  rw [← e.2.1, UInt8.toNat_ofNat']
  omega

/-- The acknowledgment fields as the receiver sees them: numbers modulo 4096, and a lone second
field is the first one on the wire. -/
def acks (m : Msg) : Option AckNum × Option AckNum :=
  match m.ack, m.ack2 with
  | some a, b => (some (AckNum.wire a), b.map AckNum.wire)
  | none, some b => (some (AckNum.wire b), none)
  | none, none => (none, none)

theorem ackHdr_rt {m : Msg} {h r : Bytes} (hh : ackHdrEnc m = .ok h) (hr : NoAck r) :
    ackHdrDec (h ++ r) = .ok ((m.dst, m.src, (acks m).1, (acks m).2), r) := by
  simp only [ackHdrEnc, bind_ok, up_ok, toBytes_nat] at hh
  obtain ⟨_, ⟨hd, rfl⟩, _, ⟨hs, rfl⟩, a, ha, a2, ha2, he⟩ := hh
  simp only [pure, Except.pure, Except.ok.injEq] at he
  subst he
  simp only [ackHdrDec, List.append_assoc, dec2_le hd, dec2_le hs, bind, Except.bind, pure, Except.pure]
  rcases ackEnc_ok ha with ⟨e1, rfl⟩ | ⟨x, e1, hq, rfl⟩ <;>
    rcases ackEnc_ok ha2 with ⟨e2, rfl⟩ | ⟨y, e2, hq2, rfl⟩
  · simp only [List.nil_append, ackDec_absent hr, acks, e1, e2]
  · simp only [List.nil_append, ackDec_present hq2, ackDec_absent hr, acks, e1, e2]
  · simp only [List.nil_append, ackDec_present hq, ackDec_absent hr, acks, e1, e2, Option.map]
  · simp only [ackDec_present hq, ackDec_present hq2, acks, e1, e2, Option.map]

theorem tolDec_enc {m : Nat} {d b : Bytes} (h : iEnc m d = .ok b) : tolDec m b = .ok (d, []) := by
  have h' := h
  rw [Fields.iEnc_ok] at h
  have hrt : iDec m (b ++ []) = .ok (d, []) := by
    rw [Fields.iDec_ok]
    simp [h]
  rw [List.append_nil] at hrt
  obtain ⟨h1, h2, rfl⟩ := h
  simp only [tolDec]
  rw [if_neg, up_ok]
  · exact hrt
  · rw [UInt8.toNat_ofNat']
    simp only [List.length_cons]
    omega

theorem infoDec_enc {n : Nat} {b r : Bytes} (h : exEnc 1 n = .ok b) : infoDec (b ++ r) = .ok (n, r) := by
  rw [infoDec, up_ok]
  exact Fields.exDec_enc h

theorem sDec_enc {x : Int} {b r : Bytes} (h : signedEnc 1 x = .ok b) : sDec (b ++ r) = .ok (x, r) := by
  rw [Fields.signedEnc_ok] at h
  obtain ⟨h1, h2, h3⟩ := h
  subst h3
  have e : (x % 256 ^ 1).toNat < 256 := by omega
  simp only [le1, List.cons_append, List.nil_append, sDec, UInt8.toNat_ofNat']
  congr 2
  split <;> omega

end Verif.NspPkt
