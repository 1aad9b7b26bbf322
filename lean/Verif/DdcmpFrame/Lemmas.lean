import Verif.DdcmpFrame.Model

namespace Verif.DdcmpFrame

open Verif.Fields (Bytes le)
open Verif.Crc (CRC16)

/-! ## Headers -/

theorem le2 (n : Nat) : le 2 n = [UInt8.ofNat (n % 256), UInt8.ofNat (n / 256 % 256)] := rfl

theorem ofNat_toNat (n : Nat) (h : n < 256) : (UInt8.ofNat n).toNat = n := by
  simp [UInt8.toNat_ofNat']; omega

theorem bits16_some {c : Nat} {q s : Bool} {b : Bytes} (h : bits16 c q s = some b) :
    c < 2 ^ 14 ∧ ∃ x y, b = [x, y] ∧ count16 x y = c ∧ qsync16 y = q ∧ select16 y = s := by
  unfold bits16 at h
  split at h
  · rename_i hc
    refine ⟨hc, _, _, (Option.some.inj h).symm, ?_⟩
    norm_num at hc
    unfold count16 qsync16 select16
    rw [ofNat_toNat _ (by omega), ofNat_toNat _ (by omega)]
    refine ⟨?_, ?_, ?_⟩
    · cases q <;> cases s <;> simp only [Bool.toNat_false, Bool.toNat_true] <;> omega
    · cases q <;> cases s <;>
        simp only [Bool.toNat_false, Bool.toNat_true, decide_eq_true_eq, decide_eq_false_iff_not] <;>
        omega
    · cases q <;> cases s <;>
        simp only [Bool.toNat_false, Bool.toNat_true, decide_eq_true_eq, decide_eq_false_iff_not] <;>
        omega
  · exact absurd h (by simp)

theorem bits16_of (x y : UInt8) :
    bits16 (count16 x y) (qsync16 y) (select16 y) = some [x, y] := by
  have hx := x.toNat_lt
  have hy := y.toNat_lt
  have hc : count16 x y < 2 ^ 14 := Nat.mod_lt _ (by norm_num)
  unfold bits16
  rw [if_pos hc]
  congr 1
  have hn : count16 x y + (qsync16 y).toNat * 2 ^ 14 + (select16 y).toNat * 2 ^ 15 =
      x.toNat + 256 * y.toNat := by
    unfold count16 qsync16 select16
    by_cases h1 : y.toNat / 2 ^ 6 % 2 = 1 <;> by_cases h2 : y.toNat / 2 ^ 7 = 1 <;>
      simp only [h1, h2, decide_true, decide_false, Bool.toNat_true, Bool.toNat_false] <;> omega
  rw [hn, le2]
  have h1 : (x.toNat + 256 * y.toNat) % 256 = x.toNat := by omega
  have h2 : (x.toNat + 256 * y.toNat) / 256 % 256 = y.toNat := by omega
  rw [h1, h2]
  simp

theorem bits8_some {c : Nat} {q s : Bool} {b : UInt8} (h : bits8 c q s = some b) :
    b.toNat % 2 ^ 6 = c ∧ qsync16 b = q ∧ select16 b = s := by
  unfold bits8 at h
  split at h
  · rename_i hc
    have := Option.some.inj h
    subst this
    norm_num at hc
    have hlt : c + q.toNat * 2 ^ 6 + s.toNat * 2 ^ 7 < 256 := by
      cases q <;> cases s <;> simp only [Bool.toNat_false, Bool.toNat_true] <;> omega
    unfold qsync16 select16
    rw [ofNat_toNat _ hlt]
    refine ⟨?_, ?_, ?_⟩
    · cases q <;> cases s <;> simp only [Bool.toNat_false, Bool.toNat_true] <;> omega
    · cases q <;> cases s <;>
        simp only [Bool.toNat_false, Bool.toNat_true, decide_eq_true_eq, decide_eq_false_iff_not] <;>
        omega
    · cases q <;> cases s <;>
        simp only [Bool.toNat_false, Bool.toNat_true, decide_eq_true_eq, decide_eq_false_iff_not] <;>
        omega
  · exact absurd h (by simp)

theorem bits8_of (b : UInt8) : bits8 (b.toNat % 2 ^ 6) (qsync16 b) (select16 b) = some b := by
  have hb := b.toNat_lt
  unfold bits8
  rw [if_pos (Nat.mod_lt _ (by norm_num))]
  congr 1
  have : b.toNat % 2 ^ 6 + (qsync16 b).toNat * 2 ^ 6 + (select16 b).toNat * 2 ^ 7 = b.toNat := by
    unfold qsync16 select16
    by_cases h1 : b.toNat / 2 ^ 6 % 2 = 1 <;> by_cases h2 : b.toNat / 2 ^ 7 = 1 <;>
      simp only [h1, h2, decide_true, decide_false, Bool.toNat_true, Bool.toNat_false] <;> omega
  rw [this]
  simp

/-- What a header parses to. -/
theorem header_parse {m : Msg} {h : Bytes} (hm : m.header = some h) :
    h.length = 6 ∧ (∃ x t, h = x :: t ∧ isStart x = true) ∧
    ∀ rest, ∃ hd, parseHdr (h ++ rest) = .ok hd ∧ hd.count = m.payload?.map List.length ∧
      hd.withPayload (m.payload?.getD []) = m := by
  cases m with
  | data q s resp num p =>
    simp only [Msg.header, Option.map_eq_some_iff] at hm
    obtain ⟨b, hb, rfl⟩ := hm
    obtain ⟨_, x, y, rfl, h1, h2, h3⟩ := bits16_some hb
    refine ⟨rfl, ⟨SOH, _, rfl, by decide⟩, fun rest => ⟨.data q s resp num p.length, ?_, rfl, rfl⟩⟩
    simp [parseHdr, h1, h2, h3]
  | maint p =>
    simp only [Msg.header, Option.map_eq_some_iff] at hm
    obtain ⟨b, hb, rfl⟩ := hm
    obtain ⟨_, x, y, rfl, h1, h2, h3⟩ := bits16_some hb
    refine ⟨rfl, ⟨DLE, _, rfl, by decide⟩, fun rest => ⟨.maint p.length, ?_, rfl, rfl⟩⟩
    simp [parseHdr, h1, h2, h3, SOH, DLE]
  | ack q s resp =>
    simp only [Msg.header, Option.map_eq_some_iff] at hm
    obtain ⟨b, hb, rfl⟩ := hm
    obtain ⟨h1, h2, h3⟩ := bits8_some hb
    refine ⟨rfl, ⟨ENQ, _, rfl, by decide⟩, fun rest => ⟨.ctl (.ack q s resp), ?_, rfl, rfl⟩⟩
    norm_num at h1
    simp [parseHdr, h1, h2, h3, SOH, DLE, ENQ, ctlMsg]
  | nak r q s resp =>
    simp only [Msg.header, Option.map_eq_some_iff] at hm
    obtain ⟨b, hb, rfl⟩ := hm
    obtain ⟨h1, h2, h3⟩ := bits8_some hb
    refine ⟨rfl, ⟨ENQ, _, rfl, by decide⟩, fun rest => ⟨.ctl (.nak r q s resp), ?_, rfl, rfl⟩⟩
    norm_num at h1
    simp [parseHdr, h1, h2, h3, SOH, DLE, ENQ, ctlMsg]
  | rep q s num =>
    simp only [Msg.header, Option.map_eq_some_iff] at hm
    obtain ⟨b, hb, rfl⟩ := hm
    obtain ⟨h1, h2, h3⟩ := bits8_some hb
    refine ⟨rfl, ⟨ENQ, _, rfl, by decide⟩, fun rest => ⟨.ctl (.rep q s num), ?_, rfl, rfl⟩⟩
    norm_num at h1
    simp [parseHdr, h1, h2, h3, SOH, DLE, ENQ, ctlMsg]
  | start =>
    simp only [Msg.header, Option.map_eq_some_iff] at hm
    obtain ⟨b, hb, rfl⟩ := hm
    obtain ⟨h1, h2, h3⟩ := bits8_some hb
    refine ⟨rfl, ⟨ENQ, _, rfl, by decide⟩, fun rest => ⟨.ctl .start, ?_, rfl, rfl⟩⟩
    norm_num at h1
    simp [parseHdr, h1, h2, h3, SOH, DLE, ENQ, ctlMsg]
  | stack =>
    simp only [Msg.header, Option.map_eq_some_iff] at hm
    obtain ⟨b, hb, rfl⟩ := hm
    obtain ⟨h1, h2, h3⟩ := bits8_some hb
    refine ⟨rfl, ⟨ENQ, _, rfl, by decide⟩, fun rest => ⟨.ctl .stack, ?_, rfl, rfl⟩⟩
    norm_num at h1
    simp [parseHdr, h1, h2, h3, SOH, DLE, ENQ, ctlMsg]

theorem crc_len (b : Bytes) : (CRC16.bytes b).length = 2 := Verif.Crc.le_len _ _

theorem withCrc_len (b : Bytes) : (withCrc b).length = b.length + 2 := by
  unfold withCrc; rw [List.length_append, crc_len]

theorem withCrc_good (b : Bytes) : CRC16.good (withCrc b) = true := Verif.Crc.crc16_good b

/-- The other direction: only the encoding of a message parses to it. -/
theorem parse_header {b : Bytes} {hd : Hdr} (h : parseHdr b = .ok hd) (ha : b.getD 5 0 = 1)
    (p : Bytes) (hp : ∀ n, hd.count = some n → p.length = n) :
    ∃ rest, (hd.withPayload p).header = some (b.take 6) ∧ b = b.take 6 ++ rest ∧
      (hd.withPayload p).payload? = hd.count.map fun _ => p := by
  match b, h, ha with
  | soh :: x :: y :: resp :: num :: addr :: rest, h, ha =>
    refine ⟨rest, ?_⟩
    simp only [List.getD_cons_succ, List.getD_cons_zero] at ha
    subst ha
    simp only [parseHdr] at h
    split at h
    · rename_i hs
      subst hs
      injection h with h; subst h
      have := hp _ rfl
      refine ⟨?_, rfl, rfl⟩
      simp [Hdr.withPayload, Msg.header, this, bits16_of]
    · split at h
      · rename_i hs
        subst hs
        split at h
        · rename_i hc
          injection h with h; subst h
          have := hp _ rfl
          obtain ⟨h1, h2, rfl, rfl⟩ := hc
          have hb := bits16_of x y
          rw [h1, h2] at hb
          refine ⟨?_, rfl, rfl⟩
          simp [Hdr.withPayload, Msg.header, this, hb]
        · exact absurd h (by simp)
      · split at h
        · rename_i hs
          subst hs
          have hb := bits8_of y
          unfold ctlMsg at h
          simp only at h
          split at h
          · split at h
            · rename_i hx hc; obtain ⟨h1, rfl⟩ := hc; subst hx
              injection h with h; subst h
              rw [h1] at hb
              refine ⟨?_, rfl, rfl⟩
              simp [Hdr.withPayload, Msg.header, hb]
            · exact absurd h (by simp)
          · split at h
            · split at h
              · rename_i hx hc; subst hc; subst hx
                injection h with h; subst h
                refine ⟨?_, rfl, rfl⟩
                simp only [Hdr.withPayload, Msg.header, hb]; rfl
              · exact absurd h (by simp)
            · split at h
              · split at h
                · rename_i hx hc; obtain ⟨h1, rfl⟩ := hc; subst hx
                  injection h with h; subst h
                  rw [h1] at hb
                  refine ⟨?_, rfl, rfl⟩
                  simp [Hdr.withPayload, Msg.header, hb]
                · exact absurd h (by simp)
              · split at h
                · split at h
                  · rename_i hx hc; obtain ⟨h1, h2, h3, rfl, rfl⟩ := hc; subst hx
                    injection h with h; subst h
                    rw [h1, h2, h3] at hb
                    refine ⟨?_, rfl, rfl⟩
                    simp [Hdr.withPayload, Msg.header, hb]
                  · exact absurd h (by simp)
                · split at h
                  · split at h
                    · rename_i hx hc; obtain ⟨h1, h2, h3, rfl, rfl⟩ := hc; subst hx
                      injection h with h; subst h
                      rw [h1, h2, h3] at hb
                      refine ⟨?_, rfl, rfl⟩
                      simp [Hdr.withPayload, Msg.header, hb]
                    · exact absurd h (by simp)
                  · exact absurd h (by simp)
        · exact absurd h (by simp)
  | [], h, _ => exact absurd h (by simp [parseHdr])
  | [_], h, _ => exact absurd h (by simp [parseHdr])
  | [_, _], h, _ => exact absurd h (by simp [parseHdr])
  | [_, _, _], h, _ => exact absurd h (by simp [parseHdr])
  | [_, _, _, _], h, _ => exact absurd h (by simp [parseHdr])
  | [_, _, _, _, _], h, _ => exact absurd h (by simp [parseHdr])

/-! ## Readers -/

/-- The reader delivers the byte stream related to its state by `R`, and
IOError when that is not long enough. -/
structure Delivers {σ : Type} (rd : Reader σ) (R : σ → Bytes → Prop) : Prop where
  ok : ∀ st x n, R st x → n ≤ x.length → ∃ st', rd n st = some (x.take n, st') ∧ R st' (x.drop n)
  eof : ∀ st x n, R st x → x.length < n → rd n st = none

theorem recvallLoop_ok (n : Nat) : ∀ (calls : List Nat) (ret wire : Bytes),
    n - ret.length ≤ wire.length → wire.length ≤ calls.length → ret.length ≤ n →
    ∃ calls', recvallLoop n calls ret wire =
        some (ret ++ wire.take (n - ret.length), wire.drop (n - ret.length), calls') ∧
      wire.length - (n - ret.length) ≤ calls'.length := by
  intro calls
  induction calls with
  | nil =>
    intro ret wire h1 h2 h3
    have : wire = [] := List.length_eq_zero_iff.1 (by simpa using h2)
    subst this
    simp only [List.length_nil] at h1
    refine ⟨[], ?_, by simp⟩
    rw [recvallLoop, if_neg (by omega)]
    simp
  | cons k calls ih =>
    intro ret wire h1 h2 h3
    rw [recvallLoop]
    by_cases hlt : ret.length < n
    · rw [if_pos hlt]
      simp only
      set m := wire.take (min (k + 1) (n - ret.length)) with hm
      have hml : m.length = min (k + 1) (n - ret.length) := by
        rw [hm, List.length_take]; omega
      have hne : m ≠ [] := by
        intro h0
        rw [h0] at hml
        simp only [List.length_nil] at hml
        omega
      rw [if_neg hne]
      have hl2 : (ret ++ m).length = ret.length + m.length := List.length_append
      obtain ⟨c', e, hc'⟩ := ih (ret ++ m) (wire.drop m.length)
        (by rw [hl2, List.length_drop]; omega)
        (by rw [List.length_drop]; simp only [List.length_cons] at h2; omega)
        (by rw [hl2]; omega)
      refine ⟨c', ?_, ?_⟩
      · rw [e, hl2, List.drop_drop, List.append_assoc]
        have hsum : m.length + (n - (ret.length + m.length)) = n - ret.length := by omega
        have hmt : m = wire.take m.length := by rw [hml]
        have ht : m ++ (wire.drop m.length).take (n - (ret.length + m.length)) =
            wire.take (n - ret.length) := by
          have h5 := List.take_add (l := wire) (i := m.length) (j := n - (ret.length + m.length))
          rw [← hmt, hsum] at h5
          exact h5.symm
        rw [ht, hsum]
      · rw [hl2, List.length_drop] at hc'
        omega
    · rw [if_neg hlt]
      have : n - ret.length = 0 := by omega
      refine ⟨k :: calls, ?_, by rw [this]; omega⟩
      rw [this]
      simp

theorem recvallLoop_eof (n : Nat) : ∀ (calls : List Nat) (ret wire : Bytes),
    ret.length + wire.length < n → recvallLoop n calls ret wire = none := by
  intro calls
  induction calls with
  | nil => intro ret wire h; rw [recvallLoop, if_pos (by omega)]
  | cons k calls ih =>
    intro ret wire h
    rw [recvallLoop, if_pos (by omega)]
    simp only
    split
    · rfl
    · apply ih
      rw [List.length_append, List.length_drop, List.length_take]
      omega

/-- datalink.py:345-380: `recvall` delivers the stream however it is cut up. -/
theorem recvall_delivers :
    Delivers recvall (fun st x => st.1 = x ∧ x.length ≤ st.2.length) where
  ok := by
    rintro ⟨wire, calls⟩ x n ⟨rfl, h⟩ hn
    obtain ⟨c', e, hc⟩ := recvallLoop_ok n calls [] wire (by simpa using hn) h (by simp)
    refine ⟨_, by simpa [recvall] using e, rfl, ?_⟩
    simpa using hc
  eof := by
    rintro ⟨wire, calls⟩ x n ⟨rfl, h⟩ hn
    exact recvallLoop_eof n calls [] wire (by simpa using hn)

/-! ## Telnet escapes -/

theorem escape_cons (c : UInt8) (y : Bytes) :
    escape (c :: y) = (if c = DEL then [DEL, DEL] else [c]) ++ escape y := rfl

theorem escape_append (a b : Bytes) : escape (a ++ b) = escape a ++ escape b := by
  unfold escape; rw [List.flatMap_append]

theorem unescape_escape (y : Bytes) : unescape (escape y) = y := by
  induction y with
  | nil => rfl
  | cons c y ih =>
    rw [escape_cons]
    by_cases h : c = DEL
    · subst h
      simp only [if_true, List.cons_append, List.nil_append, unescape, and_self]
      rw [ih]
    · rw [if_neg h]
      cases he : escape y with
      | nil =>
        rw [he] at ih
        rw [← ih]; rfl
      | cons d r =>
        rw [he] at ih
        simp only [List.cons_append, List.nil_append, unescape]
        rw [if_neg (fun hh => h hh.1), ih]

theorem unescape_none {b : Bytes} (h : countDel b = 0) : unescape b = b := by
  induction b with
  | nil => rfl
  | cons c b ih =>
    have hc : c ≠ DEL := by
      intro h0; subst h0
      simp [countDel] at h
    have hb : countDel b = 0 := by
      unfold countDel at *
      rw [List.count_cons_of_ne hc] at h
      exact h
    cases b with
    | nil => rfl
    | cons d r =>
      rw [unescape, if_neg (fun hh => hc hh.1), ih hb]

theorem escape_len (y : Bytes) : y.length ≤ (escape y).length := by
  induction y with
  | nil => simp
  | cons c y ih =>
    rw [escape_cons, List.length_append, List.length_cons]
    split <;> simp <;> omega

theorem countDel_append (a b : Bytes) : countDel (a ++ b) = countDel a + countDel b :=
  List.count_append

theorem countDel_escape_even (y : Bytes) : countDel (escape y) % 2 = 0 := by
  induction y with
  | nil => rfl
  | cons c y ih =>
    rw [escape_cons, countDel_append]
    split
    · simp [countDel] at *; omega
    · rename_i h
      have : countDel [c] = 0 := by simp [countDel, h]
      omega

/-- Cutting an escaped string anywhere. -/
theorem cut_escaped (y : Bytes) : ∀ k, k ≤ (escape y).length →
    ∃ y1 y2, y = y1 ++ y2 ∧ y1.length ≤ k ∧ (1 ≤ k → y1 ≠ []) ∧
      ((escape y).take k = escape y1 ∧ (escape y).drop k = escape y2 ∨
       (escape y).take k ++ [DEL] = escape y1 ∧ (escape y).drop k = DEL :: escape y2) := by
  induction y with
  | nil =>
    intro k hk
    have : k = 0 := by simpa [escape] using hk
    subst this
    exact ⟨[], [], rfl, by simp, by omega, Or.inl ⟨rfl, rfl⟩⟩
  | cons c y ih =>
    intro k hk
    rcases Nat.eq_zero_or_pos k with h0 | h0
    · subst h0
      exact ⟨[], c :: y, rfl, by simp, by omega, Or.inl ⟨rfl, rfl⟩⟩
    by_cases hc : c = DEL
    · subst hc
      have he : escape (DEL :: y) = DEL :: DEL :: escape y := by rw [escape_cons, if_pos rfl]; rfl
      rw [he] at hk ⊢
      simp only [List.length_cons] at hk
      rcases Nat.lt_or_ge k 2 with h1 | h1
      · have : k = 1 := by omega
        subst this
        refine ⟨[DEL], y, rfl, by simp, by simp, Or.inr ⟨?_, ?_⟩⟩
        · simp [escape]
        · rfl
      · obtain ⟨k', rfl⟩ : ∃ k', k = k' + 2 := ⟨k - 2, by omega⟩
        obtain ⟨y1, y2, e, hl, _, hcase⟩ := ih k' (by omega)
        refine ⟨DEL :: y1, y2, by rw [e]; rfl, by simp; omega, by simp, ?_⟩
        have he1 : escape (DEL :: y1) = DEL :: DEL :: escape y1 := by rw [escape_cons, if_pos rfl]; rfl
        rw [he1]
        simp only [List.take_succ_cons, List.drop_succ_cons, List.cons_append]
        rcases hcase with ⟨h2, h3⟩ | ⟨h2, h3⟩
        · exact Or.inl ⟨by rw [h2], h3⟩
        · exact Or.inr ⟨by rw [h2], h3⟩
    · have he : ∀ z, escape (c :: z) = c :: escape z := by
        intro z; rw [escape_cons, if_neg hc]; rfl
      rw [he] at hk ⊢
      simp only [List.length_cons] at hk
      obtain ⟨k', rfl⟩ : ∃ k', k = k' + 1 := ⟨k - 1, by omega⟩
      obtain ⟨y1, y2, e, hl, _, hcase⟩ := ih k' (by omega)
      refine ⟨c :: y1, y2, by rw [e]; rfl, by simp; omega, by simp, ?_⟩
      rw [he]
      simp only [List.take_succ_cons, List.drop_succ_cons, List.cons_append]
      rcases hcase with ⟨h2, h3⟩ | ⟨h2, h3⟩
      · exact Or.inl ⟨by rw [h2], h3⟩
      · exact Or.inr ⟨by rw [h2], h3⟩

/-- One turn of the loop of `readbytes`. -/
theorem readTelnet_turn {σ : Type} {rd : Reader σ} {R : σ → Bytes → Prop} (hd : Delivers rd R)
    (sz fuel : Nat) (p : Bytes) (st : σ) (y : Bytes) (hR : R st (escape y)) (hp : p.length < sz) :
    (sz - p.length ≤ (escape y).length ∧ ∃ y1 y2 st', y = y1 ++ y2 ∧ y1.length ≤ sz - p.length ∧
      y1 ≠ [] ∧ R st' (escape y2) ∧
      readTelnet rd sz (fuel + 1) p st = readTelnet rd sz fuel (p ++ y1) st') ∨
    ((escape y).length < sz - p.length ∧ readTelnet rd sz (fuel + 1) p st = none) := by
  rcases Nat.lt_or_ge (escape y).length (sz - p.length) with h | h
  · right
    refine ⟨h, ?_⟩
    rw [readTelnet.eq_def]
    simp only
    rw [if_pos hp, hd.eof _ _ _ hR h]
    rfl
  · left
    refine ⟨h, ?_⟩
    obtain ⟨st1, h1, hR1⟩ := hd.ok _ _ _ hR h
    obtain ⟨y1, y2, e, hl, hne, hcase⟩ := cut_escaped y _ h
    have hun : ∀ b : Bytes, (if countDel b ≠ 0 then unescape b else b) = unescape b := by
      intro b
      split
      · rfl
      · rename_i hb
        rw [unescape_none (by omega)]
    rcases hcase with ⟨h2, h3⟩ | ⟨h2, h3⟩
    · rw [h2] at h1
      rw [h3] at hR1
      refine ⟨y1, y2, st1, e, hl, hne (by omega), hR1, ?_⟩
      rw [readTelnet.eq_def]
      simp only
      rw [if_pos hp, h1]
      have heven := countDel_escape_even y1
      simp only [Option.bind_eq_bind, Option.bind_some]
      rw [if_neg (by omega)]
      rw [hun, unescape_escape]
    · rw [h3] at hR1
      obtain ⟨st2, h4, hR2⟩ := hd.ok _ _ 1 hR1 (by simp)
      simp only [List.take_succ_cons, List.take_zero, List.drop_succ_cons, List.drop_zero] at h4 hR2
      refine ⟨y1, y2, st2, e, hl, hne (by omega), hR2, ?_⟩
      rw [readTelnet.eq_def]
      simp only
      rw [if_pos hp, h1]
      have hodd : countDel ((escape y).take (sz - p.length)) % 2 = 1 := by
        have h5 := countDel_escape_even y1
        rw [← h2, countDel_append] at h5
        have h6 : countDel [DEL] = 1 := by decide
        omega
      simp only [Option.bind_eq_bind, Option.bind_some]
      rw [if_pos hodd, h4]
      simp only [Option.map_some, Option.bind_some]
      rw [if_pos (by omega), h2, unescape_escape]

theorem readTelnet_ok {σ : Type} {rd : Reader σ} {R : σ → Bytes → Prop} (hd : Delivers rd R)
    (sz : Nat) : ∀ (fuel : Nat) (p : Bytes) (st : σ) (y : Bytes), R st (escape y) →
      p.length ≤ sz → sz - p.length ≤ fuel → sz - p.length ≤ y.length →
      ∃ st', readTelnet rd sz fuel p st = some (p ++ y.take (sz - p.length), st') ∧
        R st' (escape (y.drop (sz - p.length))) := by
  intro fuel
  induction fuel with
  | zero =>
    intro p st y hR h1 h2 h3
    refine ⟨st, ?_, ?_⟩
    · rw [readTelnet.eq_def]
      simp only
      rw [if_neg (by omega), show sz - p.length = 0 by omega]
      simp
    · rw [show sz - p.length = 0 by omega]
      exact hR
  | succ fuel ih =>
    intro p st y hR h1 h2 h3
    by_cases hp : p.length < sz
    · rcases readTelnet_turn hd sz fuel p st y hR hp with ⟨_, y1, y2, st', e, hl, hne, hR', heq⟩ | ⟨hlt, _⟩
      · have hy1 : 1 ≤ y1.length := by
          rcases y1 with _ | ⟨a, y1⟩
          · exact absurd rfl hne
          · simp
        have hly : y.length = y1.length + y2.length := by rw [e, List.length_append]
        have hpl : (p ++ y1).length = p.length + y1.length := List.length_append
        obtain ⟨st'', e2, hR''⟩ := ih (p ++ y1) st' y2 hR' (by omega) (by omega) (by omega)
        refine ⟨st'', ?_, ?_⟩
        · rw [heq, e2, hpl, e, List.take_append, List.take_of_length_le hl, List.append_assoc]
          congr 5
          omega
        · rw [e, List.drop_append, List.drop_of_length_le hl, List.nil_append]
          rw [hpl] at hR''
          rwa [show sz - p.length - y1.length = sz - (p.length + y1.length) by omega]
      · exfalso
        have := escape_len y
        omega
    · refine ⟨st, ?_, ?_⟩
      · rw [readTelnet.eq_def]
        simp only
        rw [if_neg hp, show sz - p.length = 0 by omega]
        simp
      · rw [show sz - p.length = 0 by omega]
        exact hR

theorem readTelnet_eof {σ : Type} {rd : Reader σ} {R : σ → Bytes → Prop} (hd : Delivers rd R)
    (sz : Nat) : ∀ (fuel : Nat) (p : Bytes) (st : σ) (y : Bytes), R st (escape y) →
      y.length < sz - p.length → readTelnet rd sz fuel p st = none := by
  intro fuel
  induction fuel with
  | zero =>
    intro p st y hR h
    rw [readTelnet.eq_def]
    simp only
    rw [if_pos (by omega)]
  | succ fuel ih =>
    intro p st y hR h
    rcases readTelnet_turn hd sz fuel p st y hR (by omega) with
      ⟨_, y1, y2, st', e, hl, hne, hR', heq⟩ | ⟨_, heq⟩
    · rw [heq]
      apply ih _ _ _ hR'
      rw [List.length_append]
      have hly : y.length = y1.length + y2.length := by rw [e, List.length_append]
      omega
    · exact heq

/-- ddcmp.py:1111-1131: on a stream of escaped bytes `readbytes` delivers the
bytes before escaping. -/
theorem readbytes_delivers {σ : Type} {rd : Reader σ} {R : σ → Bytes → Prop} (hd : Delivers rd R)
    (telnet : Bool) :
    Delivers (readbytes telnet rd) (fun st x => R st (if telnet then escape x else x)) where
  ok := by
    intro st x n hR hn
    unfold readbytes
    cases telnet
    · simp only [Bool.false_eq_true, if_false] at *
      exact hd.ok _ _ _ hR hn
    · simp only [if_true] at *
      obtain ⟨st', h1, h2⟩ := readTelnet_ok hd n n [] st x hR (by simp) (by simp) (by simpa using hn)
      exact ⟨st', by simpa using h1, by simpa using h2⟩
  eof := by
    intro st x n hR hn
    unfold readbytes
    cases telnet
    · simp only [Bool.false_eq_true, if_false] at *
      exact hd.eof _ _ _ hR hn
    · simp only [if_true] at *
      exact readTelnet_eof hd n n [] st x hR (by simpa using hn)

end Verif.DdcmpFrame
