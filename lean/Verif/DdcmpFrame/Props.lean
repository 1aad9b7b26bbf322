import Verif.DdcmpFrame.Lemmas

/-!
# DDCMP frames: properties C29 and C30
-/

namespace Verif.DdcmpFrame

open Verif.Fields (Bytes le)
open Verif.Crc (CRC16 dataBits)

/-! ## Frames in a buffer (UDP) -/

theorem start_not_fill {x : UInt8} (h : isStart x = true) : x ≠ SYN ∧ x ≠ DEL := by
  simp only [isStart, decide_eq_true_eq] at h
  rcases h with rfl | rfl | rfl <;> decide

theorem encode_some {m : Msg} {b : Bytes} (h : m.encode = some b) :
    ∃ hb, m.header = some hb ∧
      b = withCrc hb ++ (match m.payload? with | some p => withCrc p | none => []) := by
  simp only [Msg.encode, Option.map_eq_some_iff] at h
  obtain ⟨hb, h1, h2⟩ := h
  exact ⟨hb, h1, h2.symm⟩

/-- C29: every message that can be encoded decodes to itself, whatever follows
it in the buffer. -/
theorem frame_roundtrip (m : Msg) (b : Bytes) (h : m.encode = some b) (rest : Bytes) :
    decode (b ++ rest) = .ok ⟨m, true⟩ := by
  obtain ⟨hb, h1, rfl⟩ := encode_some h
  obtain ⟨hlen, _, hparse⟩ := header_parse h1
  have hl8 : (withCrc hb).length = HDRLEN := by rw [withCrc_len, hlen]; rfl
  obtain ⟨hd, hp, hc, hw⟩ := hparse (CRC16.bytes hb ++ ((match m.payload? with
    | some p => withCrc p | none => []) ++ rest))
  unfold decode
  rw [List.append_assoc, List.take_left' hl8, withCrc_good, if_neg (by decide)]
  rw [show withCrc hb ++ ((match m.payload? with | some p => withCrc p | none => []) ++ rest) =
    hb ++ (CRC16.bytes hb ++ ((match m.payload? with | some p => withCrc p | none => []) ++ rest)) by
      unfold withCrc; rw [List.append_assoc]]
  rw [hp]
  rw [show hb ++ (CRC16.bytes hb ++ ((match m.payload? with | some p => withCrc p | none => []) ++ rest)) =
    withCrc hb ++ ((match m.payload? with | some p => withCrc p | none => []) ++ rest) by
      unfold withCrc; rw [List.append_assoc]]
  rw [List.drop_left' hl8]
  simp only [Except.map, decodeBody]
  rw [hc]
  cases hpl : m.payload? with
  | none =>
    rw [hpl] at hw
    have : hd.withPayload [] = m := hw
    simp only [Option.map_none, this]
  | some p =>
    rw [hpl] at hw
    simp only [Option.map_some, List.length_append, withCrc_len]
    rw [if_neg (by omega)]
    have h2 : (withCrc p ++ rest).take p.length = p := by
      unfold withCrc; rw [List.append_assoc]; exact List.take_left' rfl
    have h3 : (withCrc p ++ rest).take (p.length + 2) = withCrc p :=
      List.take_left' (withCrc_len p)
    rw [h2, h3, withCrc_good]
    have : hd.withPayload p = m := hw
    rw [this]

/-- C29: which messages can be encoded: those with fewer than 2^14 bytes of
data, and a NAK reason of six bits. -/
theorem encodable (m : Msg) : m.encode.isSome = true ↔
    match m with
    | .data _ _ _ _ p => p.length < 2 ^ 14
    | .maint p => p.length < 2 ^ 14
    | .nak r _ _ _ => r < 2 ^ 6
    | _ => True := by
  cases m <;> simp [Msg.encode, Msg.header, bits16, bits8]

/-- C29: a header hit by an error burst of at most 16 bits (anywhere in its
eight bytes, CRC included) is rejected as a header CRC error, whatever
follows. -/
theorem header_burst_rejected (m : Msg) (hb : Bytes) (h : m.header = some hb) (bad rest : Bytes)
    (pre a a' post : List Bool)
    (h1 : dataBits true (withCrc hb) = pre ++ a ++ post)
    (h2 : dataBits true bad = pre ++ a' ++ post)
    (hlen : a.length = a'.length) (hw : a.length ≤ 16) (hne : a ≠ a') :
    decode (bad ++ rest) = .error .hdrCrc := by
  have hg := Verif.Crc.burst_detected CRC16 Verif.Crc.CRC16_valid (by decide) _ bad pre a a' post
    h1 h2 hlen hw hne (withCrc_good hb)
  have hl : bad.length = HDRLEN := by
    have h3 : 8 * bad.length = 8 * (withCrc hb).length := by
      rw [← Verif.Crc.dataBits_length true, ← Verif.Crc.dataBits_length true, h1, h2]
      simp [hlen]
    rw [withCrc_len, (header_parse h).1] at h3
    unfold HDRLEN
    omega
  unfold decode
  rw [List.take_left' hl, hg, if_pos rfl]

/-- C29: a data or maintenance message with data hit by an error burst of at
most 16 bits is never passed on as good. -/
theorem data_burst_rejected (m : Msg) (p : Bytes) (hp : m.payload? = some p) (hb : Bytes)
    (h : m.header = some hb) (bad rest : Bytes) (pre a a' post : List Bool)
    (h1 : dataBits true (withCrc p) = pre ++ a ++ post)
    (h2 : dataBits true bad = pre ++ a' ++ post)
    (hlen : a.length = a'.length) (hw : a.length ≤ 16) (hne : a ≠ a') :
    ∃ m', decode (withCrc hb ++ bad ++ rest) = .ok ⟨m', false⟩ := by
  have hg := Verif.Crc.burst_detected CRC16 Verif.Crc.CRC16_valid (by decide) _ bad pre a a' post
    h1 h2 hlen hw hne (withCrc_good p)
  have hl : bad.length = p.length + 2 := by
    have h3 : 8 * bad.length = 8 * (withCrc p).length := by
      rw [← Verif.Crc.dataBits_length true, ← Verif.Crc.dataBits_length true, h1, h2]
      simp [hlen]
    rw [withCrc_len] at h3
    omega
  obtain ⟨hlen6, _, hparse⟩ := header_parse h
  have hl8 : (withCrc hb).length = HDRLEN := by rw [withCrc_len, hlen6]; rfl
  obtain ⟨hd, hpa, hc, _⟩ := hparse (CRC16.bytes hb ++ (bad ++ rest))
  refine ⟨hd.withPayload ((bad ++ rest).take p.length), ?_⟩
  unfold decode
  rw [List.append_assoc, List.take_left' hl8, withCrc_good, if_neg (by decide)]
  have e : withCrc hb ++ (bad ++ rest) = hb ++ (CRC16.bytes hb ++ (bad ++ rest)) := by
    unfold withCrc; rw [List.append_assoc]
  rw [e, hpa, ← e, List.drop_left' hl8]
  simp only [Except.map, decodeBody]
  rw [hc, hp]
  simp only [Option.map_some, List.length_append, hl]
  rw [if_neg (by omega), List.take_left' hl, hg]

/-- C29: what is passed on as good is, byte for byte, the encoding of the
message passed on (for the address byte 1 that every sender uses). -/
theorem accepted_is_encoding (b : Bytes) (m : Msg) (h : decode b = .ok ⟨m, true⟩)
    (ha : b.getD 5 0 = 1) (h8 : HDRLEN ≤ b.length) :
    ∃ e rest, m.encode = some e ∧ b = e ++ rest := by
  have good2 : ∀ (d : Bytes) (n : Nat), n + 2 ≤ d.length → CRC16.good (d.take (n + 2)) = true →
      d.take (n + 2) = withCrc (d.take n) := by
    intro d n hn hg
    have hd2 : ∃ x y, (d.drop n).take 2 = [x, y] := by
      have hl : ((d.drop n).take 2).length = 2 := by
        rw [List.length_take, List.length_drop]; omega
      match (d.drop n).take 2, hl with
      | [x, y], _ => exact ⟨x, y, rfl⟩
    obtain ⟨x, y, hxy⟩ := hd2
    rw [List.take_add, hxy] at hg ⊢
    unfold withCrc
    rw [← Verif.Crc.crc16_only_good _ x y hg]
  unfold decode at h
  split at h
  · exact absurd h (by simp)
  rename_i hgood
  have hgood : CRC16.good (b.take HDRLEN) = true := by
    revert hgood; cases CRC16.good (b.take HDRLEN) <;> simp
  have hh8 := good2 b 6 h8 hgood
  cases hp : parseHdr b with
  | error e => rw [hp] at h; exact absurd h (by intro hh; cases hh)
  | ok hd =>
    rw [hp] at h
    simp only [Except.map, decodeBody] at h
    injection h with h
    cases hc : hd.count with
    | none =>
      rw [hc] at h
      injection h with h
      obtain ⟨rest, h1, h2, h3⟩ := parse_header hp ha [] (by rw [hc]; simp)
      rw [h] at h1 h3
      rw [hc] at h3
      refine ⟨withCrc (b.take 6), b.drop HDRLEN, ?_, ?_⟩
      · simp [Msg.encode, h1, h3]
      · rw [← hh8]; exact (List.take_append_drop _ _).symm
    | some dl =>
      rw [hc] at h
      simp only at h
      split at h
      · injection h with _ h
        exact absurd h (by decide)
      · rename_i hl
        injection h with h hcrc
        have hd2 := good2 (b.drop HDRLEN) dl (by omega) hcrc
        obtain ⟨rest, h1, h2, h3⟩ := parse_header hp ha ((b.drop HDRLEN).take dl)
          (by intro n hn; rw [hc] at hn; injection hn with hn; subst hn
              rw [List.length_take]; omega)
        rw [h] at h1 h3
        rw [hc] at h3
        refine ⟨withCrc (b.take 6) ++ withCrc ((b.drop HDRLEN).take dl),
          (b.drop HDRLEN).drop (dl + 2), ?_, ?_⟩
        · simp only [Msg.encode, h1, h3, Option.map_some]
        · rw [← hd2, ← hh8, List.append_assoc]
          show b = b.take HDRLEN ++ ((b.drop HDRLEN).take (dl + 2) ++ (b.drop HDRLEN).drop (dl + 2))
          rw [List.take_append_drop, List.take_append_drop]

theorem udpSkip_fill (pad : Bytes) (hpad : ∀ x ∈ pad, x = SYN ∨ x = DEL) (x : UInt8) (t : Bytes)
    (hx : isStart x = true) : udpSkip (pad ++ x :: t) = x :: t := by
  induction pad with
  | nil =>
    obtain ⟨h1, h2⟩ := start_not_fill hx
    cases t with
    | nil => simp [udpSkip, h1, h2, hx]
    | cons y t => simp [udpSkip, h1, h2, hx]
  | cons p pad ih =>
    have hp := hpad p (by simp)
    have := ih (fun x hx => hpad x (by simp [hx]))
    cases hq : pad ++ x :: t with
    | nil => simp at hq
    | cons y r =>
      rw [List.cons_append, hq, udpSkip, if_pos hp, ← hq, this]
      simp

/-- C29 over UDP: a datagram with fill characters and a message gives that
message. -/
theorem udp_delivers (m : Msg) (b : Bytes) (h : m.encode = some b) (pad rest : Bytes)
    (hpad : ∀ x ∈ pad, x = SYN ∨ x = DEL) : udpReceive (pad ++ b ++ rest) = .pkt ⟨m, true⟩ := by
  obtain ⟨hb, h1, he⟩ := encode_some h
  obtain ⟨hlen, ⟨x, t, hx, hs⟩, _⟩ := header_parse h1
  have hb8 : 8 ≤ (b ++ rest).length := by
    rw [List.length_append, he, List.length_append, withCrc_len, hlen]; omega
  have hcons : ∃ t', b ++ rest = x :: t' := by
    rw [he, hx]; exact ⟨_, rfl⟩
  obtain ⟨t', ht'⟩ := hcons
  have hsk : udpSkip (pad ++ b ++ rest) = b ++ rest := by
    rw [List.append_assoc, ht']
    exact udpSkip_fill pad hpad x t' hs
  unfold udpReceive
  simp only
  rw [hsk, if_neg (by rw [ht']; simp), if_neg (by unfold HDRLEN; omega), frame_roundtrip m b h rest]

/-! ## Frames in a stream (TCP, Telnet) -/

theorem rxRun_add {σ : Type} (rd : Reader σ) : ∀ (a b : Nat) (st st' : RxState σ),
    rxRun rd a st = (st', true) → rxRun rd (a + b) st = rxRun rd b st' := by
  intro a
  induction a with
  | zero =>
    intro b st st' h
    simp only [rxRun, Prod.mk.injEq] at h
    rw [h.1, Nat.zero_add]
  | succ a ih =>
    intro b st st' h
    rw [show a + 1 + b = (a + b) + 1 by omega, rxRun]
    rw [rxRun] at h
    rcases hs : rxStep rd st with ⟨s1, f⟩
    rw [hs] at h
    cases f
    · simp at h
    · exact ih b s1 st' h

theorem rxRun_one {σ : Type} (rd : Reader σ) (st : RxState σ) : rxRun rd 1 st = rxStep rd st := by
  rw [rxRun]
  rcases rxStep rd st with ⟨s1, f⟩
  cases f <;> rfl

/-- A valid header stands at the front. -/
def ValidAt (y : Bytes) : Prop :=
  (∃ h t, y = h :: t ∧ isStart h = true) ∧ HDRLEN ≤ y.length ∧ CRC16.good (y.take HDRLEN) = true

theorem fill_step {σ : Type} {rd : Reader σ} {R : σ → Bytes → Prop} (hd : Delivers rd R)
    (st : RxState σ) (x : Bytes) (hR : R st.conn x) (hlen : st.c.length ≤ 7)
    (hne : st.c ++ x ≠ []) :
    ∃ k st' x', rxRun rd k st = (st', true) ∧ st'.c ≠ [] ∧ st'.c.length ≤ 7 ∧ R st'.conn x' ∧
      st'.c ++ x' = st.c ++ x ∧ st'.out = st.out ∧ st'.insync = st.insync := by
  cases hc : st.c with
  | nil =>
    rw [hc] at hne
    have hx : 1 ≤ x.length := by
      cases x with
      | nil => exact absurd rfl hne
      | cons a x => simp
    obtain ⟨conn', h1, h2⟩ := hd.ok _ _ 1 hR hx
    refine ⟨1, { st with c := x.take 1, conn := conn' }, x.drop 1, ?_, ?_, ?_, h2, ?_, rfl, rfl⟩
    · rw [rxRun_one, rxStep, hc]
      simp only [h1]
    · intro h0
      have := congrArg List.length h0
      simp only [List.length_take, List.length_nil] at this
      omega
    · simp only [List.length_take]; omega
    · rw [List.nil_append]; exact List.take_append_drop 1 x
  | cons a c =>
    exact ⟨0, st, x, rfl, by rw [hc]; simp, hlen, hR, by rw [hc], rfl, rfl⟩

/-- `header_search` finds the first position at which a valid header stands:
it passes over everything before it, reports at most one header CRC error (only
if it was in sync) and hands up the header. -/
theorem search_finds_first {σ : Type} {rd : Reader σ} {R : σ → Bytes → Prop} (hd : Delivers rd R)
    (i : Nat) : ∀ (st : RxState σ) (x : Bytes), R st.conn x → st.c.length ≤ 7 →
      (∀ j < i, ¬ ValidAt ((st.c ++ x).drop j)) → ValidAt ((st.c ++ x).drop i) →
      ∃ k c' conn' out', R conn' ((st.c ++ x).drop (i + HDRLEN)) ∧
        (out' = st.out ∨ st.insync = true ∧ out' = st.out ++ [.hcrc]) ∧
        rxRun rd k st = handleHdr rd (((st.c ++ x).drop i).take HDRLEN)
          { c := c', conn := conn', insync := true, out := out' } := by
  induction i with
  | zero =>
    intro st x hR hlen _ hv
    rw [List.drop_zero] at hv
    obtain ⟨⟨h0, t0, hy, hs⟩, h8, hg⟩ := hv
    obtain ⟨k, st1, x1, hrun, hne, hl1, hR1, hy1, ho1, hi1⟩ :=
      fill_step hd st x hR hlen (by rw [hy]; simp)
    obtain ⟨h', t', hc1⟩ : ∃ h t, st1.c = h :: t := by
      cases hcc : st1.c with
      | nil => exact absurd hcc hne
      | cons a b => exact ⟨a, b, rfl⟩
    have hh : h' = h0 := by
      rw [← hy1, hc1, List.cons_append] at hy
      exact (List.cons.inj hy).1
    subst hh
    have htot : st1.c.length + x1.length = (st.c ++ x).length := by
      rw [← hy1, List.length_append]
    obtain ⟨conn2, hrd, hR2⟩ := hd.ok _ _ (HDRLEN - st1.c.length) hR1 (by omega)
    have hfull : st1.c ++ x1.take (HDRLEN - st1.c.length) = (st.c ++ x).take HDRLEN := by
      rw [← hy1, List.take_append, List.take_of_length_le (l := st1.c) (by unfold HDRLEN; omega)]
    refine ⟨k + 1, st1.c, conn2, st.out, ?_, Or.inl rfl, ?_⟩
    · rw [Nat.zero_add, ← hy1, List.drop_append, List.drop_of_length_le (l := st1.c)
        (by unfold HDRLEN; omega), List.nil_append]
      exact hR2
    · rw [rxRun_add rd k 1 st st1 hrun, rxRun_one, rxStep, hc1]
      simp only [hs, if_true]
      rw [← hc1, hrd]
      simp only
      rw [hfull, hg, if_pos rfl, List.drop_zero, ho1]
  | succ i ih =>
    intro st x hR hlen hno hv
    have hlenv : HDRLEN + (i + 1) ≤ (st.c ++ x).length := by
      have := hv.2.1
      rw [List.length_drop] at this
      unfold HDRLEN at *
      omega
    obtain ⟨k, st1, x1, hrun, hne, hl1, hR1, hy1, ho1, hi1⟩ :=
      fill_step hd st x hR hlen (by intro h0; rw [h0] at hlenv; simp [HDRLEN] at hlenv)
    obtain ⟨h', t', hc1⟩ : ∃ h t, st1.c = h :: t := by
      cases hcc : st1.c with
      | nil => exact absurd hcc hne
      | cons a b => exact ⟨a, b, rfl⟩
    have hy2 : st.c ++ x = h' :: (t' ++ x1) := by rw [← hy1, hc1]; rfl
    have htot : st1.c.length + x1.length = (st.c ++ x).length := by
      rw [← hy1, List.length_append]
    by_cases hs : isStart h' = true
    · obtain ⟨conn2, hrd, hR2⟩ := hd.ok _ _ (HDRLEN - st1.c.length) hR1 (by omega)
      have hfull : st1.c ++ x1.take (HDRLEN - st1.c.length) = (st.c ++ x).take HDRLEN := by
        rw [← hy1, List.take_append, List.take_of_length_le (l := st1.c) (by unfold HDRLEN; omega)]
      have hbad : CRC16.good ((st.c ++ x).take HDRLEN) = false := by
        have := hno 0 (by omega)
        rw [List.drop_zero] at this
        by_contra hgg
        apply this
        refine ⟨⟨h', _, hy2, hs⟩, by omega, ?_⟩
        revert hgg; cases CRC16.good ((st.c ++ x).take HDRLEN) <;> simp
      set rest := x1.drop (HDRLEN - st1.c.length) with hrest
      have hc7 : ((st.c ++ x).take HDRLEN).tail ++ rest = t' ++ x1 := by
        have h1 : (st.c ++ x).take HDRLEN ++ rest = st.c ++ x := by
          rw [← hfull, hrest, List.append_assoc, List.take_append_drop, hy1]
        rw [hy2] at h1 ⊢
        have : HDRLEN = 7 + 1 := rfl
        rw [this, List.take_succ_cons] at h1 ⊢
        rw [List.cons_append] at h1
        exact (List.cons.inj h1).2
      have hlen7 : ((st.c ++ x).take HDRLEN).tail.length ≤ 7 := by
        rw [List.length_tail, List.length_take]; unfold HDRLEN; omega
      have hshift : ∀ j, (t' ++ x1).drop j = (st.c ++ x).drop (j + 1) := by
        intro j; rw [hy2, List.drop_succ_cons]
      by_cases hin : st1.insync = true
      · set st2 : RxState σ := ⟨((st.c ++ x).take HDRLEN).tail, conn2, false, st1.out ++ [.hcrc]⟩ with hst2
        have hstep : rxStep rd st1 = (st2, true) := by
          rw [rxStep, hc1]
          simp only [hs, if_true]
          rw [← hc1, hrd]
          simp only
          rw [hfull, hbad, if_neg (by decide), if_pos hin]
        obtain ⟨k2, c', conn', out', g1, g2, g3⟩ := ih st2 rest hR2 hlen7
          (by intro j hj; show ¬ ValidAt ((((st.c ++ x).take HDRLEN).tail ++ rest).drop j)
              rw [hc7, hshift]; exact hno (j + 1) (by omega))
          (by show ValidAt ((((st.c ++ x).take HDRLEN).tail ++ rest).drop i)
              rw [hc7, hshift]; exact hv)
        have hcx : st2.c ++ rest = t' ++ x1 := hc7
        rw [hcx] at g1 g3
        rw [hshift] at g1 g3
        refine ⟨k + (1 + k2), c', conn', out', ?_, ?_, ?_⟩
        · rw [show i + 1 + HDRLEN = i + HDRLEN + 1 by omega]; exact g1
        · right
          refine ⟨by rw [← hi1]; exact hin, ?_⟩
          rcases g2 with g2 | ⟨g2, _⟩
          · rw [g2, hst2]; show st1.out ++ _ = _; rw [ho1]
          · exact absurd g2 (by simp [hst2])
        · rw [rxRun_add rd k _ st st1 hrun, rxRun_add rd 1 k2 st1 st2 (by rw [rxRun_one, hstep]), g3]
      · set st2 : RxState σ := ⟨((st.c ++ x).take HDRLEN).tail, conn2, st1.insync, st1.out⟩ with hst2
        have hstep : rxStep rd st1 = (st2, true) := by
          rw [rxStep, hc1]
          simp only [hs, if_true]
          rw [← hc1, hrd]
          simp only
          rw [hfull, hbad, if_neg (by decide), if_neg hin]
        obtain ⟨k2, c', conn', out', g1, g2, g3⟩ := ih st2 rest hR2 hlen7
          (by intro j hj; show ¬ ValidAt ((((st.c ++ x).take HDRLEN).tail ++ rest).drop j)
              rw [hc7, hshift]; exact hno (j + 1) (by omega))
          (by show ValidAt ((((st.c ++ x).take HDRLEN).tail ++ rest).drop i)
              rw [hc7, hshift]; exact hv)
        have hcx : st2.c ++ rest = t' ++ x1 := hc7
        rw [hcx] at g1 g3
        rw [hshift] at g1 g3
        refine ⟨k + (1 + k2), c', conn', out', ?_, ?_, ?_⟩
        · rw [show i + 1 + HDRLEN = i + HDRLEN + 1 by omega]; exact g1
        · rcases g2 with g2 | ⟨g2, _⟩
          · left; rw [g2, hst2]; exact ho1
          · exact absurd g2 hin
        · rw [rxRun_add rd k _ st st1 hrun, rxRun_add rd 1 k2 st1 st2 (by rw [rxRun_one, hstep]), g3]
    · set st2 : RxState σ := { st1 with c := t' } with hst2
      have hstep : rxStep rd st1 = (st2, true) := by
        rw [rxStep, hc1]
        simp only
        rw [if_neg hs]
      have hshift : ∀ j, (t' ++ x1).drop j = (st.c ++ x).drop (j + 1) := by
        intro j; rw [hy2, List.drop_succ_cons]
      obtain ⟨k2, c', conn', out', g1, g2, g3⟩ := ih st2 x1 hR1
        (by show t'.length ≤ 7; rw [hc1] at hl1; simp only [List.length_cons] at hl1; omega)
        (by intro j hj; show ¬ ValidAt ((t' ++ x1).drop j)
            rw [hshift]; exact hno (j + 1) (by omega))
        (by show ValidAt ((t' ++ x1).drop i)
            rw [hshift]; exact hv)
      have hcx : st2.c ++ x1 = t' ++ x1 := rfl
      rw [hcx] at g1 g3
      rw [hshift] at g1 g3
      refine ⟨k + (1 + k2), c', conn', out', ?_, ?_, ?_⟩
      · rw [show i + 1 + HDRLEN = i + HDRLEN + 1 by omega]; exact g1
      · rcases g2 with g2 | ⟨g2, g4⟩
        · left; rw [g2]; exact ho1
        · right; exact ⟨by rw [← hi1]; exact g2, by rw [g4]; show st1.out ++ _ = _; rw [ho1]⟩
      · rw [rxRun_add rd k _ st st1 hrun, rxRun_add rd 1 k2 st1 st2 (by rw [rxRun_one, hstep]), g3]

/-- Passing up a message whose header has been found. -/
theorem handle_good {σ : Type} {rd : Reader σ} {R : σ → Bytes → Prop} (hd : Delivers rd R)
    {m : Msg} {hb : Bytes} (h : m.header = some hb) (st : RxState σ) (rest : Bytes)
    (hR : R st.conn ((match m.payload? with | some p => withCrc p | none => []) ++ rest)) :
    ∃ conn', handleHdr rd (withCrc hb) st =
        ({ st with c := [], conn := conn', out := st.out ++ [.pkt ⟨m, true⟩] }, true) ∧
      R conn' rest := by
  obtain ⟨_, _, hparse⟩ := header_parse h
  obtain ⟨hd', hp, hc, hw⟩ := hparse (CRC16.bytes hb)
  unfold handleHdr
  rw [show withCrc hb = hb ++ CRC16.bytes hb from rfl, hp]
  simp only
  rw [hc]
  cases hpl : m.payload? with
  | none =>
    rw [hpl] at hw hR
    have : hd'.withPayload [] = m := hw
    simp only [Option.map_none, this]
    exact ⟨st.conn, rfl, hR⟩
  | some p =>
    rw [hpl] at hw hR
    have hwp : hd'.withPayload p = m := hw
    simp only [Option.map_some]
    obtain ⟨c1, h1, hR1⟩ := hd.ok _ _ p.length hR (by rw [List.length_append, withCrc_len]; omega)
    rw [h1]
    simp only
    have e1 : (withCrc p ++ rest).take p.length = p := by
      unfold withCrc; rw [List.append_assoc]; exact List.take_left' rfl
    have e2 : (withCrc p ++ rest).drop p.length = CRC16.bytes p ++ rest := by
      unfold withCrc; rw [List.append_assoc]; exact List.drop_left' rfl
    simp only at hR1
    rw [e2] at hR1
    obtain ⟨c2, h2, hR2⟩ := hd.ok _ _ 2 hR1 (by rw [List.length_append, crc_len]; omega)
    rw [h2]
    simp only [e1]
    have e3 : (CRC16.bytes p ++ rest).take 2 = CRC16.bytes p := List.take_left' (crc_len p)
    have e4 : (CRC16.bytes p ++ rest).drop 2 = rest := List.drop_left' (crc_len p)
    rw [e3, hwp, show p ++ CRC16.bytes p = withCrc p from rfl, withCrc_good]
    rw [e4] at hR2
    exact ⟨c2, rfl, hR2⟩

/-- C29 on a stream: after any prefix that contains no valid header (noise, a
message in progress when the connection came up, fill characters), the next
message is received, and reading goes on right behind it. -/
theorem stream_next {σ : Type} {rd : Reader σ} {R : σ → Bytes → Prop} (hd : Delivers rd R)
    (st : RxState σ) (noise b rest : Bytes) (m : Msg) (hm : m.encode = some b)
    (hc : st.c = []) (hR : R st.conn (noise ++ b ++ rest))
    (hno : ∀ j < noise.length, ¬ ValidAt ((noise ++ b ++ rest).drop j)) :
    ∃ k st', rxRun rd k st = (st', true) ∧ st'.c = [] ∧ R st'.conn rest ∧ st'.insync = true ∧
      (st'.out = st.out ++ [.pkt ⟨m, true⟩] ∨
        st.insync = true ∧ st'.out = st.out ++ [.hcrc, .pkt ⟨m, true⟩]) := by
  obtain ⟨hb, h1, he⟩ := encode_some hm
  obtain ⟨hlen, ⟨x, t, hx, hs⟩, _⟩ := header_parse h1
  have hl8 : (withCrc hb).length = HDRLEN := by rw [withCrc_len, hlen]; rfl
  set tl := (match m.payload? with | some p => withCrc p | none => []) with htl
  have hfront : (st.c ++ (noise ++ b ++ rest)).drop noise.length = withCrc hb ++ (tl ++ rest) := by
    rw [hc, List.nil_append, List.append_assoc, List.drop_left' rfl, he, List.append_assoc]
  have hv : ValidAt ((st.c ++ (noise ++ b ++ rest)).drop noise.length) := by
    rw [hfront]
    refine ⟨⟨x, t ++ CRC16.bytes hb ++ (tl ++ rest), ?_, hs⟩, ?_, ?_⟩
    · unfold withCrc; rw [hx]; simp
    · rw [List.length_append, hl8]; omega
    · rw [List.take_left' hl8]; exact withCrc_good hb
  obtain ⟨k, c', conn', out', g1, g2, g3⟩ := search_finds_first hd noise.length st _ hR
    (by rw [hc]; simp) (by rw [hc, List.nil_append]; exact hno) hv
  rw [← List.drop_drop, hfront, List.drop_left' hl8] at g1
  rw [hfront, List.take_left' hl8] at g3
  obtain ⟨conn2, g4, g5⟩ := handle_good hd h1
    { c := c', conn := conn', insync := true, out := out' } rest g1
  refine ⟨k, _, by rw [g3, g4], rfl, g5, rfl, ?_⟩
  rcases g2 with g2 | ⟨g2, g6⟩
  · left; simp only [g2]
  · right; refine ⟨g2, ?_⟩; simp only [g6, List.append_assoc, List.cons_append, List.nil_append]

/-- Fill characters: anything that is not the first byte of a message. -/
theorem no_valid_in_fill (pad y : Bytes) (hpad : ∀ x ∈ pad, isStart x = false) :
    ∀ j < pad.length, ¬ ValidAt ((pad ++ y).drop j) := by
  intro j hj ⟨⟨h, t, e, hs⟩, _, _⟩
  rw [List.drop_append_of_le_length (by omega), List.drop_eq_getElem_cons hj, List.cons_append] at e
  have h1 := (List.cons.inj e).1
  have h2 := hpad pad[j] (List.getElem_mem hj)
  rw [h1, hs] at h2
  exact absurd h2 (by decide)

theorem stream_next_sync {σ : Type} {rd : Reader σ} {R : σ → Bytes → Prop} (hd : Delivers rd R)
    (pad : Bytes) (hpad : ∀ x ∈ pad, isStart x = false) :
    ∀ (st : RxState σ) (b rest : Bytes) (m : Msg), m.encode = some b → st.c = [] →
      R st.conn (pad ++ b ++ rest) →
      ∃ k st', rxRun rd k st = (st', true) ∧ st'.c = [] ∧ R st'.conn rest ∧
        st'.out = st.out ++ [.pkt ⟨m, true⟩] := by
  induction pad with
  | nil =>
    intro st b rest m hm hc hR
    -- no noise: the search succeeds at once
    obtain ⟨hb, h1, he⟩ := encode_some hm
    obtain ⟨hlen, ⟨x, t, hx, hs⟩, _⟩ := header_parse h1
    have hl8 : (withCrc hb).length = HDRLEN := by rw [withCrc_len, hlen]; rfl
    obtain ⟨k1, st1, x1, hrun, hne, hl1, hR1, hy1, ho1, hi1⟩ :=
      fill_step hd st _ hR (by rw [hc]; simp) (by
        rw [he]; unfold withCrc; rw [hx]; simp)
    -- reuse `search_finds_first` at position 0, which never reports an error
    set tl := (match m.payload? with | some p => withCrc p | none => []) with htl
    have hfront : st1.c ++ x1 = withCrc hb ++ (tl ++ rest) := by
      rw [hy1, hc, List.nil_append, List.nil_append, he, List.append_assoc]
    obtain ⟨h', t', hc1⟩ : ∃ h t, st1.c = h :: t := by
      cases hcc : st1.c with
      | nil => exact absurd hcc hne
      | cons a b => exact ⟨a, b, rfl⟩
    have hst : isStart h' = true := by
      have : h' = x := by
        rw [hc1] at hfront
        unfold withCrc at hfront
        rw [hx] at hfront
        simp only [List.cons_append] at hfront
        exact (List.cons.inj hfront).1
      rw [this]; exact hs
    have htot : st1.c.length + x1.length = HDRLEN + (tl ++ rest).length := by
      rw [← List.length_append, hfront, List.length_append, hl8]
    obtain ⟨conn2, hrd, hR2⟩ := hd.ok _ _ (HDRLEN - st1.c.length) hR1 (by omega)
    have hfull : st1.c ++ x1.take (HDRLEN - st1.c.length) = withCrc hb := by
      have h2 : (st1.c ++ x1).take HDRLEN = withCrc hb := by rw [hfront]; exact List.take_left' hl8
      rw [← h2, List.take_append, List.take_of_length_le (l := st1.c) (by unfold HDRLEN; omega)]
    have hrest : x1.drop (HDRLEN - st1.c.length) = tl ++ rest := by
      have h2 : (st1.c ++ x1).drop HDRLEN = tl ++ rest := by rw [hfront]; exact List.drop_left' hl8
      rw [← h2, List.drop_append, List.drop_of_length_le (l := st1.c) (by unfold HDRLEN; omega),
        List.nil_append]
    rw [hrest] at hR2
    obtain ⟨conn3, g4, g5⟩ := handle_good hd h1
      { st1 with conn := conn2, insync := true } rest hR2
    refine ⟨k1 + 1, ⟨[], conn3, true, st1.out ++ [.pkt ⟨m, true⟩]⟩, ?_, rfl, g5, ?_⟩
    · rw [rxRun_add rd k1 1 st st1 hrun, rxRun_one, rxStep, hc1]
      simp only [hst, if_true]
      rw [← hc1, hrd]
      simp only
      rw [hfull, withCrc_good, if_pos rfl]
      exact g4
    · simp only [ho1]
  | cons p pad ih =>
    intro st b rest m hm hc hR
    have hp := hpad p (by simp)
    obtain ⟨conn1, h1, hR1⟩ := hd.ok _ _ 1 hR (by simp)
    simp only [List.cons_append, List.take_succ_cons, List.take_zero, List.drop_succ_cons,
      List.drop_zero] at h1 hR1
    have hrun : rxRun rd 2 st = ({ st with c := [], conn := conn1 }, true) := by
      have e1 : rxStep rd st = ({ st with c := [p], conn := conn1 }, true) := by
        rw [rxStep, hc]
        simp only [h1]
      have e2 : rxStep rd { st with c := [p], conn := conn1 } =
          ({ st with c := [], conn := conn1 }, true) := by
        rw [rxStep]
        simp [hp]
      rw [rxRun_add rd 1 1 st _ (by rw [rxRun_one, e1]), rxRun_one, e2]
    obtain ⟨k, st', g1, g2, g3, g4⟩ := ih (fun x hx => hpad x (by simp [hx]))
      { st with c := [], conn := conn1 } b rest m hm rfl hR1
    exact ⟨2 + k, st', by rw [rxRun_add rd 2 k st _ hrun, g1], g2, g3, g4⟩

/-- C29 on a stream: a sequence of messages of any length, each preceded by any
fill characters, is received as exactly that sequence; nothing is lost, added
or reordered. -/
theorem stream_delivers {σ : Type} {rd : Reader σ} {R : σ → Bytes → Prop} (hd : Delivers rd R)
    (msgs : List (Bytes × Msg × Bytes))
    (hm : ∀ x ∈ msgs, x.2.1.encode = some x.2.2 ∧ ∀ c ∈ x.1, isStart c = false) :
    ∀ (st : RxState σ) (rest : Bytes), st.c = [] →
      R st.conn ((msgs.flatMap fun x => x.1 ++ x.2.2) ++ rest) →
      ∃ k st', rxRun rd k st = (st', true) ∧ st'.c = [] ∧ R st'.conn rest ∧
        st'.out = st.out ++ msgs.map fun x => .pkt ⟨x.2.1, true⟩ := by
  induction msgs with
  | nil =>
    intro st rest hc hR
    exact ⟨0, st, rfl, hc, hR, by simp⟩
  | cons x msgs ih =>
    intro st rest hc hR
    obtain ⟨h1, h2⟩ := hm x (by simp)
    rw [List.flatMap_cons, List.append_assoc] at hR
    obtain ⟨k1, st1, g1, g2, g3, g4⟩ := stream_next_sync hd x.1 h2 st x.2.2 _ x.2.1 h1 hc hR
    obtain ⟨k2, st2, f1, f2, f3, f4⟩ := ih (fun y hy => hm y (by simp [hy])) st1 rest g2 g3
    exact ⟨k1 + k2, st2, by rw [rxRun_add rd k1 k2 st st1 g1, f1], f2, f3, by rw [f4, g4]; simp⟩

/-- C30: what the sender puts on the connection, with or without Telnet
escapes, is received as the messages sent, in any segmentation of the
connection (`calls` says how many bytes each `recv` finds). -/
theorem connection_delivers (telnet : Bool) (msgs : List (Msg × Bytes))
    (hm : ∀ x ∈ msgs, x.1.encode = some x.2) (calls : List Nat)
    (hcalls : (msgs.flatMap fun x => sendBytes telnet x.2).length ≤ calls.length) (insync : Bool) :
    ∃ k st', rxRun (readbytes telnet recvall) k
        { c := [], conn := (msgs.flatMap fun x => sendBytes telnet x.2, calls), insync, out := [] } =
        (st', true) ∧ st'.out = msgs.map fun x => .pkt ⟨x.1, true⟩ := by
  have hd := readbytes_delivers recvall_delivers telnet
  cases telnet with
  | false =>
    obtain ⟨k, st', g1, _, _, g4⟩ := stream_delivers hd (msgs.map fun x => ([], x.1, x.2))
      (by
        intro x hx
        obtain ⟨y, hy, rfl⟩ := List.mem_map.1 hx
        exact ⟨hm y hy, by simp⟩)
      { c := [], conn := (msgs.flatMap fun x => sendBytes false x.2, calls), insync, out := [] } [] rfl
      (by
        simp only [Bool.false_eq_true, if_false, List.append_nil]
        have e : (msgs.map fun x => (([] : Bytes), x.1, x.2)).flatMap (fun x => x.1 ++ x.2.2) =
            msgs.flatMap fun x => sendBytes false x.2 := by
          rw [List.flatMap_map]
          simp [sendBytes]
        rw [e]
        exact ⟨rfl, hcalls⟩)
    exact ⟨k, st', g1, by rw [g4]; simp⟩
  | true =>
    -- the pad sent behind each message is the fill before the next
    have key : ∀ l : List (Msg × Bytes), (l.flatMap fun x => sendBytes true x.2) =
        escape (l.flatMap fun x => x.2 ++ [DEL]) := by
      intro l
      induction l with
      | nil => rfl
      | cons x l ih =>
        rw [List.flatMap_cons, List.flatMap_cons, escape_append, ih, escape_append]
        simp only [sendBytes, if_true]
        rfl
    have shift : ∀ l : List (Msg × Bytes), (∀ x ∈ l, x.1.encode = some x.2) → ∀ pad : Bytes,
        (∀ c ∈ pad, isStart c = false) → ∃ l' : List (Bytes × Msg × Bytes), ∃ rest : Bytes,
          (∀ x ∈ l', x.2.1.encode = some x.2.2 ∧ ∀ c ∈ x.1, isStart c = false) ∧
          l'.map (fun x => x.2.1) = l.map (·.1) ∧
          pad ++ (l.flatMap fun x => x.2 ++ [DEL]) = (l'.flatMap fun x => x.1 ++ x.2.2) ++ rest := by
      intro l
      induction l with
      | nil => intro _ pad _; exact ⟨[], pad, by simp, rfl, by simp⟩
      | cons x l ih =>
        intro hl pad hpad
        obtain ⟨l', rest, h1, h2, h3⟩ := ih (fun y hy => hl y (by simp [hy])) [DEL] (by decide)
        refine ⟨(pad, x.1, x.2) :: l', rest, ?_, ?_, ?_⟩
        · intro y hy
          rcases List.mem_cons.1 hy with rfl | hy
          · exact ⟨hl x (by simp), hpad⟩
          · exact h1 y hy
        · rw [List.map_cons, List.map_cons, h2]
        · rw [List.flatMap_cons, List.flatMap_cons]
          simp only [List.append_assoc] at h3 ⊢
          rw [h3]
    obtain ⟨l', rest, h1, h2, h3⟩ := shift msgs hm [] (by simp)
    rw [List.nil_append] at h3
    obtain ⟨k, st', g1, _, _, g4⟩ := stream_delivers hd l' h1
      { c := [], conn := (msgs.flatMap fun x => sendBytes true x.2, calls), insync, out := [] } rest rfl
      (by
        simp only [if_true]
        rw [← h3, ← key]
        exact ⟨rfl, hcalls⟩)
    refine ⟨k, st', g1, ?_⟩
    rw [g4, List.nil_append]
    have : (l'.map fun x => Out.pkt ⟨x.2.1, true⟩) = (l'.map fun x => x.2.1).map fun m => Out.pkt ⟨m, true⟩ := by
      rw [List.map_map]; rfl
    rw [this, h2, List.map_map]
    rfl

/-- C30: the Telnet reader returns exactly the bytes before escaping, for any
data and any sizes of the reads and of the pieces arriving. -/
theorem telnet_transparent (data : Bytes) (calls : List Nat)
    (hcalls : (escape data).length ≤ calls.length) (n : Nat) (hn : n ≤ data.length) :
    ∃ calls', readbytes true recvall n (escape data, calls) =
        some (data.take n, escape (data.drop n), calls') ∧
      (escape (data.drop n)).length ≤ calls'.length := by
  obtain ⟨⟨w, c⟩, h1, h2, h3⟩ := (readbytes_delivers recvall_delivers true).ok (escape data, calls)
    data n ⟨rfl, by simpa using hcalls⟩ hn
  simp only [if_true] at h2 h3
  refine ⟨c, ?_, h3⟩
  rw [h1, h2]

/-- C29: noise that contains no valid header never produces a message; at most
one header CRC error is reported. -/
theorem noise_never_delivered {σ : Type} {rd : Reader σ} {R : σ → Bytes → Prop}
    (hd : Delivers rd R) (k : Nat) : ∀ (st : RxState σ) (x : Bytes), R st.conn x →
      st.c.length ≤ 7 → (∀ j, ¬ ValidAt ((st.c ++ x).drop j)) →
      (rxRun rd k st).1.out = st.out ∨
        st.insync = true ∧ (rxRun rd k st).1.out = st.out ++ [.hcrc] := by
  induction k with
  | zero => intro st x _ _ _; exact Or.inl rfl
  | succ k ih =>
    intro st x hR hlen hno
    rw [rxRun]
    cases hc : st.c with
    | nil =>
      rcases Nat.lt_or_ge x.length 1 with h0 | h0
      · have : rxStep rd st = (st, false) := by
          rw [rxStep, hc]
          simp only [hd.eof _ _ 1 hR h0]
        rw [this]
        exact Or.inl rfl
      · obtain ⟨conn', h1, h2⟩ := hd.ok _ _ 1 hR h0
        have : rxStep rd st = ({ st with c := x.take 1, conn := conn' }, true) := by
          rw [rxStep, hc]
          simp only [h1]
        rw [this]
        exact ih { st with c := x.take 1, conn := conn' } (x.drop 1) h2
          (by simp only [List.length_take]; omega)
          (by intro j; simp only [List.take_append_drop]
              have := hno j
              rwa [hc, List.nil_append] at this)
    | cons h t =>
      have hshift : ∀ j, (t ++ x).drop j = (st.c ++ x).drop (j + 1) := by
        intro j; rw [hc, List.cons_append, List.drop_succ_cons]
      by_cases hs : isStart h = true
      · rcases Nat.lt_or_ge x.length (HDRLEN - st.c.length) with h0 | h0
        · have : rxStep rd st = (st, false) := by
            rw [rxStep, hc]
            simp only [hs, if_true]
            rw [← hc, hd.eof _ _ _ hR h0]
          rw [this]
          exact Or.inl rfl
        · obtain ⟨conn2, hrd, hR2⟩ := hd.ok _ _ (HDRLEN - st.c.length) hR h0
          set c8 := st.c ++ x.take (HDRLEN - st.c.length) with hc8
          have hc8' : c8 = (st.c ++ x).take HDRLEN := by
            rw [hc8, List.take_append, List.take_of_length_le (l := st.c) (by unfold HDRLEN; omega)]
          have hbad : CRC16.good c8 = false := by
            have h2 := hno 0
            rw [List.drop_zero] at h2
            by_contra hgg
            apply h2
            refine ⟨⟨h, t ++ x, by rw [hc]; rfl, hs⟩, ?_, ?_⟩
            · rw [List.length_append]; omega
            · rw [← hc8']; revert hgg; cases CRC16.good c8 <;> simp
          have htail : c8.tail ++ x.drop (HDRLEN - st.c.length) = t ++ x := by
            rw [hc8, hc, List.cons_append, List.tail_cons, List.append_assoc, List.take_append_drop]
          have hl7 : c8.tail.length ≤ 7 := by
            rw [hc8', List.length_tail, List.length_take]; unfold HDRLEN; omega
          by_cases hin : st.insync = true
          · have : rxStep rd st = (⟨c8.tail, conn2, false, st.out ++ [.hcrc]⟩, true) := by
              rw [rxStep, hc]
              simp only [hs, if_true]
              rw [← hc, hrd]
              simp only
              rw [← hc8, hbad, if_neg (by decide), if_pos hin]
            rw [this]
            rcases ih ⟨c8.tail, conn2, false, st.out ++ [.hcrc]⟩ (x.drop (HDRLEN - st.c.length)) hR2 hl7
                (by intro j; show ¬ ValidAt ((c8.tail ++ _).drop j)
                    rw [htail, hshift]; exact hno (j + 1)) with g | ⟨g, _⟩
            · exact Or.inr ⟨hin, g⟩
            · exact absurd g (by simp)
          · have : rxStep rd st = ({ st with c := c8.tail, conn := conn2 }, true) := by
              rw [rxStep, hc]
              simp only [hs, if_true]
              rw [← hc, hrd]
              simp only
              rw [← hc8, hbad, if_neg (by decide), if_neg hin]
            rw [this]
            exact ih { st with c := c8.tail, conn := conn2 } (x.drop (HDRLEN - st.c.length)) hR2 hl7
                (by intro j; show ¬ ValidAt ((c8.tail ++ _).drop j)
                    rw [htail, hshift]; exact hno (j + 1))
      · have : rxStep rd st = ({ st with c := t }, true) := by
          rw [rxStep, hc]
          simp only
          rw [if_neg hs]
        rw [this]
        exact ih { st with c := t } x hR
          (by show t.length ≤ 7; rw [hc] at hlen; simp only [List.length_cons] at hlen; omega)
          (by intro j; show ¬ ValidAt ((t ++ x).drop j); rw [hshift]; exact hno (j + 1))

/-! ## Cases -/

-- The STRT message as tests/test_ddcmp.py has it on the wire.
example : Msg.start.encode = some [0x05, 0x06, 0xc0, 0x00, 0x00, 0x01, 0x75, 0x95] := by
  decide +kernel
example : (Msg.data false false 5 6 [0xff, 1, 2]).encode.isSome = true := by decide +kernel
example : decode ((Msg.data true false 5 6 [0xff, 1, 2]).encode.getD []) =
    .ok ⟨.data true false 5 6 [0xff, 1, 2], true⟩ := by decide +kernel
example (p : Bytes) (h : p.length = 16384) : (Msg.data false false 5 6 p).encode = none := by
  rw [← Option.not_isSome_iff_eq_none, encodable]; simp [h]
-- Two messages over Telnet, arriving in pieces of 1, 2, 3 ... bytes.
example : ∃ b1 b2, Msg.start.encode = some b1 ∧ (Msg.maint [0xff, 0xff]).encode = some b2 ∧
    (sendBytes true b1 ++ sendBytes true b2).length ≤ (List.range 40).length :=
  ⟨_, _, rfl, rfl, by decide +kernel⟩
-- Noise without a valid header, in front of a message.
example : isStart 0 = false ∧ ¬ ValidAt [5, 1, 2, 3, 4, 5, 6, 7] := by
  refine ⟨by decide, ?_⟩
  rintro ⟨_, _, h⟩
  exact absurd h (by decide +kernel)
-- A burst in a header: the second byte changed.
example : ∃ pre a a' post,
    dataBits true (withCrc [0x05, 0x06, 0xc0, 0x00, 0x00, 0x01]) = pre ++ a ++ post ∧
    dataBits true [0x05, 0x07, 0xc0, 0x00, 0x00, 0x01, 0x75, 0x95] = pre ++ a' ++ post ∧
    a.length = a'.length ∧ a.length ≤ 16 ∧ a ≠ a' :=
  ⟨dataBits true [0x05], dataBits true [0x06], dataBits true [0x07],
    dataBits true [0xc0, 0x00, 0x00, 0x01, 0x75, 0x95],
    by decide +kernel, by decide +kernel, by decide +kernel, by decide +kernel, by decide +kernel⟩

end Verif.DdcmpFrame
