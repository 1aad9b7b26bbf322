import Verif.Framing.Lemmas
import Verif.Framing.Multinet
import Verif.DdcmpFrame.Lemmas
/-!
# Framing on Ethernet (C45), GRE (C46) and Multinet (C47)
-/
namespace Verif.Framing

namespace Eth

/-- A port after any history: created, then any sends (successful or refused), changes of its
address, multicast set and promiscuous mode. -/
inductive Reach (proto : Bytes) (pad : Bool) : Port → Prop where
  | new (mac : Bytes) : mac.length = 6 → Reach proto pad (newPort proto pad mac)
  | send {p : Port} (msg dest : Bytes) : Reach proto pad p → Reach proto pad (send p msg dest).1
  | set {p : Port} (mac : Bytes) (mc : List Bytes) (pr : Bool) : Reach proto pad p →
      mac.length = 6 →
      Reach proto pad { p with macaddr := mac, multicast := mc, promisc := pr }

theorem send_attrs (p : Port) (msg dest : Bytes) :
    (send p msg dest).1.proto = p.proto ∧ (send p msg dest).1.pad = p.pad := by
  unfold send
  split
  · exact ⟨rfl, rfl⟩
  · simp only
    split
    · split <;> exact ⟨rfl, rfl⟩
    · split <;> exact ⟨rfl, rfl⟩

theorem reach_good {proto : Bytes} {pad : Bool} (h2 : proto.length = 2) {p : Port}
    (h : Reach proto pad p) : Good p ∧ p.proto = proto ∧ p.pad = pad := by
  induction h with
  | new mac hm => exact ⟨newPort_good pad h2 hm, rfl, rfl⟩
  | send msg dest _ ih =>
    obtain ⟨a, b⟩ := send_attrs _ msg dest
    exact ⟨send_good ih.1 msg dest, a.trans ih.2.1, b.trans ih.2.2⟩
  | set mac mc pr _ hm ih => exact ⟨⟨ih.1.plen, hm, ih.1.shape⟩, ih.2.1, ih.2.2⟩

/-- A 6-byte address, 6-byte address and 2-byte type in front. -/
theorem parts {d s t rest : Bytes} (hd : d.length = 6) (hs : s.length = 6) (ht : t.length = 2) :
    (d ++ s ++ t ++ rest).take 6 = d ∧ ((d ++ s ++ t ++ rest).drop 6).take 6 = s ∧
    ((d ++ s ++ t ++ rest).drop 12).take 2 = t ∧ (d ++ s ++ t ++ rest).drop 14 = rest := by
  have e1 : d ++ s ++ t ++ rest = d ++ (s ++ (t ++ rest)) := by simp
  have e2 : (d ++ (s ++ (t ++ rest))).drop 12 = t ++ rest := by
    rw [← List.append_assoc, List.drop_append_of_le_length (by simp; omega)]
    rw [List.drop_of_length_le (by simp; omega)]; rfl
  refine ⟨?_, ?_, ?_, ?_⟩
  · rw [e1, List.take_left' hd]
  · rw [e1, List.drop_left' hd, List.take_left' hs]
  · rw [e1, e2, List.take_left' ht]
  · rw [List.drop_left']
    simp; omega

/-- A packet taken apart. -/
theorem parts_of (packet : Bytes) :
    packet = packet.take 6 ++ (packet.drop 6).take 6 ++ (packet.drop 12).take 2 ++
      packet.drop 14 := by
  have a1 : packet = packet.take 6 ++ packet.drop 6 := (List.take_append_drop 6 packet).symm
  have a2 : packet.drop 6 = (packet.drop 6).take 6 ++ packet.drop 12 := by
    have := (List.take_append_drop 6 (packet.drop 6)).symm
    rwa [List.drop_drop] at this
  have a3 : packet.drop 12 = (packet.drop 12).take 2 ++ packet.drop 14 := by
    have := (List.take_append_drop 2 (packet.drop 12)).symm
    rwa [List.drop_drop] at this
  calc packet = packet.take 6 ++ packet.drop 6 := a1
    _ = packet.take 6 ++ ((packet.drop 6).take 6 ++ packet.drop 12) := by rw [← a2]
    _ = packet.take 6 ++ ((packet.drop 6).take 6 ++
          ((packet.drop 12).take 2 ++ packet.drop 14)) := by rw [← a3]
    _ = _ := by simp

/-- What a frame with a protocol type has to look like for the payload to reach the owner of port
`q`: addressed to it, individual source address, and for a length-prefixed port a length no larger
than what is there. -/
structure FrameFor (q : Port) (packet src payload : Bytes) : Prop where
  cut : ∃ dest tail, packet = dest ++ src ++ q.proto ++ tail ∧ dest.length = 6 ∧
    (dest = q.macaddr ∨ q.promisc = true ∨ dest ∈ q.multicast) ∧
    (q.pad = true → ∃ a b rest, tail = [a, b] ++ payload ++ rest ∧
      a.toNat + b.toNat * 256 = payload.length) ∧
    (q.pad = false → tail = payload)
  srclen : src.length = 6
  individual : ∀ a l, src = a :: l → a.toNat % 2 = 0

theorem isMulti_false {src : Bytes} (h : src.length = 6) :
    isMulti src = false ↔ ∀ a l, src = a :: l → a.toNat % 2 = 0 := by
  cases src with
  | nil => simp at h
  | cons x xs =>
    simp only [isMulti, decide_eq_false_iff_not]
    constructor
    · intro hx a l hal
      cases hal
      omega
    · intro hx
      have := hx x xs rfl
      omega

theorem accepts_iff (p : Port) (dest : Bytes) :
    accepts p dest = true ↔ (dest = p.macaddr ∨ p.promisc = true ∨ dest ∈ p.multicast) := by
  simp [accepts, or_assoc]

/-- C45, reception: exactly the frames for the port are delivered to it, and the payload is what
the frame says. (Frames with a protocol type; `ports` are the ports of the datalink.) -/
theorem receive_iff {ports : List Port} (hp : ∀ p ∈ ports, p.proto.length = 2) {packet : Bytes}
    (ht : bytesLe ((packet.drop 12).take 2) [0x05, 0xdc] = false) {q : Port}
    {src payload : Bytes} :
    receive ports packet = .deliver q src payload ↔
      ports.find? (fun p => p.proto = (packet.drop 12).take 2) = some q ∧
      FrameFor q packet src payload := by
  have hlook : lookup ports packet =
      match ports.find? (fun p => p.proto = (packet.drop 12).take 2) with
      | none => some none
      | some p => some (some (p, packet.length - 14, 14)) := by
    simp only [lookup, ht]; rfl
  cases hf : ports.find? (fun p => p.proto = (packet.drop 12).take 2) with
  | none =>
    rw [hf] at hlook
    simp only [receive, hlook]
    split <;> simp
  | some p =>
    rw [hf] at hlook
    have hpm : p ∈ ports := List.mem_of_find?_eq_some hf
    have hpp : p.proto = (packet.drop 12).take 2 := by
      have := List.find?_some hf
      simpa using this
    have hp2 := hp p hpm
    have hlen : 14 ≤ packet.length := by
      rw [hpp] at hp2; simp at hp2; omega
    have hne : packet ≠ [] := by intro h; rw [h] at hlen; simp at hlen
    have hsl : ((packet.drop 6).take 6).length = 6 := by simp; omega
    have hdl : (packet.take 6).length = 6 := by simp; omega
    have hcut := parts_of packet
    rw [← hpp] at hcut
    simp only [receive, if_neg hne, hlook]
    rw [if_neg (by simp [hsl])]
    -- the pieces of any way of cutting the packet
    have uniq : ∀ d s tl, packet = d ++ s ++ p.proto ++ tl → d.length = 6 → s.length = 6 →
        d = packet.take 6 ∧ s = (packet.drop 6).take 6 ∧ tl = packet.drop 14 := by
      intro d s tl he h1 h2
      obtain ⟨x1, x2, _, x4⟩ := parts (rest := tl) h1 h2 hp2
      rw [← he] at x1 x2 x4
      exact ⟨x1.symm, x2.symm, x4.symm⟩
    by_cases hm : isMulti ((packet.drop 6).take 6) = true
    · rw [if_pos hm]
      constructor
      · intro h; cases h
      · rintro ⟨hq, ⟨d, tl, he, hd, _⟩, h2, h3⟩
        simp only [Option.some.injEq] at hq
        subst hq
        obtain ⟨_, x2, _⟩ := uniq d src tl he hd h2
        have := (isMulti_false h2).2 h3
        rw [x2, hm] at this
        cases this
    · rw [if_neg hm]
      have hmf : isMulti ((packet.drop 6).take 6) = false := by simpa using hm
      have hind := (isMulti_false hsl).1 hmf
      by_cases ha : accepts p (packet.take 6) = true
      · rw [if_pos ha]
        have ha' := (accepts_iff p _).1 ha
        cases hpad : p.pad with
        | false =>
          simp only [Bool.false_eq_true, if_false]
          have hpl : (packet.drop 14).take (packet.length - 14) = packet.drop 14 := by
            apply List.take_of_length_le; simp
          rw [hpl]
          constructor
          · intro h
            simp only [Rx.deliver.injEq] at h
            obtain ⟨rfl, rfl, rfl⟩ := h
            exact ⟨rfl, ⟨_, _, hcut, hdl, ha', by simp [hpad], by simp⟩, hsl, hind⟩
          · rintro ⟨hq, ⟨d, tl, he, hd, _, _, h5⟩, h2, _⟩
            simp only [Option.some.injEq] at hq
            subst hq
            obtain ⟨_, x2, x3⟩ := uniq d src tl he hd h2
            have := h5 hpad
            rw [← this, x2, x3]
        | true =>
          simp only [if_true]
          have h14 : packet[14]? = (packet.drop 14)[0]? := by rw [List.getElem?_drop]
          have h15 : packet[15]? = (packet.drop 14)[1]? := by rw [List.getElem?_drop]
          have h16 : packet.drop 16 = (packet.drop 14).drop 2 := by rw [List.drop_drop]
          have hl14 : (packet.drop 14).length = packet.length - 14 := by simp
          rw [h14, h15, h16]
          generalize htl : packet.drop 14 = tl at *
          match tl, hl14 with
          | [], _ =>
            constructor
            · intro h; simp at h
            · rintro ⟨hq, ⟨d, t2, he, hd, _, h4, _⟩, h2, _⟩
              simp only [Option.some.injEq] at hq
              subst hq
              obtain ⟨_, _, x3⟩ := uniq d src t2 he hd h2
              obtain ⟨a, b, r, h6, _⟩ := h4 hpad
              rw [x3] at h6; simp at h6
          | [x], _ =>
            constructor
            · intro h; simp at h
            · rintro ⟨hq, ⟨d, t2, he, hd, _, h4, _⟩, h2, _⟩
              simp only [Option.some.injEq] at hq
              subst hq
              obtain ⟨_, _, x3⟩ := uniq d src t2 he hd h2
              obtain ⟨a, b, r, h6, _⟩ := h4 hpad
              rw [x3] at h6; simp at h6
          | a :: b :: tl', hl14 =>
            simp only [List.getElem?_cons_zero, List.getElem?_cons_succ, List.drop_succ_cons,
              List.drop_zero]
            simp only [List.length_cons] at hl14
            by_cases hn : packet.length < a.toNat + b.toNat * 256 + 16
            · rw [if_pos hn]
              constructor
              · intro h; cases h
              · rintro ⟨hq, ⟨d, t2, he, hd, _, h4, _⟩, h2, _⟩
                simp only [Option.some.injEq] at hq
                subst hq
                obtain ⟨_, _, x3⟩ := uniq d src t2 he hd h2
                obtain ⟨a', b', r, h6, h7⟩ := h4 hpad
                rw [x3] at h6
                simp at h6
                obtain ⟨rfl, rfl, h6⟩ := h6
                rw [h6] at hl14
                simp at hl14
                omega
            · rw [if_neg hn]
              constructor
              · intro h
                simp only [Rx.deliver.injEq] at h
                obtain ⟨rfl, rfl, rfl⟩ := h
                refine ⟨rfl, ⟨_, _, hcut, hdl, ha', ?_, by simp [hpad]⟩, hsl, hind⟩
                intro _
                refine ⟨a, b, tl'.drop (a.toNat + b.toNat * 256), by simp, ?_⟩
                simp; omega
              · rintro ⟨hq, ⟨d, t2, he, hd, _, h4, _⟩, h2, _⟩
                simp only [Option.some.injEq] at hq
                subst hq
                obtain ⟨_, x2, x3⟩ := uniq d src t2 he hd h2
                obtain ⟨a', b', r, h6, h7⟩ := h4 hpad
                rw [x3] at h6
                simp at h6
                obtain ⟨rfl, rfl, h6⟩ := h6
                rw [h6, List.take_left' h7.symm, x2]
      · rw [if_neg ha]
        constructor
        · intro h; cases h
        · rintro ⟨hq, ⟨d, tl, he, hd, h4, _⟩, h2, h3⟩
          simp only [Option.some.injEq] at hq
          subst hq
          obtain ⟨x1, _, _⟩ := uniq d src tl he hd h2
          rw [x1, ← accepts_iff] at h4
          exact absurd h4 ha

/-- C45: whatever was sent through the port before, a message of up to 1498 bytes sent through a
length-prefixed port is received unchanged, with the sender's address, by any port for the same
protocol that accepts the destination; the frame has at least 60 and at most 1514 bytes, and any
further bytes at its end do no harm. -/
theorem eth_roundtrip {proto : Bytes} (h2 : proto.length = 2)
    (ht : bytesLe proto [0x05, 0xdc] = false) {p : Port} (hr : Reach proto true p)
    (hsrc : isMulti p.macaddr = false) {msg dest : Bytes} (hd : dest.length = 6)
    (hl : msg.length ≤ 1498) :
    ∃ p' frame, send p msg dest = (p', some frame) ∧ Reach proto true p' ∧
      60 ≤ frame.length ∧ frame.length ≤ 1514 ∧
      ∀ (ports : List Port) (q : Port) (extra : Bytes), (∀ p ∈ ports, p.proto.length = 2) →
        ports.find? (fun x => x.proto = proto) = some q → q.pad = true →
        (dest = q.macaddr ∨ q.promisc = true ∨ dest ∈ q.multicast) →
        receive ports (frame ++ extra) = .deliver q p.macaddr msg := by
  obtain ⟨hg, e1, e2⟩ := reach_good h2 hr
  obtain ⟨p', hs, _, _⟩ := send_pad hg e2 hd hl
  refine ⟨p', _, hs, ?_, ?_, ?_, ?_⟩
  · have := Reach.send msg dest hr
    rw [hs] at this; exact this
  · simp [fill, hd, hg.mlen, hg.plen]; omega
  · simp [fill, hd, hg.mlen, hg.plen]; omega
  · intro ports q extra hports hf hq ha
    have hq2 : q.proto = proto := by
      have := List.find?_some hf
      simpa using this
    rw [e1]
    generalize hfr : dest ++ p.macaddr ++ proto ++
      [UInt8.ofNat (msg.length % 256), UInt8.ofNat (msg.length / 256)] ++ msg ++
      fill (msg.length + 16) ++ extra = frame
    have hfr' : frame = dest ++ p.macaddr ++ proto ++
      ([UInt8.ofNat (msg.length % 256), UInt8.ofNat (msg.length / 256)] ++ msg ++
      (fill (msg.length + 16) ++ extra)) := by rw [← hfr]; simp
    obtain ⟨_, _, x3, _⟩ := parts (rest := [UInt8.ofNat (msg.length % 256),
      UInt8.ofNat (msg.length / 256)] ++ msg ++ (fill (msg.length + 16) ++ extra)) hd hg.mlen h2
    rw [← hfr'] at x3
    rw [receive_iff hports (by rw [x3]; exact ht), x3]
    refine ⟨hf, ⟨dest, _, by rw [hq2]; exact hfr', hd, ha, ?_, by simp [hq]⟩, hg.mlen,
      (isMulti_false hg.mlen).1 hsrc⟩
    intro _
    exact ⟨_, _, _, rfl, le16_split (by omega)⟩

/-- C45 for ports without a length: the payload arrives with the filling to the minimum length
behind it; of at least 46 bytes it arrives unchanged. -/
theorem eth_plain_roundtrip {proto : Bytes} (h2 : proto.length = 2)
    (ht : bytesLe proto [0x05, 0xdc] = false) {p : Port} (hr : Reach proto false p)
    (hsrc : isMulti p.macaddr = false) {msg dest : Bytes} (hd : dest.length = 6)
    (hl : msg.length ≤ 1500) :
    ∃ p' frame fillb, send p msg dest = (p', some frame) ∧ Reach proto false p' ∧
      fillb = List.replicate (46 - msg.length) 0x42 ∧
      ∀ (ports : List Port) (q : Port), (∀ p ∈ ports, p.proto.length = 2) →
        ports.find? (fun x => x.proto = proto) = some q → q.pad = false →
        (dest = q.macaddr ∨ q.promisc = true ∨ dest ∈ q.multicast) →
        receive ports frame = .deliver q p.macaddr (msg ++ fillb) := by
  obtain ⟨hg, e1, e2⟩ := reach_good h2 hr
  obtain ⟨p', hs, _, _⟩ := send_plain hg e2 hd hl
  refine ⟨p', _, _, hs, ?_, rfl, ?_⟩
  · have := Reach.send msg dest hr
    rw [hs] at this; exact this
  · intro ports q hports hf hq ha
    have hq2 : q.proto = proto := by
      have := List.find?_some hf
      simpa using this
    have hfill : fill (msg.length + 14) = List.replicate (46 - msg.length) 0x42 := by
      unfold fill; congr 1; omega
    rw [e1, hfill]
    have hfr : dest ++ p.macaddr ++ proto ++ msg ++ List.replicate (46 - msg.length) 0x42 =
      dest ++ p.macaddr ++ proto ++ (msg ++ List.replicate (46 - msg.length) 0x42) := by simp
    rw [hfr]
    obtain ⟨_, _, x3, _⟩ := parts (rest := msg ++ List.replicate (46 - msg.length) 0x42)
      hd hg.mlen h2
    rw [receive_iff hports (by rw [x3]; exact ht), x3]
    exact ⟨hf, ⟨dest, _, by rw [hq2], hd, ha, by simp [hq], by simp⟩, hg.mlen,
      (isMulti_false hg.mlen).1 hsrc⟩

/-- Too long or badly addressed messages are refused, not truncated. -/
theorem eth_refused (p : Port) (msg dest : Bytes)
    (h : dest.length ≠ 6 ∨ (p.pad = true ∧ 1498 < msg.length) ∨ 1500 < msg.length) :
    (send p msg dest).2 = none := by
  unfold send
  by_cases hd : dest.length ≠ 6
  · rw [if_pos hd]
  · rw [if_neg hd]
    simp only
    rcases h with h | h | h
    · exact absurd h hd
    · rw [if_pos h.1, if_pos h.2]
    · by_cases hp : p.pad = true
      · rw [if_pos hp, if_pos (by omega)]
      · rw [if_neg hp, if_pos h]

/-- Only a frame of fewer than 16 bytes can raise an exception in the receive thread. -/
theorem receive_error_short {ports : List Port} {packet : Bytes}
    (h : receive ports packet = .error) : packet.length < 16 := by
  rcases Nat.lt_or_ge packet.length 16 with hlt | hge
  · exact hlt
  · exfalso
    obtain ⟨a, ha⟩ : ∃ a, packet[14]? = some a := ⟨packet[14], by simp⟩
    obtain ⟨b, hb⟩ : ∃ b, packet[15]? = some b := ⟨packet[15], by simp⟩
    have hsl : ((packet.drop 6).take 6).length = 6 := by simp; omega
    have hlook : ∃ x, lookup ports packet = some x := by
      simp only [lookup, ha]
      split
      · split <;> exact ⟨_, rfl⟩
      · split <;> exact ⟨_, rfl⟩
    obtain ⟨x, hx⟩ := hlook
    simp only [receive, hx] at h
    by_cases hne : packet = []
    · rw [hne] at hge; simp at hge
    · rw [if_neg hne] at h
      cases x with
      | none => simp at h
      | some y =>
        obtain ⟨p, n, st⟩ := y
        simp only at h
        rw [if_neg (by simp [hsl])] at h
        by_cases hm : isMulti ((packet.drop 6).take 6) = true
        · rw [if_pos hm] at h; cases h
        · rw [if_neg hm] at h
          by_cases hac : accepts p (packet.take 6) = true
          · rw [if_pos hac] at h
            by_cases hpd : p.pad = true
            · rw [if_pos hpd, ha, hb] at h
              simp only at h
              split at h <;> cases h
            · rw [if_neg hpd] at h; cases h
          · rw [if_neg hac] at h; cases h

/-- And one does: a 14-byte frame for the routing protocol ends the receive thread. -/
theorem runt_ends_thread :
    receive [newPort [0x60, 0x03] true [0xaa, 0, 4, 0, 1, 4]]
      [0xaa, 0, 4, 0, 1, 4, 0xaa, 0, 4, 0, 2, 4, 0x60, 0x03] = .error := by decide +kernel

/-- An 802.3 frame hands up to three bytes behind the data to the owner of the SAP, because the
length in the frame counts the LLC header: here the frame says three bytes of header and none of
data, and three bytes of filling are delivered. -/
theorem sap_payload_overrun :
    receive [{ newPort [0x60, 0x03] false [0xaa, 0, 4, 0, 1, 4] with sap := some 0xfe }]
      ([0xaa, 0, 4, 0, 1, 4, 0xaa, 0, 4, 0, 2, 4, 0, 3, 0xfe, 0xfe, 3] ++
        List.replicate 43 0x42) =
      .deliver { newPort [0x60, 0x03] false [0xaa, 0, 4, 0, 1, 4] with sap := some 0xfe }
        [0xaa, 0, 4, 0, 2, 4] [0x42, 0x42, 0x42] := by decide +kernel

/-- The hypotheses of `eth_roundtrip` are met, with an earlier longer message in the buffer. -/
example : ∃ p' frame,
    send (send (newPort [0x60, 0x03] true [0xaa, 0, 4, 0, 1, 4])
      (List.replicate 70 7) [0xaa, 0, 4, 0, 2, 4]).1 [1, 2, 3] [0xab, 0, 0, 3, 0, 0] =
        (p', some frame) ∧
    receive [{ newPort [0x60, 0x03] true [0xaa, 0, 4, 0, 2, 4] with
        multicast := [[0xab, 0, 0, 3, 0, 0]] }] frame =
      .deliver { newPort [0x60, 0x03] true [0xaa, 0, 4, 0, 2, 4] with
        multicast := [[0xab, 0, 0, 3, 0, 0]] } [0xaa, 0, 4, 0, 1, 4] [1, 2, 3] :=
  ⟨_, _, rfl, by decide +kernel⟩

end Eth

namespace Gre

/-- A port after any sends. -/
inductive Reach (proto : Bytes) (pad : Bool) : Port → Prop where
  | new : Reach proto pad (newPort proto pad)
  | send {p : Port} (msg : Bytes) : Reach proto pad p → Reach proto pad (send p msg).1

/-- The buffer keeps its size and header. -/
theorem reach_shape {proto : Bytes} {pad : Bool} (h2 : proto.length = 2) {p : Port}
    (h : Reach proto pad p) : p.proto = proto ∧ p.pad = pad ∧
      ∃ c, p.frame = [0, 0] ++ proto ++ c ∧ c.length = 1500 := by
  induction h with
  | new =>
    refine ⟨rfl, rfl, List.replicate 1500 0, ?_, List.length_replicate⟩
    have e1 : setSlice (List.replicate 1504 0) 0 [0, 0] = [] ++ [0, 0] ++ List.replicate 1502 0 :=
      setSlice_mid (b := [0, 0]) (by decide +kernel) rfl rfl
    exact setSlice_mid (b := [0, 0]) (a := [0, 0]) (c := List.replicate 1500 0)
      (by rw [e1]; decide +kernel) rfl (by simp [h2])
  | @send p msg _ ih =>
    obtain ⟨i1, i2, c, i3, i4⟩ := ih
    unfold send
    cases hp : p.pad with
    | true =>
      simp only [if_true]
      by_cases hl : msg.length > 1498
      · rw [if_pos hl]; exact ⟨i1, i2, c, i3, i4⟩
      · rw [if_neg hl]
        refine ⟨i1, hp.symm.trans i2, ?_⟩
        obtain ⟨c1, c2, rfl, hc1⟩ := cut c 2 (by omega)
        have hc2 : c2.length = 1498 := by simp at i4; omega
        obtain ⟨d1, d2, rfl, hd1⟩ := cut c2 msg.length (by omega)
        have e1 := setSlice_mid (f := p.frame) (a := [0, 0] ++ proto) (b := c1) (c := d1 ++ d2)
          (x := [UInt8.ofNat (msg.length % 256), UInt8.ofNat (msg.length / 256)]) (i := 4)
          (by rw [i3]; simp) (by simp [h2]) (by simp [hc1])
        have e2 := setSlice_mid (f := setSlice p.frame 4
            [UInt8.ofNat (msg.length % 256), UInt8.ofNat (msg.length / 256)])
          (a := [0, 0] ++ proto ++
            [UInt8.ofNat (msg.length % 256), UInt8.ofNat (msg.length / 256)]) (b := d1) (c := d2)
          (x := msg) (i := 6) (by rw [e1]; simp) (by simp [h2]) hd1
        refine ⟨[UInt8.ofNat (msg.length % 256), UInt8.ofNat (msg.length / 256)] ++ msg ++ d2,
          by simp only [e2]; simp, ?_⟩
        simp at hc2 ⊢; omega
    | false =>
      simp only [Bool.false_eq_true, if_false]
      by_cases hl : msg.length > 1500
      · rw [if_pos hl]; exact ⟨i1, i2, c, i3, i4⟩
      · rw [if_neg hl]
        refine ⟨i1, hp.symm.trans i2, ?_⟩
        obtain ⟨d1, d2, rfl, hd1⟩ := cut c msg.length (by omega)
        have e1 := setSlice_mid (f := p.frame) (a := [0, 0] ++ proto) (b := d1) (c := d2)
          (x := msg) (i := 4) (by rw [i3]; simp) (by simp [h2]) hd1
        refine ⟨msg ++ d2, by simp only [e1]; simp, ?_⟩
        simp at i4 ⊢; omega

/-- What a length-prefixed port puts on the wire. -/
theorem send_pad {proto : Bytes} (h2 : proto.length = 2) {p : Port} (h : Reach proto true p)
    {msg : Bytes} (hl : msg.length ≤ 1498) :
    (send p msg).2 = some ([0, 0] ++ proto ++
      [UInt8.ofNat (msg.length % 256), UInt8.ofNat (msg.length / 256)] ++ msg) := by
  obtain ⟨i1, i2, c, i3, i4⟩ := reach_shape h2 h
  obtain ⟨c1, c2, rfl, hc1⟩ := cut c 2 (by omega)
  have hc2 : c2.length = 1498 := by simp at i4; omega
  obtain ⟨d1, d2, rfl, hd1⟩ := cut c2 msg.length (by omega)
  have e1 := setSlice_mid (f := p.frame) (a := [0, 0] ++ proto) (b := c1) (c := d1 ++ d2)
    (x := [UInt8.ofNat (msg.length % 256), UInt8.ofNat (msg.length / 256)]) (i := 4)
    (by rw [i3]; simp) (by simp [h2]) (by simp [hc1])
  have e2 := setSlice_mid (f := setSlice p.frame 4
            [UInt8.ofNat (msg.length % 256), UInt8.ofNat (msg.length / 256)])
          (a := [0, 0] ++ proto ++
      [UInt8.ofNat (msg.length % 256), UInt8.ofNat (msg.length / 256)]) (b := d1) (c := d2)
    (x := msg) (i := 6) (by rw [e1]; simp) (by simp [h2]) hd1
  unfold send
  simp only [i2, if_true]
  rw [if_neg (by omega)]
  simp only [e2]
  rw [List.take_left']
  simp [h2]; omega

/-- What another port puts on the wire. -/
theorem send_plain {proto : Bytes} (h2 : proto.length = 2) {p : Port} (h : Reach proto false p)
    {msg : Bytes} (hl : msg.length ≤ 1500) :
    (send p msg).2 = some ([0, 0] ++ proto ++ msg) := by
  obtain ⟨i1, i2, c, i3, i4⟩ := reach_shape h2 h
  obtain ⟨d1, d2, rfl, hd1⟩ := cut c msg.length (by omega)
  have e1 := setSlice_mid (f := p.frame) (a := [0, 0] ++ proto) (b := d1) (c := d2)
    (x := msg) (i := 4) (by rw [i3]; simp) (by simp [h2]) hd1
  unfold send
  simp only [i2, Bool.false_eq_true, if_false]
  rw [if_neg (by omega)]
  simp only [e1]
  rw [List.take_left']
  simp [h2]; omega

/-- What is in front of the GRE header: nothing, or an IPv4 header with or without options. -/
def IpHdr (skip : Bool) (ip : Bytes) : Prop :=
  if skip then ∃ a rest, ip = a :: rest ∧ a.toNat / 16 = 4 ∧ ip.length = 4 * (a.toNat % 16)
  else ip = []

theorem hdrPos_of {skip : Bool} {ip rest : Bytes} (h : IpHdr skip ip) :
    hdrPos skip (ip ++ rest) = some ip.length := by
  cases skip with
  | false => simp [IpHdr] at h; simp [hdrPos, h]
  | true =>
    obtain ⟨a, r, h1, h2, h3⟩ := h
    rw [h1] at h3 ⊢
    simp [hdrPos, h2, h3]

/-- Reception of a datagram from the peer for a length-prefixed port, in terms of the bytes of the
datagram. -/
theorem gre_receive {skip : Bool} {ip : Bytes} (hip : IpHdr skip ip) {ports : List Port} {q : Port}
    {proto : Bytes} (h2 : proto.length = 2)
    (hq : ports.find? (fun p => p.proto = proto) = some q) (hpad : q.pad = true)
    (a b : UInt8) (data : Bytes) :
    receive skip true ports (ip ++ ([0, 0] ++ proto ++ [a, b] ++ data)) =
      if data.length + 2 < a.toNat + b.toNat * 256 then .ignore
      else .deliver q (data.take (a.toNat + b.toNat * 256)) := by
  obtain ⟨x, y, rfl⟩ := len2 h2
  unfold receive
  rw [if_neg (by simp; omega), if_neg (by simp), hdrPos_of hip]
  have d0 : ∀ k, (ip ++ ([0, 0] ++ [x, y] ++ [a, b] ++ data)).drop (ip.length + k) =
      ([0, 0] ++ [x, y] ++ [a, b] ++ data).drop k := by
    intro k; rw [← List.drop_drop]; simp
  have d00 := d0 0
  rw [Nat.add_zero] at d00
  have g : ∀ k, (ip ++ ([0, 0] ++ [x, y] ++ [a, b] ++ data))[ip.length + k]? =
      ([0, 0] ++ [x, y] ++ [a, b] ++ data)[k]? := by
    intro k
    rw [List.getElem?_append_right (by omega)]
    congr 1; omega
  simp only [d00, d0, g]
  simp only [List.cons_append, List.nil_append, List.drop_zero, List.take_succ_cons, List.take_zero,
    List.drop_succ_cons, ne_eq, not_true, if_false, hq, hpad, if_true, List.getElem?_cons_succ,
    List.getElem?_cons_zero]
  simp only [List.length_append, List.length_cons]
  by_cases hc : data.length + 2 < a.toNat + b.toNat * 256
  · rw [if_pos hc, if_pos (by omega)]
  · rw [if_neg hc, if_neg (by omega)]

/-- C46: a message of up to 1498 bytes sent through a GRE port arrives unchanged, whatever was sent
before and whatever IP header the datagram comes with. -/
theorem gre_roundtrip {proto : Bytes} (h2 : proto.length = 2) {p : Port} (hr : Reach proto true p)
    {msg : Bytes} (hl : msg.length ≤ 1498) :
    ∃ frame, (send p msg).2 = some frame ∧
      ∀ (skip : Bool) (ip : Bytes), IpHdr skip ip → ∀ (ports : List Port) (q : Port),
        ports.find? (fun x => x.proto = proto) = some q → q.pad = true →
        receive skip true ports (ip ++ frame) = .deliver q msg := by
  refine ⟨_, send_pad h2 hr hl, ?_⟩
  intro skip ip hip ports q hq hpad
  rw [gre_receive hip h2 hq hpad, le16_split (by omega), if_neg (by omega)]
  simp

/-- The same without the length field, except that an empty message without an IP header in front
is taken for a runt. -/
theorem gre_plain_roundtrip {proto : Bytes} (h2 : proto.length = 2) {p : Port}
    (hr : Reach proto false p) {msg : Bytes} (hl : msg.length ≤ 1500) :
    ∃ frame, (send p msg).2 = some frame ∧
      ∀ (skip : Bool) (ip : Bytes), IpHdr skip ip → (skip = true ∨ msg ≠ []) →
        ∀ (ports : List Port) (q : Port),
        ports.find? (fun x => x.proto = proto) = some q → q.pad = false →
        receive skip true ports (ip ++ frame) = .deliver q msg := by
  refine ⟨_, send_plain h2 hr hl, ?_⟩
  intro skip ip hip hne ports q hq hpad
  obtain ⟨x, y, rfl⟩ := len2 h2
  have hlen : 0 < ip.length ∨ 0 < msg.length := by
    rcases hne with rfl | h
    · obtain ⟨a, r, h1, _, _⟩ := hip
      left; rw [h1]; simp
    · right; exact List.length_pos_iff.2 h
  unfold receive
  rw [if_neg (by simp; omega), if_neg (by simp), hdrPos_of hip]
  have d0 : ∀ k, (ip ++ ([0, 0] ++ [x, y] ++ msg)).drop (ip.length + k) =
      ([0, 0] ++ [x, y] ++ msg).drop k := by
    intro k; rw [← List.drop_drop]; simp
  have d00 := d0 0
  rw [Nat.add_zero] at d00
  simp only [d00, d0]
  simp [hq, hpad]

/-- C46: a length field exceeding the data present by more than two is dropped, one that does not
exceed it gives exactly that many bytes. The length check counts the length field itself, so the
full claim fails for an excess of one or two, see `gre_short_accepted`. -/
theorem gre_length_partial {skip : Bool} {ip : Bytes} (hip : IpHdr skip ip) {ports : List Port}
    {q : Port} {proto : Bytes} (h2 : proto.length = 2)
    (hq : ports.find? (fun p => p.proto = proto) = some q) (hpad : q.pad = true)
    (a b : UInt8) (data : Bytes) :
    (data.length + 2 < a.toNat + b.toNat * 256 →
      receive skip true ports (ip ++ ([0, 0] ++ proto ++ [a, b] ++ data)) = .ignore) ∧
    (a.toNat + b.toNat * 256 ≤ data.length →
      ∃ payload rest, data = payload ++ rest ∧ payload.length = a.toNat + b.toNat * 256 ∧
        receive skip true ports (ip ++ ([0, 0] ++ proto ++ [a, b] ++ data)) =
          .deliver q payload) := by
  rw [gre_receive hip h2 hq hpad]
  constructor
  · intro h; rw [if_pos h]
  · intro h
    rw [if_neg (by omega)]
    exact ⟨_, _, (List.take_append_drop _ data).symm, by simp; omega, rfl⟩

/-- A datagram whose length field says three when one byte is there is delivered. -/
theorem gre_short_accepted : ∃ (ports : List Port) (q : Port),
    receive false true ports ([0, 0] ++ [0x60, 0x03] ++ [3, 0] ++ [9]) = .deliver q [9] :=
  ⟨[newPort [0x60, 0x03] true], newPort [0x60, 0x03] true, by decide +kernel⟩

/-- Nothing is delivered unless it comes from the peer with a zero GRE header and the protocol type
of a port. -/
theorem gre_receive_only {skip fromPeer : Bool} {ports : List Port} {msg : Bytes} {q : Port}
    {payload : Bytes} (h : receive skip fromPeer ports msg = .deliver q payload) :
    fromPeer = true ∧ ∃ pos, hdrPos skip msg = some pos ∧ (msg.drop pos).take 2 = [0, 0] ∧
      q ∈ ports ∧ q.proto = (msg.drop (pos + 2)).take 2 := by
  unfold receive at h
  by_cases h1 : msg.length ≤ 4
  · rw [if_pos h1] at h; cases h
  · rw [if_neg h1] at h
    cases fromPeer with
    | false => simp at h
    | true =>
      refine ⟨rfl, ?_⟩
      rw [if_neg (by simp)] at h
      cases hp : hdrPos skip msg with
      | none => rw [hp] at h; cases h
      | some pos =>
        rw [hp] at h
        simp only at h
        by_cases hz : (msg.drop pos).take 2 = [0, 0]
        · rw [if_neg (by simp [hz])] at h
          cases hf : ports.find? (fun p => p.proto = (msg.drop (pos + 2)).take 2) with
          | none => rw [hf] at h; cases h
          | some p =>
            rw [hf] at h
            simp only at h
            have hpq : p = q := by
              by_cases hpd : p.pad = true
              · rw [if_pos hpd] at h
                split at h
                · split at h
                  · cases h
                  · cases h; rfl
                · cases h
              · rw [if_neg hpd] at h; cases h; rfl
            subst hpq
            refine ⟨pos, rfl, hz, List.mem_of_find?_eq_some hf, ?_⟩
            have := List.find?_some hf
            simpa using this
        · rw [if_pos hz] at h; cases h

/-- A five-byte datagram from the peer ends the receive thread. -/
theorem gre_runt_ends_thread :
    receive false true [newPort [0x60, 0x03] true] [0, 0, 0x60, 0x03, 0] = .error := by
  decide +kernel

/-- The hypotheses can be met: a message after a longer one, behind an IPv4 header. -/
example : receive true true [newPort [0x60, 0x03] true]
    ((0x45 :: List.replicate 19 0) ++
      ((send (send (newPort [0x60, 0x03] true) [9, 9, 9, 9]).1 [1, 2]).2.getD [])) =
    .deliver (newPort [0x60, 0x03] true) [1, 2] := by decide +kernel

end Gre

namespace Multinet
open Verif.DdcmpFrame (recvall recvall_delivers)

/-- The messages taken whole by the socket, up to the first one that was not. -/
def whole : List (Nat × Bytes) → List Bytes
  | [] => []
  | (room, msg) :: l => if msg.length + 4 ≤ room then msg :: whole l else []

theorem receiveLoop_cons {fuel : Nat} {msg rest : Bytes} (hm : msg.length < 65536)
    {wire : Bytes} {calls : List Nat}
    (hw : wire = [UInt8.ofNat (msg.length % 256), UInt8.ofNat (msg.length / 256), 0, 0] ++ msg ++ rest)
    (hc : wire.length ≤ calls.length) :
    ∃ calls', rest.length ≤ calls'.length ∧ receiveLoop (fuel + 1) (wire, calls) =
      (msg :: (receiveLoop fuel (rest, calls')).1, (receiveLoop fuel (rest, calls')).2) := by
  have hd := recvall_delivers
  obtain ⟨⟨w1, c1⟩, g1, g2, g3⟩ := hd.ok (wire, calls) wire 4 ⟨rfl, hc⟩ (by rw [hw]; simp)
  replace g2 : w1 = wire.drop 4 := g2
  have hw1 : w1 = msg ++ rest := by
    rw [g2, hw]; rfl
  have ht : wire.take 4 =
      [UInt8.ofNat (msg.length % 256), UInt8.ofNat (msg.length / 256), 0, 0] := by
    rw [hw]; rfl
  have hd4 : wire.drop 4 = msg ++ rest := by rw [hw]; rfl
  rw [hd4] at g3
  obtain ⟨⟨w2, c2⟩, k1, k2, k3⟩ := hd.ok (w1, c1) w1 msg.length ⟨rfl, by rw [hw1]; exact g3⟩
    (by rw [hw1]; simp)
  have k2 : w2 = w1.drop msg.length := k2
  have hdr : w1.drop msg.length = rest := by rw [hw1]; simp
  rw [hdr] at k2 k3
  subst k2
  refine ⟨c2, k3, ?_⟩
  rw [receiveLoop, g1, ht]
  simp only [le16_split hm, k1]
  have : w1.take msg.length = msg := by rw [hw1]; simp
  rw [this]

/-- The receiver never gets further than what was put in the stream: for enough turns of the loop,
the messages before the first one the socket did not take whole all arrive, in order, unchanged. -/
theorem whole_delivered (sends : List (Nat × Bytes)) :
    ∀ {wire : Bytes}, stream sends = some wire → ∀ (tail : Bytes) (calls : List Nat),
      (wire ++ tail).length ≤ calls.length → ∀ fuel, (whole sends).length ≤ fuel →
      ∃ more fin, receiveLoop fuel (wire ++ tail, calls) = (whole sends ++ more, fin) := by
  induction sends with
  | nil => intro wire _ tail calls _ fuel _; exact ⟨_, _, rfl⟩
  | cons x l ih =>
    obtain ⟨room, msg⟩ := x
    intro wire hs tail calls hc fuel hf
    simp only [stream, sendTcp, frame] at hs
    by_cases hl : msg.length < 65536
    · rw [if_pos hl] at hs
      simp only [Option.map_some] at hs
      cases hs2 : stream l with
      | none => rw [hs2] at hs; cases hs
      | some w2 =>
        rw [hs2] at hs
        simp only [Option.some.injEq] at hs
        unfold whole
        by_cases hr : msg.length + 4 ≤ room
        · rw [if_pos hr]
          rw [List.take_of_length_le (by simp; omega)] at hs
          rw [whole, if_pos hr] at hf
          obtain ⟨f, rfl⟩ : ∃ f, fuel = f + 1 := ⟨fuel - 1, by simp at hf; omega⟩
          obtain ⟨c', q1, q2⟩ := receiveLoop_cons (fuel := f) hl (wire := wire ++ tail)
            (rest := w2 ++ tail) (calls := calls) (by rw [← hs]; simp) hc
          obtain ⟨more, fin, q3⟩ := ih hs2 tail c' q1 f (by simp at hf; omega)
          rw [q2, q3]
          exact ⟨more, fin, by simp⟩
        · rw [if_neg hr]
          exact ⟨_, _, rfl⟩
    · rw [if_neg hl] at hs
      simp at hs

/-- C47: when the socket takes every message whole, the receiver gets exactly the messages sent,
in order and unchanged, however the stream is cut into pieces, and then waits for more (the loop
ends only when the connection does). Whatever bytes follow, these messages come first. The full
claim fails when the socket takes only part of a message, see `short_send_garbles`. -/
theorem multinet_delivers_partial (sends : List (Nat × Bytes))
    (hroom : ∀ x ∈ sends, x.2.length + 4 ≤ x.1) {wire : Bytes} (hs : stream sends = some wire)
    (calls : List Nat) (hc : wire.length ≤ calls.length) :
    receiveLoop (sends.length + 1) (wire, calls) = (sends.map (·.2), true) ∧
    ∀ tail calls', (wire ++ tail).length ≤ calls'.length →
      ∃ more fin, receiveLoop (sends.length + 1) (wire ++ tail, calls') =
        (sends.map (·.2) ++ more, fin) := by
  have hw : whole sends = sends.map (·.2) := by
    clear hs hc
    induction sends with
    | nil => rfl
    | cons x l ih =>
      obtain ⟨room, msg⟩ := x
      have h1 := hroom _ (List.mem_cons_self)
      simp only at h1
      simp only [whole, if_pos h1, List.map_cons]
      rw [ih (fun y hy => hroom y (List.mem_cons_of_mem _ hy))]
  refine ⟨?_, ?_⟩
  · clear hw
    induction sends generalizing wire calls with
    | nil =>
      simp only [stream, Option.some.injEq] at hs
      subst hs
      have := recvall_delivers.eof (([] : Bytes), calls) [] 4 ⟨rfl, by simp⟩ (by simp)
      simp [receiveLoop, this]
    | cons x l ih =>
      obtain ⟨room, msg⟩ := x
      simp only [stream, sendTcp, frame] at hs
      by_cases hl : msg.length < 65536
      · rw [if_pos hl] at hs
        simp only [Option.map_some] at hs
        cases hs2 : stream l with
        | none => rw [hs2] at hs; cases hs
        | some w2 =>
          rw [hs2] at hs
          simp only [Option.some.injEq] at hs
          have hr := hroom (room, msg) List.mem_cons_self
          simp only at hr
          rw [List.take_of_length_le (by simp; omega)] at hs
          obtain ⟨c', q1, q2⟩ := receiveLoop_cons (fuel := l.length + 1) hl (wire := wire)
            (rest := w2) (calls := calls) (by rw [← hs]) hc
          have q3 := ih (fun y hy => hroom y (List.mem_cons_of_mem _ hy)) hs2 c' q1
          rw [List.length_cons, q2, q3]
          simp
      · rw [if_neg hl] at hs; simp at hs
  · intro tail calls' hc'
    obtain ⟨more, fin, h⟩ := whole_delivered sends hs tail calls' hc' (sends.length + 1)
      (by rw [hw]; simp)
    rw [hw] at h
    exact ⟨more, fin, h⟩

/-- C47: a stream broken off anywhere gives a prefix of the messages sent, followed by the end of
the connection. -/
theorem broken_stream_prefix (sends : List (Nat × Bytes))
    (hroom : ∀ x ∈ sends, x.2.length + 4 ≤ x.1) {wire : Bytes} (hs : stream sends = some wire)
    (n : Nat) (calls : List Nat) (hc : (wire.take n).length ≤ calls.length) :
    ∃ got rest, sends.map (·.2) = got ++ rest ∧
      receiveLoop (sends.length + 1) (wire.take n, calls) = (got, true) := by
  induction sends generalizing wire calls n with
  | nil =>
    simp only [stream, Option.some.injEq] at hs
    subst hs
    have := recvall_delivers.eof (([] : Bytes), calls) [] 4 ⟨rfl, by simp⟩ (by simp)
    exact ⟨[], [], rfl, by simp [receiveLoop, this]⟩
  | cons x l ih =>
    obtain ⟨room, msg⟩ := x
    simp only [stream, sendTcp, frame] at hs
    by_cases hl : msg.length < 65536
    · rw [if_pos hl] at hs
      simp only [Option.map_some] at hs
      cases hs2 : stream l with
      | none => rw [hs2] at hs; cases hs
      | some w2 =>
        rw [hs2] at hs
        simp only [Option.some.injEq] at hs
        have hr := hroom (room, msg) List.mem_cons_self
        simp only at hr
        rw [List.take_of_length_le (by simp; omega)] at hs
        by_cases hn : msg.length + 4 ≤ n
        · -- the first message is there
          have hcut : wire.take n = [UInt8.ofNat (msg.length % 256), UInt8.ofNat (msg.length / 256),
              0, 0] ++ msg ++ w2.take (n - (msg.length + 4)) := by
            rw [← hs, List.take_append, List.take_of_length_le (by simp; omega)]
            simp
          obtain ⟨c', q1, q2⟩ := receiveLoop_cons (fuel := l.length + 1) hl (wire := wire.take n)
            (rest := w2.take (n - (msg.length + 4))) (calls := calls) hcut hc
          obtain ⟨got, rest, g1, g2⟩ := ih (fun y hy => hroom y (List.mem_cons_of_mem _ hy)) hs2
            (n - (msg.length + 4)) c' q1
          refine ⟨msg :: got, rest, by simp [g1], ?_⟩
          rw [List.length_cons, q2, g2]
        · refine ⟨[], (msg :: l.map (·.2)), rfl, ?_⟩
          have hlen : (wire.take n).length < msg.length + 4 := by simp; omega
          by_cases h4 : (wire.take n).length < 4
          · have := recvall_delivers.eof (wire.take n, calls) (wire.take n) 4 ⟨rfl, hc⟩ h4
            simp [receiveLoop, this]
          · obtain ⟨⟨w1, c1⟩, g1, g2, g3⟩ := recvall_delivers.ok (wire.take n, calls)
              (wire.take n) 4 ⟨rfl, hc⟩ (by omega)
            have ht : (wire.take n).take 4 =
                [UInt8.ofNat (msg.length % 256), UInt8.ofNat (msg.length / 256), 0, 0] := by
              rw [List.take_take, ← hs]
              have : min 4 n = 4 := by simp at h4; omega
              rw [this]; rfl
            have g2 : w1 = (wire.take n).drop 4 := g2
            have hshort : w1.length < msg.length := by
              rw [g2, List.length_drop]; omega
            have := recvall_delivers.eof (w1, c1) w1 msg.length ⟨rfl, by rw [g2]; exact g3⟩ hshort
            simp only [receiveLoop, g1, ht, le16_split hl, this]
    · rw [if_neg hl] at hs; simp at hs

/-- When the socket takes only part of a message the rest is never sent and the next message is
read as its continuation: two messages are sent, the socket takes five bytes of the first, and the
receiver gets two messages that nobody sent. -/
theorem short_send_garbles :
    ∃ wire, stream [(5, [1, 2, 3]), (100, [4, 5, 6])] = some wire ∧
      receiveLoop 3 (wire, List.replicate 20 0) = ([[1, 3, 0], []], true) := by
  exact ⟨_, rfl, by decide +kernel⟩

/-- C47, UDP: a message that is not empty is passed up unchanged if it comes from the peer, one
from elsewhere is not; an empty one is taken for a runt. -/
theorem multinet_udp (seq : Nat) (msg : Bytes) :
    (msg ≠ [] → receiveUdp true (sendUdp seq msg).1 = some msg) ∧
    receiveUdp true (sendUdp seq []).1 = none ∧ (∀ d, receiveUdp false d = none) := by
  refine ⟨?_, rfl, ?_⟩
  · intro h
    have : 0 < msg.length := List.length_pos_iff.2 h
    simp only [receiveUdp, sendUdp]
    rw [if_neg (by simp; omega)]
    simp
  · intro d
    simp [receiveUdp]

example : receiveLoop 3 ([3, 0, 0, 0, 7, 8, 9, 0, 0, 0, 0], List.replicate 11 1) =
    ([[7, 8, 9], []], true) := by decide +kernel

/-- The datagrams of a sequence of sends. -/
def datagrams (seq : Nat) : List Bytes → List Bytes
  | [] => []
  | m :: ms => (sendUdp seq m).1 :: datagrams (sendUdp seq m).2 ms

/-- C47: the datagrams carry consecutive sequence numbers modulo 65536, low byte first, two zero bytes and
the packet. -/
theorem udp_sequence (ms : List Bytes) (seq : Nat) (hs : seq < 65536) (i : Nat) (m : Bytes)
    (hm : ms[i]? = some m) :
    (datagrams seq ms)[i]? = some ([UInt8.ofNat ((seq + i) % 65536 % 256),
      UInt8.ofNat ((seq + i) % 65536 / 256), 0, 0] ++ m) := by
  induction ms generalizing seq i with
  | nil => simp at hm
  | cons x ms ih =>
    cases i with
    | zero =>
      simp only [List.getElem?_cons_zero, Option.some.injEq] at hm
      subst hm
      simp [datagrams, sendUdp, Nat.mod_eq_of_lt hs]
    | succ i =>
      simp only [List.getElem?_cons_succ] at hm
      simp only [datagrams, List.getElem?_cons_succ]
      have := ih (sendUdp seq x).2 (by simp only [sendUdp]; omega) i hm
      rw [this]
      have e : ((sendUdp seq x).2 + i) % 65536 = (seq + (i + 1)) % 65536 := by
        simp only [sendUdp]; omega
      rw [e]

example : (datagrams 65535 [[7], [8]])[1]? = some [0, 0, 0, 0, 8] := by decide

end Multinet
end Verif.Framing
