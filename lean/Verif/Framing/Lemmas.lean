import Verif.Framing.Gre
namespace Verif.Framing

theorem setSlice_mid {a b c x f : Bytes} {i : Nat} (hf : f = a ++ b ++ c) (hi : a.length = i)
    (hb : b.length = x.length) : setSlice f i x = a ++ x ++ c := by
  subst hf hi
  unfold setSlice
  rw [← hb, List.append_assoc a b c, List.take_left', ← List.append_assoc,
    List.drop_append_of_le_length (by simp)]
  · simp
  · rfl

theorem length_setSlice {f x : Bytes} {i : Nat} (h : i + x.length ≤ f.length) :
    (setSlice f i x).length = f.length := by
  simp [setSlice]; omega

/-- Cut a list at a position. -/
theorem cut (l : Bytes) (n : Nat) (h : n ≤ l.length) : ∃ a b, l = a ++ b ∧ a.length = n :=
  ⟨l.take n, l.drop n, (List.take_append_drop n l).symm, by simp; omega⟩

theorem len2 {l : Bytes} (h : l.length = 2) : ∃ a b, l = [a, b] := by
  match l, h with
  | [a, b], _ => exact ⟨a, b, rfl⟩

theorem le16_split {n : Nat} (h : n < 65536) :
    (UInt8.ofNat (n % 256)).toNat + (UInt8.ofNat (n / 256)).toNat * 256 = n := by
  rw [UInt8.toNat_ofNat_of_lt' (by simp [UInt8.size]; omega),
    UInt8.toNat_ofNat_of_lt' (by simp [UInt8.size]; omega)]
  omega

namespace Eth

/-- The buffer has its full size and the protocol type in place. -/
structure Good (p : Port) : Prop where
  plen : p.proto.length = 2
  mlen : p.macaddr.length = 6
  shape : ∃ a c, p.frame = a ++ p.proto ++ c ∧ a.length = 12 ∧ c.length = 1500

theorem newPort_good {proto mac : Bytes} (pad : Bool) (h : proto.length = 2)
    (hm : mac.length = 6) : Good (newPort proto pad mac) := by
  refine ⟨h, hm, List.replicate 12 0, List.replicate 1500 0, ?_, List.length_replicate,
    List.length_replicate⟩
  refine setSlice_mid (b := List.replicate 2 0) ?_ List.length_replicate (by simp [h])
  simp only [List.replicate_append_replicate]

/-- The header of a frame, put into a good buffer. -/
theorem header {p : Port} (hg : Good p) {dest : Bytes} (hd : dest.length = 6) :
    ∃ c, c.length = 1500 ∧
      setSlice (setSlice p.frame 0 dest) 6 p.macaddr = dest ++ p.macaddr ++ p.proto ++ c := by
  obtain ⟨h1, h2, a, c, h3, h4, h5⟩ := hg
  obtain ⟨a1, a2, rfl, ha1⟩ := cut a 6 (by omega)
  have ha2 : a2.length = 6 := by simp at h4; omega
  refine ⟨c, h5, ?_⟩
  have e1 : setSlice p.frame 0 dest = [] ++ dest ++ (a2 ++ p.proto ++ c) :=
    setSlice_mid (b := a1) (by rw [h3]; simp) rfl (by omega)
  have e2 := setSlice_mid (f := setSlice p.frame 0 dest) (a := dest) (b := a2)
    (c := p.proto ++ c) (x := p.macaddr) (i := 6) (by rw [e1]; simp) hd (by omega)
  rw [e2]; simp

/-- Payload and fill behind a header of `n` bytes. -/
theorem body {h c msg : Bytes} {n : Nat} (hh : h.length = n) (hl : msg.length ≤ c.length)
    (hc : 60 ≤ n + c.length) :
    ∃ c', c'.length = c.length ∧
      (if msg.length + n < 60 then
        setSlice (setSlice (h ++ c) n msg) (msg.length + n) (fill (msg.length + n))
       else setSlice (h ++ c) n msg) = h ++ c' ∧
      (h ++ c').take (max (msg.length + n) 60) = h ++ msg ++ fill (msg.length + n) := by
  obtain ⟨c1, c2, rfl, hc1⟩ := cut c msg.length hl
  have e1 : setSlice (h ++ (c1 ++ c2)) n msg = h ++ msg ++ c2 :=
    setSlice_mid (b := c1) (by simp) hh hc1
  rw [e1]
  by_cases hlt : msg.length + n < 60
  · rw [if_pos hlt]
    have hlen2 : 60 - (msg.length + n) ≤ c2.length := by simp at hc; omega
    obtain ⟨d1, d2, rfl, hd1⟩ := cut c2 (60 - (msg.length + n)) hlen2
    have e2 : setSlice (h ++ msg ++ (d1 ++ d2)) (msg.length + n) (fill (msg.length + n)) =
        h ++ msg ++ fill (msg.length + n) ++ d2 :=
      setSlice_mid (b := d1) (by simp) (by simp; omega) (by simp [fill, hd1])
    refine ⟨msg ++ fill (msg.length + n) ++ d2, ?_, by rw [e2]; simp, ?_⟩
    · simp [fill, hc1, hd1]
    · have : max (msg.length + n) 60 = 60 := by omega
      rw [this, ← List.append_assoc, List.take_append_of_le_length (by simp [fill]; omega)]
      rw [← List.append_assoc]
      apply List.take_of_length_le
      simp [fill]; omega
  · rw [if_neg hlt]
    refine ⟨msg ++ c2, by simp [hc1], by simp, ?_⟩
    have h0 : 60 - (msg.length + n) = 0 := by omega
    have : max (msg.length + n) 60 = msg.length + n := by omega
    rw [this, ← List.append_assoc, List.take_append_of_le_length (by simp; omega)]
    rw [List.take_of_length_le (by simp; omega)]
    simp [fill, h0]

/-- A message through a length-prefixed port. -/
theorem send_pad {p : Port} (hg : Good p) (hp : p.pad = true) {msg dest : Bytes}
    (hd : dest.length = 6) (hl : msg.length ≤ 1498) :
    ∃ p', send p msg dest = (p', some (dest ++ p.macaddr ++ p.proto ++
        [UInt8.ofNat (msg.length % 256), UInt8.ofNat (msg.length / 256)] ++ msg ++
        fill (msg.length + 16))) ∧ Good p' ∧ ∃ f, p' = { p with frame := f } := by
  obtain ⟨c, hc, e⟩ := header hg hd
  obtain ⟨c1, c2, rfl, hc1⟩ := cut c 2 (by omega)
  have hc2 : c2.length = 1498 := by simp at hc; omega
  have e1 := setSlice_mid (f := dest ++ p.macaddr ++ p.proto ++ (c1 ++ c2))
    (a := dest ++ p.macaddr ++ p.proto) (b := c1) (c := c2)
    (x := [UInt8.ofNat (msg.length % 256), UInt8.ofNat (msg.length / 256)]) (i := 14)
    (by simp) (by simp [hd, hg.mlen, hg.plen]) (by simp [hc1])
  obtain ⟨c', g1, g2, g3⟩ := body (n := 16) (msg := msg) (c := c2)
    (h := dest ++ p.macaddr ++ p.proto ++
      [UInt8.ofNat (msg.length % 256), UInt8.ofNat (msg.length / 256)])
    (by simp [hd, hg.mlen, hg.plen]) (by omega) (by omega)
  have hps : plstart p = 16 := by simp [plstart, hp]
  unfold send
  rw [if_neg (by simp [hd])]
  simp only [hp, if_true, hps]
  rw [if_neg (by omega), e, e1, g2, g3]
  refine ⟨_, rfl, ⟨hg.plen, hg.mlen, dest ++ p.macaddr,
    [UInt8.ofNat (msg.length % 256), UInt8.ofNat (msg.length / 256)] ++ c', ?_, ?_, ?_⟩, _, rfl⟩
  · simp
  · simp [hd, hg.mlen]
  · simp [g1, hc2]

/-- A message through a port without length. -/
theorem send_plain {p : Port} (hg : Good p) (hp : p.pad = false) {msg dest : Bytes}
    (hd : dest.length = 6) (hl : msg.length ≤ 1500) :
    ∃ p', send p msg dest = (p', some (dest ++ p.macaddr ++ p.proto ++ msg ++
        fill (msg.length + 14))) ∧ Good p' ∧ ∃ f, p' = { p with frame := f } := by
  obtain ⟨c, hc, e⟩ := header hg hd
  obtain ⟨c', g1, g2, g3⟩ := body (n := 14) (msg := msg) (c := c)
    (h := dest ++ p.macaddr ++ p.proto)
    (by simp [hd, hg.mlen, hg.plen]) (by omega) (by omega)
  have hps : plstart p = 14 := by simp [plstart, hp]
  unfold send
  rw [if_neg (by simp [hd])]
  simp only [hp, hps]
  rw [if_neg (by simp), if_neg (by omega), e, g2, g3]
  refine ⟨_, rfl, ⟨hg.plen, hg.mlen, dest ++ p.macaddr, c', ?_, ?_, ?_⟩, _, rfl⟩
  · simp
  · simp [hd, hg.mlen]
  · simp [g1, hc]

/-- Every send leaves a good buffer. -/
theorem send_good {p : Port} (hg : Good p) (msg dest : Bytes) : Good (send p msg dest).1 := by
  by_cases hd : dest.length = 6
  · cases hp : p.pad with
    | true =>
      by_cases hl : msg.length ≤ 1498
      · obtain ⟨p', e, h, _⟩ := send_pad hg hp hd hl
        rw [e]; exact h
      · obtain ⟨c, hc, e⟩ := header hg hd
        unfold send
        rw [if_neg (by simp [hd])]
        simp only [hp, if_true]
        rw [if_pos (by omega), e]
        exact ⟨hg.plen, hg.mlen, dest ++ p.macaddr, c, by simp, by simp [hd, hg.mlen], hc⟩
    | false =>
      by_cases hl : msg.length ≤ 1500
      · obtain ⟨p', e, h, _⟩ := send_plain hg hp hd hl
        rw [e]; exact h
      · obtain ⟨c, hc, e⟩ := header hg hd
        unfold send
        rw [if_neg (by simp [hd])]
        simp only [hp]
        rw [if_neg (by simp), if_pos (by omega), e]
        exact ⟨hg.plen, hg.mlen, dest ++ p.macaddr, c, by simp, by simp [hd, hg.mlen], hc⟩
  · unfold send
    rw [if_pos (by simp [hd])]
    exact hg

end Eth
end Verif.Framing
