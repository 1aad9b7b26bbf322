import Verif.EvLog.Props
import Verif.EvLog.RemoteProps
import Verif.Nice.Props
import Verif.NspPkt.Model

/-!
# The report of a message that cannot be decoded (C82)

`NSP.dispatch`, nsp.py:166-174, reports a packet that raises `DecodeError` as event 3.0 with the packet as
parameter "Message".  That parameter is a multiple (events.py:336), of which the packet gives one field
for each byte: `CM1.checktype` and `CM1.encode`, nice_coding.py:350-356, 379-383, with `zpr` (252-262)
supplying `DU1` after the fourth.
-/

namespace Verif.EvLog

open Verif.Nice (Simple Val Item)

/-- The fields of the parameter: `H1`, `DU2`, `DU2`, `HI` and then `DU1`.  `HI (n)` is a string of `n` zero
bytes (`bytes.__new__`, nice_coding.py:305-308). -/
def messageField (i : Nat) (b : UInt8) : Simple :=
  if i = 0 then .num .h 1 b.toNat
  else if i = 1 ∨ i = 2 then .num .du 2 b.toNat
  else if i = 3 then .hi (List.replicate b.toNat 0)
  else .num .du 1 b.toNat

def messageFields (i : Nat) : Bytes → List Simple
  | [] => []
  | b :: bs => messageField i b :: messageFields (i + 1) bs

/-- The parameters of the event: "Message", and "Source node", a multiple of one field because the source is
a `Nodeid`, whose iterator gives one number (common.py:361-362). -/
def invItems (src : Nat) (buf : Bytes) : List Item :=
  [.par 0 (.many (messageFields 0 buf)), .par 2 (.many [.num .du 2 src])]

/-- The event; `hdr` is the encoded header, source and entity, which cannot fail (until 2066, when the
count of half days is too large). -/
def invMsg (hdr : Bytes) (src : Nat) (buf : Bytes) : Event :=
  ⟨3, 0, match Verif.Nice.encode (invItems src buf) with | .ok b => some (hdr ++ b) | .error _ => none⟩

theorem messageFields_length (i : Nat) (buf : Bytes) : (messageFields i buf).length = buf.length := by
  induction buf generalizing i with
  | nil => rfl
  | cons b bs ih => simp [messageFields, ih]

theorem messageField_good (i : Nat) (b : UInt8) : (messageField i b).Valid ∧ (messageField i b).Fits := by
  have hb := b.toNat_lt
  unfold messageField
  split
  · exact ⟨by simp [Simple.Valid, Nice.Num.maxLen], by simp [Simple.Fits]; omega⟩
  · split
    · exact ⟨by simp [Simple.Valid, Nice.Num.maxLen], by simp [Simple.Fits]; omega⟩
    · split
      · exact ⟨trivial, by simp [Simple.Fits]; omega⟩
      · exact ⟨by simp [Simple.Valid, Nice.Num.maxLen], by simp [Simple.Fits]; omega⟩

theorem messageFields_good (i : Nat) (buf : Bytes) : ∀ s ∈ messageFields i buf, s.Valid ∧ s.Fits := by
  induction buf generalizing i with
  | nil => simp [messageFields]
  | cons b bs ih =>
    intro s hs
    rcases List.mem_cons.1 hs with rfl | hs
    · exact messageField_good i b
    · exact ih _ s hs

theorem inv_encodes (src : Nat) (hs : src < 65536) (buf : Bytes) :
    (∃ b, Verif.Nice.encode (invItems src buf) = .ok b) ↔ buf.length ≤ 63 := by
  constructor
  · rintro ⟨b, hb⟩
    obtain ⟨a, b', h1, -, -⟩ := Nice.encode_cons.1 hb
    obtain ⟨-, d, h2, -⟩ := Nice.Item.enc_par.1 h1
    obtain ⟨h3, -⟩ := Nice.Val.enc_many.1 h2
    rw [messageFields_length] at h3
    omega
  · intro hl
    obtain ⟨d, hd⟩ := (Nice.all_fits fun s hs => (messageFields_good 0 buf s hs).1).2
      fun s hs => (messageFields_good 0 buf s hs).2
    have hc : 0xc0 + (messageFields 0 buf).length < 256 := by rw [messageFields_length]; omega
    have h1 := Nice.Item.enc_par.2 ⟨(by decide : 0 < 65536), _, Nice.Val.enc_many.2 ⟨hc, d, hd, rfl⟩, rfl⟩
    have hv : Item.Valid (.par 2 (.many [.num .du 2 src])) :=
      ⟨by decide, by simp, by simp, by simp [Simple.Valid, Nice.Num.maxLen]⟩
    obtain ⟨e2, h2⟩ := (Nice.item_fits hv).2 (by simp [Item.Fits, Val.Fits, Simple.Fits]; omega)
    exact ⟨_, Nice.encode_cons.2 ⟨_, _, h1, Nice.encode_cons.2 ⟨_, [], h2, rfl, rfl⟩, rfl⟩⟩

/-- C82: a bad packet of up to 63 bytes is reported without an exception, one of more is not. -/
theorem invalid_encodes_iff (hdr : Bytes) (src : Nat) (hs : src < 65536) (buf : Bytes) :
    (invMsg hdr src buf).enc ≠ none ↔ buf.length ≤ 63 := by
  rw [← inv_encodes src hs buf]
  unfold invMsg
  cases h : Verif.Nice.encode (invItems src buf) with
  | ok b => simp
  | error e => simp

/-- C82, what holds of it: the report of a bad packet of 1 to 31 bytes is decoded at the other end to the
fields that were reported.  (Of 32 to 63 bytes, or none: `invalid_unreadable`.  Of more:
`invalid_stops_file`, `invalid_stops_remote`.) -/
theorem invalid_readable_partial (hdr : Bytes) (src : Nat) (hs : src < 65536) (buf : Bytes)
    (h1 : 1 ≤ buf.length) (h2 : buf.length ≤ 31) :
    ∃ b, (invMsg hdr src buf).enc = some (hdr ++ b) ∧ Verif.Nice.decode b = .ok (invItems src buf) := by
  obtain ⟨b, hb⟩ := (inv_encodes src hs buf).2 (by omega)
  refine ⟨b, by simp [invMsg, hb], ?_⟩
  have := Nice.response_roundtrip (is := invItems src buf) ?_ hb
  · simpa [invItems, Item.sat] using this
  · intro i hi
    simp only [invItems, List.mem_cons, List.not_mem_nil, or_false] at hi
    rcases hi with rfl | rfl
    · exact ⟨by decide, by rw [messageFields_length]; exact h1, by rw [messageFields_length]; exact h2,
        fun s hs => (messageFields_good 0 buf s hs).1⟩
    · exact ⟨by decide, by simp, by simp, by simp [Simple.Valid, Nice.Num.maxLen]⟩

/-- C82, not so: the report of a bad packet of 32 to 63 bytes is sent but cannot be decoded. -/
theorem invalid_unreadable (hdr : Bytes) (src : Nat) (hs : src < 65536) (buf : Bytes)
    (h1 : 32 ≤ buf.length) (h2 : buf.length ≤ 63) :
    ∃ b, (invMsg hdr src buf).enc = some (hdr ++ b) ∧ ∀ is, Verif.Nice.decode b ≠ .ok is := by
  obtain ⟨b, hb⟩ := (inv_encodes src hs buf).2 h2
  refine ⟨b, by simp [invMsg, hb], ?_⟩
  obtain ⟨a, b', e1, -, rfl⟩ := Nice.encode_cons.1 hb
  obtain ⟨-, d, e2, rfl⟩ := Nice.Item.enc_par.1 e1
  obtain ⟨e3, d', -, rfl⟩ := Nice.Val.enc_many.1 e2
  intro is hdec
  obtain ⟨x, y, hxy, hf⟩ := Nice.le2_cons (show (0 : Nat) < 65536 by decide)
  have hk : ∀ k : Fin 32, Nice.classOf (0xe0 + k.val) = .error .decodeError := by decide +kernel
  have hk := hk ⟨buf.length - 32, by omega⟩
  simp only [show 0xe0 + (buf.length - 32) = 0xc0 + buf.length by omega] at hk
  rw [messageFields_length] at hdec e3
  have hdi : Nice.decItem (x :: y :: UInt8.ofNat (0xc0 + buf.length) :: (d' ++ b')) = .error .decodeError := by
    simp only [Nice.decItem, hf]
    rw [if_neg (by decide), Nice.u8_ofNat_toNat e3, hk]
    rfl
  rw [hxy] at hdec
  simp only [List.cons_append, List.nil_append] at hdec
  obtain ⟨i, r, js, h3, -, -⟩ := Nice.decode_cons.1 hdec
  rw [hdi] at h3
  cases h3

/-- C82, not so: if the file sink of the node is to have event 3.0, a bad packet of more than 63 bytes raises an
exception in the node. -/
theorem invalid_stops_file (cfg : List Ent) (S : List Sink) (mon : Bool) (hdr : Bytes) (src : Nat)
    (hs : src < 65536) (buf : Bytes) (hl : 63 < buf.length) (hc : init cfg = .ok S)
    (hsel : Selected cfg none .file (3, 0)) : (logEvent mon (invMsg hdr src buf) S).2 = false := by
  have hne : cfg ≠ [] := by rintro rfl; obtain ⟨e, he, -⟩ := hsel; cases he
  have hi := sinv_init hne hc
  have henc : (invMsg hdr src buf).enc = none := by
    refine Classical.byContradiction fun h => ?_
    have := (invalid_encodes_iff hdr src hs buf).1 h
    omega
  obtain ⟨e, he, hn, hk, hsel⟩ := hsel
  have hmem : filt e ∈ locs .file S := by
    rw [hi.loc]
    exact List.mem_map.2 ⟨e, List.mem_filter.2 ⟨he, by simp [isLoc, hn, hk]⟩, rfl⟩
  have hf := (filt_selects hi he (3, 0)).2 hsel
  have hmem' : Sink.loc .file (filt e) ∈ S := by
    simp only [locs, List.mem_filterMap] at hmem
    obtain ⟨s, h1, h2⟩ := hmem
    cases s with
    | loc k f =>
      simp only at h2
      split at h2
      · rename_i hk'
        simp only [Option.some.injEq] at h2
        rw [← h2, ← hk']; exact h1
      · cases h2
    | remote n f => cases h2
  clear hi hc hmem
  induction S with
  | nil => cases hmem'
  | cons s S ih =>
    simp only [logEvent]
    split
    · rfl
    · rename_i w hw
      rcases List.mem_cons.1 hmem' with h | h
      · rw [← h] at hw
        simp only [logOne, writeLocal, henc] at hw
        have : filt e ((invMsg hdr src buf).cls, (invMsg hdr src buf).num) = true := hf
        rw [if_pos this] at hw
        cases hw
      · exact ih h

/-- C82, not so: likewise if a remote sink that is to have it is connected. -/
theorem invalid_stops_remote {h : List Remote.Rec} {st : Remote.St} (hr : Remote.Run h st) {c : Nat}
    (hl : Remote.live h = some c) (env : Remote.Env) (hdr : Bytes) (src : Nat) (hs : src < 65536) (buf : Bytes)
    (hb : 63 < buf.length) : Remote.step env st (.log (invMsg hdr src buf)) = none := by
  have hc := Remote.cinv_run hr
  have ho := (hc.live c).1 hl
  have hq := hc.empty c ho
  have henc : (invMsg hdr src buf).enc = none := by
    refine Classical.byContradiction fun h => ?_
    have := (invalid_encodes_iff hdr src hs buf).1 h
    omega
  simp [Remote.step, EvQueue.append, Remote.limit, hq, Remote.sendEvents, ho, Remote.sendLoop, Remote.encodes, henc]

/-- A packet of 64 zero bytes is one of those: it gets as far as the report. -/
theorem zeros_dropped : (match NspPkt.decode (0x01 :: List.replicate 63 0) with | .error _ => true | .ok _ => false) = true := by
  decide

example : 63 < (0x01 :: List.replicate 63 (0 : UInt8)).length := by decide

/-- The console and a file for events of class 3. -/
example : ∃ S, init [⟨none, .console, none⟩, ⟨none, .file, some [51, 46, 42]⟩] = .ok S ∧
    Selected [⟨none, .console, none⟩, ⟨none, .file, some [51, 46, 42]⟩] none .file (3, 0) := by
  refine ⟨_, rfl, ⟨none, .file, some [51, 46, 42]⟩, by simp, rfl, rfl, by decide, .inl ⟨_, [(3, 0, 31)], rfl, ?_, ?_⟩⟩
  · refine ⟨[[51, 46, 42]], by simp, rfl, ?_⟩
    exact .own (t := [51]) (s := [42]) (n := []) (.one (d := 3) (by decide)) (by decide) .all (by decide) (.inl rfl) .nil
  · exact ⟨_, List.mem_singleton.2 rfl, rfl, by decide, by decide⟩

end Verif.EvLog
