import Verif.Dap.Prot

/-!
# Theorems about DAP messages
-/

namespace Verif.Dap

open Verif.Fields

/-- No stream identification and no bit count.  (Nothing in the code sets these.) -/
def Usual (p : Attrs) : Prop := Off p "m_streamid" ∧ Off p "m_bitcnt"

/-- A message that has been made, to be sent: its class, its attributes, and the bytes after the header. -/
structure Item where
  L : Layout
  p : Attrs
  body : Bytes

/-- It can be encoded. -/
def Item.Valid (x : Item) : Prop :=
  x.L ∈ classes ∧ Usual x.p ∧ encode x.L (asPlain x.p) = .ok (Fal.enc0 ⟨UInt8.ofNat x.L.type, x.body⟩)

def Item.wire (x : Item) : Fal.Msg := ⟨UInt8.ofNat x.L.type, x.body⟩

theorem valid_body {x : Item} (h : x.Valid) : encRows x.L.cls x.p x.L.body = .ok x.body := by
  obtain ⟨hL, ⟨hs, hb⟩, h⟩ := h
  rw [header_bytes (p := asPlain x.p) hL (off_setTo rfl hs) (off_setTo rfl hb) 0 0 rfl rfl (by decide)
    (by decide) 0 0 (by simp) (by simp), map_ok] at h
  obtain ⟨b, h1, h2⟩ := h
  rw [show encRows x.L.cls (asPlain x.p) x.L.body = encRows x.L.cls x.p x.L.body from
    body_setTo hL x.p _ (by simp)] at h1
  rw [h1]
  simp only [Fal.enc0, List.cons.injEq] at h2
  simpa using h2.2.2

/-- Whatever can be encoded with the length left out is such a message. -/
theorem plain_iff {L : Layout} (hL : L ∈ classes) {p : Attrs} (hp : Usual p) (b : Bytes) :
    encode L (asPlain p) = .ok b ↔ ∃ body, Item.Valid ⟨L, p, body⟩ ∧
      b = UInt8.ofNat L.type :: 0 :: body := by
  constructor
  · intro h
    have h' := h
    rw [header_bytes (p := asPlain p) hL (off_setTo rfl hp.1) (off_setTo rfl hp.2) 0 0 rfl rfl (by decide)
      (by decide) 0 0 (by simp) (by simp), map_ok] at h'
    obtain ⟨body, h1, h2⟩ := h'
    refine ⟨body, ⟨hL, hp, ?_⟩, ?_⟩
    · rw [h, ← h2]; rfl
    · rw [← h2]; rfl
  · rintro ⟨body, ⟨_, _, h⟩, rfl⟩
    exact h

/-- **The encodings of `send`** (dap.py 118-160).  With the flags for the length off, with one byte of length and
with two, the encoder makes the same bytes after the header; the length is their number. -/
theorem send_encodings {x : Item} (h : x.Valid) :
    encode x.L (asPlain x.p) = .ok (Fal.enc0 x.wire) ∧
    (x.body.length < 256 → encode x.L (asShort x.p x.body.length) = .ok (Fal.enc1 x.wire)) ∧
    (x.body.length < 65536 →
      encode x.L (asLong x.p (x.body.length % 256) (x.body.length / 256)) = .ok (Fal.enc2 x.wire)) :=
  ⟨h.2.2, encode_short h.1 h.2.1.1 h.2.1.2 (valid_body h), encode_long h.1 h.2.1.1 h.2.1.2 (valid_body h)⟩

/-- The next message of a block. -/
theorem first_read {x : Item} (h : x.Valid) {buf : Bytes} {ms : List Fal.Msg}
    (hb : Fal.Blk buf (x.wire :: ms)) :
    ∃ q rest, decodeAny buf = .ok (x.L, q, rest) ∧ Received x.L x.p q ∧ Fal.Blk rest ms := by
  have hbody := valid_body h
  obtain ⟨h0, h1, h2⟩ := send_encodings h
  obtain ⟨hL, ⟨hst, hbc⟩, -⟩ := h
  have key : ∀ (ws : List (String × Val)) (m rest : Bytes),
      (∀ w ∈ ws, w.1 ∈ ["m_length", "m_len256", "length", "len256"]) →
      encode x.L (setTo x.p ws) = .ok m → split buf = .ok (m, rest) →
      (∃ t, buf = UInt8.ofNat x.L.type :: t) →
      ∃ q, decodeAny buf = .ok (x.L, q, rest) ∧ Received x.L x.p q := by
    intro ws m rest hw he hsp ht
    obtain ⟨q, hq1, hq2⟩ := decode_split hL he hsp ht
    have hoff : ws.lookup "m_bitcnt" = none := by
      cases hl : ws.lookup "m_bitcnt" with
      | none => rfl
      | some v =>
        rw [List.lookup_eq_some_iff] at hl
        obtain ⟨a, b, rfl, _⟩ := hl
        have := hw ("m_bitcnt", v) (by simp)
        simp at this
    refine ⟨q, hq1, on_setTo hL hw (received_of_shows (b := x.body) hL (off_setTo hoff hbc) ?_ hq2)⟩
    rw [body_setTo hL x.p ws hw]; exact hbody
  cases hb with
  | one hl hr =>
    rename_i r
    obtain ⟨q, hq, hr'⟩ := key _ _ r (by simp) (h1 hl) (split_short x.wire hl r) ⟨_, rfl⟩
    exact ⟨q, r, hq, hr', hr⟩
  | two hl hr =>
    rename_i r
    obtain ⟨q, hq, hr'⟩ := key _ _ r (by simp) (h2 hl) (split_long x.wire hl r) ⟨_, rfl⟩
    exact ⟨q, r, hq, hr', hr⟩
  | last =>
    obtain ⟨q, hq, hr'⟩ := key _ _ [] (by simp) h0 (split_plain x.wire) ⟨_, rfl⟩
    exact ⟨q, [], hq, hr', .nil⟩

/-- **The types of message.**  The types 1 to 9 and 13 to 15 have a class each; a message of any other type is refused. -/
theorem message_types (t : UInt8) (b : Bytes) :
    (t.toNat ∈ [1, 2, 3, 4, 5, 6, 7, 8, 9, 13, 14, 15] → ∃ L ∈ classes, L.type = t.toNat ∧ findClass (t :: b) = .ok L) ∧
    (t.toNat ∉ [1, 2, 3, 4, 5, 6, 7, 8, 9, 13, 14, 15] → decodeAny (t :: b) = .error .other) := by
  constructor
  · intro h
    have h1 : ∀ n ∈ [1, 2, 3, 4, 5, 6, 7, 8, 9, 13, 14, 15], ∃ L ∈ classes, L.type = n := by decide +kernel
    obtain ⟨L, hL, hn⟩ := h1 _ h
    refine ⟨L, hL, hn, ?_⟩
    have := find_class hL b
    rw [hn, UInt8.ofNat_toNat] at this
    exact this
  · intro h
    have h2 : ∀ L ∈ classes, L.type ∈ [1, 2, 3, 4, 5, 6, 7, 8, 9, 13, 14, 15] := by decide +kernel
    have : (classes.find? fun L => L.type == t.toNat) = none := by
      rw [List.find?_eq_none]
      intro L hL he
      exact h (by rw [← beq_iff_eq.1 he]; exact h2 L hL)
    simp [decodeAny, findClass, this]
    rfl

example : findClass [15, 0] = .ok name ∧ decodeAny [10, 0] = .error .other := ⟨rfl, rfl⟩

/-- **A message alone.**  What one side encodes, the other decodes: the same class, nothing left over, and the
attributes as `Received` says. -/
theorem message_roundtrip {L : Layout} (hL : L ∈ classes) {p : Attrs} (hp : Usual p) {b : Bytes}
    (h : encode L (asPlain p) = .ok b) : ∃ q, decodeAny b = .ok (L, q, []) ∧ Received L p q := by
  obtain ⟨body, hv, rfl⟩ := (plain_iff hL hp b).1 h
  obtain ⟨q, rest, h1, h2, h3⟩ := first_read (x := ⟨L, p, body⟩) hv (ms := []) Fal.Blk.last
  obtain ⟨q', h4⟩ := decode_split hL h (split_plain ⟨UInt8.ofNat L.type, body⟩) ⟨_, rfl⟩
  have : decodeAny (UInt8.ofNat L.type :: 0 :: body) = .ok (L, q', []) := h4.1
  have e := h1
  rw [show Fal.enc0 (Item.wire ⟨L, p, body⟩) = UInt8.ofNat L.type :: 0 :: body from rfl, this] at e
  cases e
  exact ⟨q, this, h2⟩

/-- Reading a block to its end. -/
inductive Reads : Bytes → List (Layout × Attrs) → Prop
  | done : Reads [] []
  | more {b r L q l} : decodeAny b = .ok (L, q, r) → Reads r l → Reads b ((L, q) :: l)

/-- What is read is what was sent. -/
def Item.As (x : Item) (y : Layout × Attrs) : Prop := y.1 = x.L ∧ Received x.L x.p y.2

theorem forall₂_append {α β : Type} {R : α → β → Prop} {a : List α} {b : List β} {c : List α} {d : List β}
    (h1 : List.Forall₂ R a b) (h2 : List.Forall₂ R c d) : List.Forall₂ R (a ++ c) (b ++ d) := by
  induction h1 with
  | nil => exact h2
  | cons hab _ ih => exact .cons hab ih

theorem block_read : ∀ (xs : List Item) (buf : Bytes), (∀ x ∈ xs, x.Valid) →
    Fal.Blk buf (xs.map Item.wire) → ∃ l, Reads buf l ∧ List.Forall₂ Item.As xs l := by
  intro xs
  induction xs with
  | nil =>
    intro buf _ h
    cases h
    exact ⟨[], .done, .nil⟩
  | cons x xs ih =>
    intro buf hv h
    obtain ⟨q, rest, h1, h2, h3⟩ := first_read (hv x (by simp)) h
    obtain ⟨l, h4, h5⟩ := ih rest (fun y hy => hv y (by simp [hy])) h3
    exact ⟨(x.L, q) :: l, .more h1 h4, .cons ⟨rfl, h2⟩ h5⟩

theorem blocks_read : ∀ (out : List Bytes) (mss : List (List Fal.Msg)) (xs : List Item),
    (∀ x ∈ xs, x.Valid) → List.Forall₂ Fal.Full out mss → xs.map Item.wire = mss.flatten →
    ∃ ls, List.Forall₂ Reads out ls ∧ List.Forall₂ Item.As xs ls.flatten := by
  intro out
  induction out with
  | nil =>
    intro mss xs hv hf he
    cases hf
    have : xs = [] := by simpa using he
    subst this
    exact ⟨[], .nil, .nil⟩
  | cons b out ih =>
    intro mss xs hv hf he
    cases hf with
    | cons hb hf =>
      rename_i ms mss
      rw [List.flatten_cons, List.map_eq_append_iff] at he
      obtain ⟨xs1, xs2, rfl, rfl, h2⟩ := he
      obtain ⟨l, h3, h4⟩ := block_read xs1 b (fun x hx => hv x (by simp [hx])) hb.2
      obtain ⟨ls, h5, h6⟩ := ih mss xs2 (fun x hx => hv x (by simp [hx])) hf h2
      exact ⟨l :: ls, .cons h3 h5, forall₂_append h4 h6⟩

/-- **All messages, by their attributes.**  Send any messages to any peer, flushing where one likes and at the
end.  Reading the blocks one after the other, each to its end, gives messages of the same classes in the same
order, with the attributes they were sent with. -/
theorem messages_read (peer : Fal.Peer) (ops : List Fal.Op) (t : Fal.Tx) (out : List Bytes) (xs : List Item)
    (hv : ∀ x ∈ xs, x.Valid) (hops : Fal.sent ops = xs.map Item.wire)
    (h : Fal.exec peer {} (ops ++ [.flush]) = some (t, out)) :
    ∃ ls, List.Forall₂ Reads out ls ∧ List.Forall₂ Item.As xs ls.flatten := by
  obtain ⟨mss, ms', k1, k2, k3⟩ := Fal.nothing_lost peer _ t out h
  have hz : t.data = [] := by
    rw [Fal.exec_append] at h
    simp only [Option.bind_eq_some_iff, Prod.exists, Option.some.injEq, Prod.mk.injEq, Fal.exec,
      Option.bind_eq_bind] at h
    obtain ⟨t1, o1, -, t2, o2, ⟨t3, o3, e, e', e''⟩, rfl, -⟩ := h
    rw [← e', ← e.1]
    exact Fal.flush_empties t1
  have hm : ms' = [] := by rw [hz] at k2; cases k2; rfl
  subst hm
  have hs : ∀ l : List Fal.Op, Fal.sent (l ++ [.flush]) = Fal.sent l := by
    intro l
    induction l with
    | nil => rfl
    | cons op l ih => cases op <;> simp [Fal.sent, ih]
  rw [hs, hops, List.append_nil] at k3
  exact blocks_read out mss xs hv k1 k3

/-! ## What the classes say -/

/-- **Defaults of the Attributes message.**  Record format fixed, block size 512, byte size 8, image data: what is
found when the sender left the field out. -/
theorem attributes_default {p q : Attrs} (h : Received attrib p q) :
    (Off p "m_rfm" → q "rfm" = some (.int 1)) ∧ (Off p "m_bls" → q "bls" = some (.int 512)) ∧
    (Off p "m_bsz" → q "bsz" = some (.int 8)) ∧
    (Off p "m_datatype" → q "image" = some (.int 1) ∧ q "ascii" = some (.int 0)) := by
  refine ⟨fun ho => ?_, fun ho => ?_, fun ho => ?_, fun ho => ⟨?_, ?_⟩⟩
  · rcases h.dflt ⟨.whenElse "m_rfm" [1], .fld "rfm" (.b 1)⟩ (by decide +kernel) ho.falsy _ _ rfl "rfm"
      (by decide) with ⟨_, h⟩ | h
    · simp at h
    · exact h
  · rcases h.dflt ⟨.whenElse "m_bls" [0, 2], .fld "bls" (.b 2)⟩ (by decide +kernel) ho.falsy _ _ rfl "bls"
      (by decide) with ⟨_, h⟩ | h
    · simp at h
    · exact h
  · rcases h.dflt ⟨.whenElse "m_bsz" [8], .fld "bsz" (.b 1)⟩ (by decide +kernel) ho.falsy _ _ rfl "bsz"
      (by decide) with ⟨_, h⟩ | h
    · simp at h
    · exact h
  · rcases h.dflt ⟨.whenElse "m_datatype" [2], .bmex 2 [⟨"ascii", 0, 1⟩, ⟨"image", 1, 1⟩, ⟨"compressed", 3, 1⟩,
      ⟨"executable", 4, 1⟩, ⟨"privileged", 5, 1⟩, ⟨"sensitive", 7, 1⟩]⟩ (by decide +kernel) ho.falsy _ _ rfl
      "image" (by decide) with ⟨_, h⟩ | h
    · simp at h
    · rw [h]; decide +kernel
  · rcases h.dflt ⟨.whenElse "m_datatype" [2], .bmex 2 [⟨"ascii", 0, 1⟩, ⟨"image", 1, 1⟩, ⟨"compressed", 3, 1⟩,
      ⟨"executable", 4, 1⟩, ⟨"privileged", 5, 1⟩, ⟨"sensitive", 7, 1⟩]⟩ (by decide +kernel) ho.falsy _ _ rfl
      "ascii" (by decide) with ⟨_, h⟩ | h
    · simp at h
    · rw [h]; decide +kernel

/-! ## Protection -/

/-- The protection message of the file access listener, fal.py 158-163. -/
def falProt (owner : List Nat) (mode : Nat) : Attrs :=
  setmode (setTo (fun _ => none) [("m_owner", .int 1), ("owner", .str owner)]) mode

theorem falProt_usual (owner : List Nat) (mode : Nat) : Usual (falProt owner mode) :=
  ⟨.inl (mode_other rfl rfl), .inl (mode_other rfl rfl)⟩

theorem falProt_group (owner : List Nat) (mode i : Nat) {x : String}
    (hx : (x = "o" ∧ i = 6) ∨ (x = "g" ∧ i = 3) ∨ (x = "w" ∧ i = 0)) :
    ∃ k : Nat, bmField prot.cls (falProt owner mode) (protBits (protNames x)) 0 = .ok k ∧ k < 128 ∧
      (k % 2 = 0 ↔ mode.testBit (i + 2) = true) ∧ (k / 2 % 2 = 0 ↔ mode.testBit (i + 1) = true) ∧
      (k / 4 % 2 = 0 ↔ mode.testBit i = true) := by
  refine group_word (fun n hn => setTo_other _ _ ?_) hx
  have : ∀ x ∈ ["o", "g", "w"], ∀ n ∈ protNames x,
      List.lookup n [("m_owner", Val.int 1), ("owner", .str owner)] = none := by
    simp [protNames, List.lookup]
  exact this x (by rcases hx with ⟨rfl, _⟩ | ⟨rfl, _⟩ | ⟨rfl, _⟩ <;> simp) n hn

/-- **The protection of any file can be sent**, if the name of its owner can. -/
theorem mode_sendable (owner : List Nat) (mode : Nat) (hl : owner.length ≤ 40) (hc : ∀ c ∈ owner, c < 256) :
    ∃ body, Item.Valid ⟨prot, falProt owner mode, body⟩ := by
  have hL : prot ∈ classes := by decide +kernel
  have hp := falProt_usual owner mode
  obtain ⟨ko, ho, lo, -⟩ := falProt_group owner mode 6 (x := "o") (.inl ⟨rfl, rfl⟩)
  obtain ⟨kg, hg, lg, -⟩ := falProt_group owner mode 3 (x := "g") (.inr (.inl ⟨rfl, rfl⟩))
  obtain ⟨kw, hw, lw, -⟩ := falProt_group owner mode 0 (x := "w") (.inr (.inr ⟨rfl, rfl⟩))
  have fr : ∀ n, n ≠ "type" → n ≠ "m_syspec" → n ≠ "m_seg" →
      prot.cls.get (falProt owner mode) n = falProt owner mode n :=
    fun n h1 h2 h3 => get_free (L := prot) _ h1 h2 h3
  have e1 : falProt owner mode "m_owner" = some (.int 1) := mode_other rfl rfl
  have e2 : falProt owner mode "owner" = some (.str owner) := mode_other rfl rfl
  have e3 : falProt owner mode "m_protsys" = none := mode_other rfl rfl
  have e4 : falProt owner mode "m_protown" = some (.int 1) := rfl
  have e5 : falProt owner mode "m_protgrp" = some (.int 1) := rfl
  have e6 : falProt owner mode "m_protwld" = some (.int 1) := rfl
  have g1 := (fr "m_owner" (by decide) (by decide) (by decide)).trans e1
  have g2 := (fr "owner" (by decide) (by decide) (by decide)).trans e2
  have g3 := (fr "m_protsys" (by decide) (by decide) (by decide)).trans e3
  have g4 := (fr "m_protown" (by decide) (by decide) (by decide)).trans e4
  have g5 := (fr "m_protgrp" (by decide) (by decide) (by decide)).trans e5
  have g6 := (fr "m_protwld" (by decide) (by decide) (by decide)).trans e6
  have hmenu : bmField prot.cls (falProt owner mode) [⟨"m_owner", 0, 1⟩, ⟨"m_protsys", 1, 1⟩,
      ⟨"m_protown", 2, 1⟩, ⟨"m_protgrp", 3, 1⟩, ⟨"m_protwld", 4, 1⟩] 0 = .ok 29 := by
    rw [bmField_cons (v := 1) (by rw [g1]; rfl) (by decide), bmField_cons (v := 0) (by rw [g3]; rfl) (by decide),
      bmField_cons (v := 1) (by rw [g4]; rfl) (by decide), bmField_cons (v := 1) (by rw [g5]; rfl) (by decide),
      bmField_cons (v := 1) (by rw [g6]; rfl) (by decide)]
    rfl
  have hown : aEnc 40 owner = .ok (UInt8.ofNat owner.length :: owner.map UInt8.ofNat) := by
    rw [aEnc_ok, iEnc_ok]
    simp only [List.length_map]
    exact ⟨hc, hl, by omega, trivial⟩
  have hb : ∃ body, encRows prot.cls (falProt owner mode) prot.body = .ok body := by
    rw [prot_body]
    simp only [encRows, encRow, encCore, g1, g2, g3, g4, g5, g6, hmenu, ho, hg, hw, truthy,
      exEnc_small lo (m := 3) (by omega), exEnc_small lg (m := 3) (by omega), exEnc_small lw (m := 3) (by omega),
      exEnc_small (n := 29) (m := 6) (by omega) (by omega), ok_bind, Option.getD_some, Fld.codec, cA, hown]
    exact ⟨_, rfl⟩
  obtain ⟨body, hb⟩ := hb
  exact ⟨body, hL, hp, encode_plain hL hp.1 hp.2 hb⟩

/-- **And arrives**: whoever receives it sees the permissions as `ls -l` shows them, for any mode, and the owner. -/
theorem mode_shown (owner : List Nat) (mode : Nat) {q : Attrs}
    (h : Received prot (falProt owner mode) q) :
    unixmode q = .ok (permString mode) ∧ q "owner" = some (.str owner) := by
  have e1 : falProt owner mode "m_owner" = some (.int 1) := mode_other rfl rfl
  have e2 : falProt owner mode "owner" = some (.str owner) := mode_other rfl rfl
  have e4 : falProt owner mode "m_protown" = some (.int 1) := rfl
  have e5 : falProt owner mode "m_protgrp" = some (.int 1) := rfl
  have e6 : falProt owner mode "m_protwld" = some (.int 1) := rfl
  have menu : ∀ n ∈ ["m_protown", "m_protgrp", "m_protwld"], q n = some (.int 1) := by
    intro n hn
    rcases h.bits ⟨.always, .bmex 6 [⟨"m_owner", 0, 1⟩, ⟨"m_protsys", 1, 1⟩, ⟨"m_protown", 2, 1⟩,
      ⟨"m_protgrp", 3, 1⟩, ⟨"m_protwld", 4, 1⟩]⟩ (by rw [prot_body]; simp) rfl (by decide) n
      (by revert n; decide) with ⟨h, _⟩ | h
    · cases h
    · rw [h]
      simp only [List.mem_cons, List.not_mem_nil, or_false] at hn
      rcases hn with rfl | rfl | rfl <;> rfl
  have grp : ∀ x i, (x = "o" ∧ i = 6) ∨ (x = "g" ∧ i = 3) ∨ (x = "w" ∧ i = 0) →
      attr q (x ++ "_" ++ "noread") = .ok (!mode.testBit (i + 2)) ∧
      attr q (x ++ "_" ++ "nowrite") = .ok (!mode.testBit (i + 1)) ∧
      attr q (x ++ "_" ++ "noexec") = .ok (!mode.testBit i) := by
    intro x i hx
    obtain ⟨k, hk, -, k1, k2, k3⟩ := falProt_group owner mode i (x := x) hx
    have hw := bmField_word0 hk
    have hmem : (⟨.when ("m_prot" ++ if x = "o" then "own" else if x = "g" then "grp" else "wld"),
        .bmex 3 (protBits (protNames x))⟩ : Row) ∈ prot.body := by
      rw [prot_body]
      rcases hx with ⟨rfl, _⟩ | ⟨rfl, _⟩ | ⟨rfl, _⟩ <;> decide +kernel
    have hon : Row.on (falProt owner mode)
        ⟨.when ("m_prot" ++ if x = "o" then "own" else if x = "g" then "grp" else "wld"),
          .bmex 3 (protBits (protNames x))⟩ = true := by
      rcases hx with ⟨rfl, _⟩ | ⟨rfl, _⟩ | ⟨rfl, _⟩
      · exact congrArg truthy e4
      · exact congrArg truthy e5
      · exact congrArg truthy e6
    have hnd : ((protBits (protNames x)).map (·.name)).Nodup := by
      rcases hx with ⟨rfl, _⟩ | ⟨rfl, _⟩ | ⟨rfl, _⟩ <;> decide
    have val : ∀ e ∈ protBits (protNames x), q e.name = some (.int (k / 2 ^ e.start % 2 ^ e.bits : Nat)) := by
      intro e he
      rcases h.over _ hmem hon 3 _ rfl e he hnd with ⟨h, _⟩ | h
      · cases h
      · rw [h, ← hw]; rfl
    have bit : ∀ (n : String) (v : Nat) (t : Bool), q n = some (.int (v % 2 : Nat)) → (v % 2 = 0 ↔ t = true) →
        attr q n = .ok (!t) := by
      intro n v t hq hv
      unfold attr
      rw [hq]
      simp only [truthy]
      cases t with
      | true => rw [hv.2 rfl]; rfl
      | false =>
        have : v % 2 ≠ 0 := fun h => by simpa using hv.1 h
        have : v % 2 = 1 := by omega
        rw [this]; rfl
    refine ⟨bit _ k _ ?_ k1, bit _ (k / 2) _ ?_ k2, bit _ (k / 4) _ ?_ k3⟩
    · have := val ⟨x ++ "_" ++ "noread", 0, 1⟩ (by simp [protBits, protNames])
      simpa using this
    · have := val ⟨x ++ "_" ++ "nowrite", 1, 1⟩ (by simp [protBits, protNames])
      simpa using this
    · have := val ⟨x ++ "_" ++ "noexec", 2, 1⟩ (by simp [protBits, protNames])
      simpa using this
  have m : ∀ n ∈ ["m_protown", "m_protgrp", "m_protwld"], attr q n = .ok true := by
    intro n hn
    unfold attr
    rw [menu n hn]
    rfl
  constructor
  · obtain ⟨o1, o2, o3⟩ := grp "o" 6 (.inl ⟨rfl, rfl⟩)
    obtain ⟨g1, g2, g3⟩ := grp "g" 3 (.inr (.inl ⟨rfl, rfl⟩))
    obtain ⟨w1, w2, w3⟩ := grp "w" 0 (.inr (.inr ⟨rfl, rfl⟩))
    have o1 : attr q "o_noread" = _ := o1
    have o2 : attr q "o_nowrite" = _ := o2
    have o3 : attr q "o_noexec" = _ := o3
    have g1 : attr q "g_noread" = _ := g1
    have g2 : attr q "g_nowrite" = _ := g2
    have g3 : attr q "g_noexec" = _ := g3
    have w1 : attr q "w_noread" = _ := w1
    have w2 : attr q "w_nowrite" = _ := w2
    have w3 : attr q "w_noexec" = _ := w3
    simp only [unixmode, m "m_protown" (by simp), m "m_protgrp" (by simp), m "m_protwld" (by simp), ok_bind,
      if_true, List.mapM_cons, List.mapM_nil, o1, o2, o3, g1, g2, g3, w1, w2, w3, permString]
    have sw : ∀ (b : Bool) (c : Char), (if (!b) = true then '-' else c) = if b = true then c else '-' := by
      intro b c; cases b <;> rfl
    simp only [pure_bind, sw, Bool.not_true, Bool.false_eq_true, if_false, List.map_cons, List.map_nil]
    rfl
  · rw [h.field ⟨.when "m_owner", .fld "owner" (.a 40)⟩ (by rw [prot_body]; simp) (congrArg truthy e1) "owner" _
      rfl, e2]
    rfl

/-! ## What is left out, and what is not understood -/

/-- **Fields left out at the end.**  Any message that is decoded reads like the same message with the missing fields
written out: zero bytes, except for the fields with another default (`Row.filler`). -/
theorem omitted {L : Layout} (hL : L ∈ classes) {buf m rest : Bytes} {q : Attrs}
    (hs : split buf = .ok (m, rest)) (h : decode L buf = .ok (q, rest)) :
    ∃ (sub : List Row) (extra : Bytes), sub.Sublist L.rows ∧
      strictRows L.cls L.rows (m ++ (sub.map Row.filler).flatten) (fun _ => none) = .ok (q, extra) ∧
      (sub ≠ [] → extra = []) := by
  simp only [decode, hs, ok_bind, bind_ok] at h
  obtain ⟨q', h1, h2⟩ := h
  cases h2
  exact open_rows (classes_fill hL) h1

/-- The fields with another default: in the Access message what may be done to the file and what others may do
(reading), in the Control message the function (read). -/
theorem fillers {L : Layout} (hL : L ∈ classes) {r : Row} (hr : r ∈ L.rows) :
    (∃ n, r.filler = List.replicate n 0) ∨ (L = access ∧ r.filler = [2]) ∨ (L = control ∧ r.filler = [1]) := by
  have : ∀ L ∈ classes, ∀ r ∈ L.rows, r.filler.all (· == 0) = true ∨ (L = access ∧ r.filler = [2]) ∨
      (L = control ∧ r.filler = [1]) := by decide +kernel
  rcases this L hL r hr with h | h
  · refine .inl ⟨r.filler.length, List.eq_replicate_iff.2 ⟨rfl, fun b hb => ?_⟩⟩
    simpa using List.all_eq_true.1 h b hb
  · exact .inr h

/-- Only lengths alone are understood: with any other header flags the message is taken to fill the block. -/
theorem other_flags_swallow (t f : UInt8) (b : Bytes) (h2 : f ≠ 2) (h6 : f ≠ 6) :
    split (t :: f :: b) = .ok (t :: f :: b, []) := by
  unfold split
  by_cases h0 : f = 0
  · subst h0; rfl
  · simp only [if_neg h0, if_neg h2, if_neg h6]

/-- A length that says more than there is: an exception. -/
theorem length_beyond_end (t n : UInt8) (b : Bytes) (h : b.length < n.toNat) :
    decodeAny (t :: 2 :: n :: b) = .error .other ∨ ∃ e, findClass (t :: 2 :: n :: b) = .error e := by
  cases hf : findClass (t :: 2 :: n :: b) with
  | error e => exact .inr ⟨e, rfl⟩
  | ok L =>
    left
    simp only [decodeAny, hf, ok_bind, decode, split]
    rw [if_neg (by decide), if_pos trivial, if_pos h]
    rfl

/-- Two acknowledgements in a block, each with a stream identification and a length: the second is not seen. -/
example : (decodeAny [6, 3, 0, 0, 6, 3, 0, 0]).map (fun x => (x.1, x.2.2)) = .ok (ack, []) := by decide +kernel

/-- **Spooling is shown wrongly.**  `fb_spl` stands for a file option (bit 20 of FOP) and for a device
characteristic (bit 9 of DEV); if the message has both fields the first is overwritten. -/
theorem spool_option_lost :
    (decodeAny [2, 0, 0x80, 0xa0, 0x01, 0x80, 0x80, 0x40, 0]).map (fun x => x.2.1 "fb_spl") =
      .ok (some (.int 0)) ∧
    (decodeAny [2, 0, 0x80, 0x20, 0x80, 0x80, 0x40]).map (fun x => x.2.1 "fb_spl") = .ok (some (.int 1)) := by
  decide +kernel

/-- **Long names.**  A Name message whose text has more than 200 characters, or any that is not Latin-1, cannot be
encoded; the listener cuts the name of a file but not that of a directory (fal.py 108, 168). -/
theorem long_name_refused {p : Attrs} {s : List Nat} (hs : p "namespec" = some (.str s))
    (h : 200 < s.length ∨ ∃ c ∈ s, 256 ≤ c) : ∀ b, encode name p ≠ .ok b := by
  intro b hb
  have hm : (⟨.always, .fld "namespec" (.a 200)⟩ : Row) ∈ name.rows := by decide +kernel
  obtain ⟨x, hx⟩ := enc_on hb _ hm
  have hg : name.cls.get p "namespec" = some (.str s) := by
    rw [get_free (L := name) p (by decide) (by decide) (by decide), hs]
  simp only [encRow, encCore, hg, Option.getD_some, Fld.codec, cA] at hx
  obtain ⟨h1, h2⟩ := aEnc_ok.1 hx
  have h3 := (iEnc_ok.1 h2).1
  rw [List.length_map] at h3
  rcases h with h | ⟨c, hc, h⟩
  · omega
  · have := h1 c hc; omega

/-! ## Text of a status -/

/-- The keys of `maccodes`, dap_packets.py 585-595. -/
def macKeys : List Nat := [0, 1, 2, 4, 5, 6, 7, 8, 9, 10]

/-- `Status.__str__`, dap_packets.py 1093-1110, for any tables of texts; `none` if a variable is used that has no
value. -/
def statusText (mac : Nat → String) (mic289 micRms mic10 : Nat → Option String) (other : Nat → String)
    (maccode miccode : Nat) : Option String :=
  if macKeys.contains maccode then
    let t := if [2, 8, 9].contains maccode then mic289 miccode
      else if [0, 1, 4, 5, 6, 7].contains maccode then micRms miccode
      else if maccode = 10 then mic10 miccode
      else some ""
    some (mac maccode ++ ": " ++ t.getD (other miccode))
  else none

/-- **Unknown codes.**  Only the ten known major codes can be shown; for the other six a status message can carry,
showing it fails. -/
theorem status_text (mac : Nat → String) (a b c : Nat → Option String) (other : Nat → String)
    (maccode miccode : Nat) (h : maccode < 16) :
    statusText mac a b c other maccode miccode = none ↔ maccode = 3 ∨ 11 ≤ maccode := by
  unfold statusText
  have : macKeys.contains maccode = true ↔ ¬ (maccode = 3 ∨ 11 ≤ maccode) := by
    simp only [macKeys, List.contains_iff_mem, List.mem_cons, List.not_mem_nil, or_false]
    omega
  by_cases hk : macKeys.contains maccode = true
  · rw [if_pos hk]; simp [this.1 hk]
  · rw [if_neg hk]; simp only [true_iff]; exact Classical.byContradiction fun hn => hk (this.2 hn)

/-! ## Examples -/

/-- An Access request cut off after the file name: read access, nothing else. -/
example : (decodeAny [3, 0, 1, 0, 1, 65]).map (fun x => (x.1, ["filespec", "fb_get", "fb_put",
      "shr_fb_get", "main"].map x.2.1)) =
    .ok (access, [some (.str [65]), some (.int 1), some (.int 0), some (.int 1), some (.int 0)]) := by
  decide +kernel

/-- A Control message of one byte: get. -/
example : (decodeAny [4]).map (fun x => (x.1, x.2.1 "ctlfunc", x.2.1 "m_rac", x.2.1 "rac")) =
    .ok (control, some (.int 1), some (.int 0), none) := by decide +kernel

/-- The protection of a file `rw-r-----`, owner `A`: sent and read. -/
example : ∃ body q, Item.Valid ⟨prot, falProt [65] 0o640, body⟩ ∧
    decodeAny (14 :: 0 :: body) = .ok (prot, q, []) ∧ unixmode q = .ok "rw-r-----".toList := by
  obtain ⟨body, h⟩ := mode_sendable [65] 0o640 (by decide) (by decide)
  obtain ⟨q, h1, h2⟩ := message_roundtrip (L := prot) (by decide +kernel) (falProt_usual _ _) h.2.2
  exact ⟨body, q, h, h1, (mode_shown [65] 0o640 h2).1.trans (by decide +kernel)⟩

end Verif.Dap
