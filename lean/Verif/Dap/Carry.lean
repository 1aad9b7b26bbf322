import Verif.Dap.Header
import Verif.Fal.BlockProps

/-!
From the rows of a message to its attributes.
-/

namespace Verif.Dap

open Verif.Fields

/-! ## What a receiver is to find -/

/-- Whether a row is part of the message. -/
def Row.on (p : Attrs) (r : Row) : Bool :=
  match r.guard with
  | .always | .orElse _ => true
  | .when f | .whenElse f _ => truthy (p f)

/-- The attributes of a received message, for one sent with the attributes `p`.  Excepted is one attribute of one
class that stands for two different things. -/
structure Received (L : Layout) (p q : Attrs) : Prop where
  /-- a field has the value given to it, or else zero or nothing -/
  field : ∀ r ∈ L.body, r.on p = true → ∀ n f, r.core = .fld n f →
    q n = some (f.shown ((p n).getD f.unset))
  /-- a bit or group of bits has the value given to it, or else zero -/
  bits : ∀ r ∈ L.body, r.on p = true → r.core.apart = true → ∀ n ∈ r.core.names,
    (L.type = 2 ∧ n = "fb_spl") ∨ q n = some ((p n).getD (.int 0))
  /-- where bits overlap, the value shows all that were set -/
  over : ∀ r ∈ L.body, r.on p = true → ∀ m es, r.core = .bmex m es → ∀ e ∈ es, (es.map (·.name)).Nodup →
    (L.type = 2 ∧ e.name = "fb_spl") ∨
    q e.name = some (.int (word L.cls p es / 2 ^ e.start % 2 ^ e.bits))
  /-- what is not part of the message is not set -/
  off : ∀ r ∈ L.body, r.on p = false → ∀ f, r.guard = .when f → ∀ n ∈ r.core.names,
    (L.type = 2 ∧ n = "fb_spl") ∨ q n = none
  /-- or has its default -/
  dflt : ∀ r ∈ L.body, r.on p = false → ∀ f d, r.guard = .whenElse f d → ∀ n ∈ r.core.names,
    (L.type = 2 ∧ n = "fb_spl") ∨ q n = latest (standing d r.core) n

/-! ## Proof -/

theorem body_nodup {L : Layout} (hL : L ∈ classes) :
    ((L.body.flatMap (·.core.names)).filter fun n => !(L.type == 2 && n == "fb_spl")).Nodup := by
  have : ∀ L ∈ classes,
      ((L.body.flatMap (·.core.names)).filter fun n => !(L.type == 2 && n == "fb_spl")).Nodup := by
    decide +kernel
  exact this L hL

theorem body_apart {L : Layout} (hL : L ∈ classes) : ∀ r ∈ L.body, ∀ n ∈ r.core.names,
    n ∉ ["type", "m_streamid", "m_length", "m_len256", "m_bitcnt", "m_syspec", "m_seg", "streamid",
      "length", "len256"] := by
  have : ∀ L ∈ classes, ∀ r ∈ L.body, ∀ n ∈ r.core.names,
      n ∉ ["type", "m_streamid", "m_length", "m_len256", "m_bitcnt", "m_syspec", "m_seg", "streamid",
        "length", "len256"] := by decide +kernel
  exact this L hL

theorem body_flags {L : Layout} (hL : L ∈ classes) : ∀ r ∈ L.body, ∀ n ∈ r.guard.flags,
    n ∉ ["type", "m_syspec", "m_seg"] := by
  have : ∀ L ∈ classes, ∀ r ∈ L.body, ∀ n ∈ r.guard.flags, n ∉ ["type", "m_syspec", "m_seg"] := by
    decide +kernel
  exact this L hL

theorem bits_nodup {L : Layout} (hL : L ∈ classes) : ∀ r ∈ L.body, r.core.names.Nodup := by
  have : ∀ L ∈ classes, ∀ r ∈ L.body, r.core.names.Nodup := by decide +kernel
  exact this L hL

theorem field_free {L : Layout} (hL : L ∈ classes) : ∀ r ∈ L.body, r.core.apart = false →
    ∀ n ∈ r.core.names, ¬ (L.type = 2 ∧ n = "fb_spl") := by
  have : ∀ L ∈ classes, ∀ r ∈ L.body, r.core.apart = false →
    ∀ n ∈ r.core.names, ¬ (L.type = 2 ∧ n = "fb_spl") := by decide +kernel
  exact this L hL

theorem latest_flatMap_none {c : PktClass} {p : Attrs} {rows : List Row} {n : String}
    (h : ∀ r ∈ rows, n ∉ r.core.names) : latest (rows.flatMap (given c p)) n = none := by
  refine latest_none (fun hm => ?_)
  simp only [List.map_flatMap, List.mem_flatMap] at hm
  obtain ⟨r, hr, hn⟩ := hm
  exact h r hr (given_names c p r hn)

/-- The value of an attribute comes from the row that has its name. -/
theorem conveyed {L : Layout} (hL : L ∈ classes) {p q : Attrs} (hb : Off p "m_bitcnt")
    (hq : Shows L.cls (L.rows.flatMap (given L.cls p)) q) {r : Row} (hr : r ∈ L.body) {n : String}
    (hn : n ∈ r.core.names) (hx : ¬ (L.type = 2 ∧ n = "fb_spl")) : q n = latest (given L.cls p r) n := by
  have ha := body_apart hL r hr n hn
  simp only [List.mem_cons, List.not_mem_nil, or_false, not_or] at ha
  obtain ⟨n1, n2, n3, n4, n5, n6, n7, n8, n9, n10⟩ := ha
  have h1 := hq n
  rw [get_free (L := L) q n1 n6 n7] at h1
  have hf : L.cls.fixed n = none := by simp [Layout.cls, n1, n6, n7]
  rw [hf] at h1
  simp only at h1
  rw [h1, rows_body hL, List.flatMap_append, List.flatMap_append, latest_append, latest_append]
  have hbase : latest (dapBaseRows.flatMap (given L.cls p)) n = none :=
    latest_flatMap_none (by simp [dapBaseRows, Core.names, n1])
  have hhead : latest (dapHeaderRows.flatMap (given L.cls p)) n = none := by
    refine latest_none (fun hm => ?_)
    simp only [List.map_flatMap, List.mem_flatMap] at hm
    obtain ⟨r', hr', hn'⟩ := hm
    have hc := given_names _ _ _ hn'
    simp only [dapHeaderRows, List.mem_cons, List.not_mem_nil, or_false] at hr'
    rcases hr' with rfl | rfl | rfl | rfl | rfl
    · simp [Core.names, n2, n3, n4, n5, n6, n7] at hc
    · simp [Core.names, n8] at hc
    · simp [Core.names, n9] at hc
    · simp [Core.names, n10] at hc
    · simp only [given, get_free (L := L) p (n := "m_bitcnt") (by decide) (by decide) (by decide), hb.falsy] at hn'
      simp at hn'
  obtain ⟨l1, l2, hl⟩ := List.append_of_mem hr
  have hnd := body_nodup hL
  rw [hl] at hnd ⊢
  simp only [List.flatMap_append, List.flatMap_cons, List.filter_append] at hnd
  have hxn : (!(L.type == 2 && n == "fb_spl")) = true := by
    cases h2 : (L.type == 2 && n == "fb_spl") with
    | false => rfl
    | true =>
      simp only [Bool.and_eq_true, beq_iff_eq] at h2
      exact absurd h2 hx
  have m1 : ∀ (l : List Row) x, x ∈ l → n ∈ x.core.names →
      n ∈ (l.flatMap (·.core.names)).filter fun n => !(L.type == 2 && n == "fb_spl") := by
    intro l x hx' hnx
    exact List.mem_filter.2 ⟨List.mem_flatMap.2 ⟨x, hx', hnx⟩, hxn⟩
  have mr : n ∈ r.core.names.filter fun n => !(L.type == 2 && n == "fb_spl") := List.mem_filter.2 ⟨hn, hxn⟩
  rw [List.nodup_append] at hnd
  obtain ⟨-, hnd2, hd1⟩ := hnd
  rw [List.nodup_append] at hnd2
  obtain ⟨-, -, hd2⟩ := hnd2
  have e1 : latest (l1.flatMap (given L.cls p)) n = none := latest_flatMap_none (fun x hx' hnx =>
    hd1 n (m1 l1 x hx' hnx) n (List.mem_append.2 (.inl mr)) rfl)
  have e2 : latest (l2.flatMap (given L.cls p)) n = none := latest_flatMap_none (fun x hx' hnx =>
    hd2 n mr n (m1 l2 x hx' hnx) rfl)
  rw [List.flatMap_append, List.flatMap_cons, latest_append, latest_append, e1, e2, hbase, hhead]
  cases latest (given L.cls p r) n <;> rfl

theorem latest_map {α : Type} {g : α → String × Val} : ∀ {es : List α} {e : α}, e ∈ es →
    (es.map fun x => (g x).1).Nodup → latest (es.map g) (g e).1 = some (g e).2 := by
  intro es
  induction es with
  | nil => intro e he; cases he
  | cons a es ih =>
    intro e he hnd
    rw [List.map_cons, List.nodup_cons] at hnd
    rw [List.map_cons, ← List.singleton_append, latest_append, latest_single]
    rcases List.mem_cons.1 he with rfl | he
    · rw [latest_none (by simpa using hnd.1), if_pos rfl]; rfl
    · rw [ih he hnd.2]; rfl

theorem on_truthy {L : Layout} (hL : L ∈ classes) {p : Attrs} {r : Row} (hr : r ∈ L.body) {f : String}
    (hf : f ∈ r.guard.flags) : truthy (L.cls.get p f) = truthy (p f) := by
  have := body_flags hL r hr f hf
  simp only [List.mem_cons, List.not_mem_nil, or_false, not_or] at this
  rw [get_free p this.1 this.2.1 this.2.2]

theorem given_on {L : Layout} (hL : L ∈ classes) {p : Attrs} {r : Row} (hr : r ∈ L.body)
    (h : r.on p = true) : given L.cls p r = sent L.cls p r.core := by
  have ht := fun f hf => on_truthy hL (p := p) hr (f := f) hf
  unfold Row.on at h
  unfold given
  cases hg : r.guard with
  | always => rfl
  | orElse d => rfl
  | when f => rw [hg] at h ht; simp only at h ⊢; rw [ht f (by simp [Guard.flags]), h]; rfl
  | whenElse f d => rw [hg] at h ht; simp only at h ⊢; rw [ht f (by simp [Guard.flags]), h]; rfl

theorem enc_on {c : PktClass} {p : Attrs} {rows : List Row} {b : Bytes} (h : encRows c p rows = .ok b) :
    ∀ r ∈ rows, ∃ x, encRow c p r = .ok x := by
  induction rows generalizing b with
  | nil => intro r hr; cases hr
  | cons a rows ih =>
    intro r hr
    simp only [encRows, bind_ok] at h
    obtain ⟨x, hx, y, hy, _⟩ := h
    rcases List.mem_cons.1 hr with rfl | hr
    · exact ⟨x, hx⟩
    · exact ih hy r hr

theorem encCore_on {L : Layout} (hL : L ∈ classes) {p : Attrs} {r : Row} (hr : r ∈ L.body)
    (h : r.on p = true) : encRow L.cls p r = encCore L.cls p r.core := by
  have ht := fun f hf => on_truthy hL (p := p) hr (f := f) hf
  unfold Row.on at h
  unfold encRow
  cases hg : r.guard with
  | always => rfl
  | orElse d => rfl
  | when f => rw [hg] at h ht; simp only at h ⊢; rw [ht f (by simp [Guard.flags]), h]; rfl
  | whenElse f d => rw [hg] at h ht; simp only at h ⊢; rw [ht f (by simp [Guard.flags]), h]; rfl

theorem received_of_shows {L : Layout} (hL : L ∈ classes) {p q : Attrs} {b : Bytes} (hb : Off p "m_bitcnt")
    (he : encRows L.cls p L.body = .ok b)
    (hq : Shows L.cls (L.rows.flatMap (given L.cls p)) q) : Received L p q := by
  have free : ∀ r ∈ L.body, ∀ n ∈ r.core.names, L.cls.get p n = p n := by
    intro r hr n hn
    have := body_apart hL r hr n hn
    simp only [List.mem_cons, List.not_mem_nil, or_false, not_or] at this
    exact get_free p this.1 this.2.2.2.2.2.1 this.2.2.2.2.2.2.1
  constructor
  · intro r hr hon n f hc
    have hn : n ∈ r.core.names := by rw [hc]; simp [Core.names]
    have hx := field_free hL r hr (by rw [hc]; rfl) n hn
    rw [conveyed hL hb hq hr hn hx, given_on hL hr hon, hc]
    simp only [sent, latest_single, if_true, free r hr n hn]
  · intro r hr hon ha n hn
    by_cases hx : L.type = 2 ∧ n = "fb_spl"
    · exact .inl hx
    · right
      rw [conveyed hL hb hq hr hn hx, given_on hL hr hon]
      obtain ⟨x, hx1⟩ := enc_on he r hr
      rw [encCore_on hL hr hon] at hx1
      obtain ⟨v, hv⟩ := latest_mem (ws := sent L.cls p r.core) (n := n) (by rw [sent_names]; exact hn)
      rw [hv]
      have h1 := (sent_apart ha hx1 _ (latest_some hv)).2
      rw [free r hr n hn] at h1
      exact congrArg some h1.symm
  · intro r hr hon m es hc e he' hnd
    have hn : e.name ∈ r.core.names := by rw [hc]; exact List.mem_map_of_mem he'
    by_cases hx : L.type = 2 ∧ e.name = "fb_spl"
    · exact .inl hx
    · right
      rw [conveyed hL hb hq hr hn hx, given_on hL hr hon, hc]
      exact latest_map (g := fun e : Elem =>
        (e.name, Val.int ((word L.cls p es / 2 ^ e.start % 2 ^ e.bits : Nat) : Int))) he' hnd
  · intro r hr hoff f hg n hn
    by_cases hx : L.type = 2 ∧ n = "fb_spl"
    · exact .inl hx
    · right
      rw [conveyed hL hb hq hr hn hx]
      have ht := on_truthy hL (p := p) hr (f := f) (by rw [hg]; simp [Guard.flags])
      unfold given
      unfold Row.on at hoff
      rw [hg] at hoff ⊢
      simp only at hoff ⊢
      rw [ht, hoff]; rfl
  · intro r hr hoff f d hg n hn
    by_cases hx : L.type = 2 ∧ n = "fb_spl"
    · exact .inl hx
    · right
      rw [conveyed hL hb hq hr hn hx]
      have ht := on_truthy hL (p := p) hr (f := f) (by rw [hg]; simp [Guard.flags])
      unfold given
      unfold Row.on at hoff
      rw [hg] at hoff ⊢
      simp only at hoff ⊢
      rw [ht, hoff]; rfl

/-! ## Framing -/

/-- The attributes `send` gives a message (dap.py 118-160): no length, length, length of two bytes. -/
def asPlain (p : Attrs) : Attrs := setTo p [("m_length", .int 0), ("m_len256", .int 0)]

def asShort (p : Attrs) (n : Nat) : Attrs :=
  setTo p [("m_length", .int 1), ("m_len256", .int 0), ("length", .int n)]

def asLong (p : Attrs) (n m : Nat) : Attrs :=
  setTo p [("m_length", .int 1), ("m_len256", .int 1), ("length", .int n), ("len256", .int m)]

theorem setTo_other (p : Attrs) (ws : List (String × Val)) {n : String} (h : ws.lookup n = none) :
    setTo p ws n = p n := by simp [setTo, h]

theorem off_setTo {p : Attrs} {ws : List (String × Val)} {f : String} (h : ws.lookup f = none)
    (ho : Off p f) : Off (setTo p ws) f := by
  unfold Off
  rw [setTo_other p ws h]
  exact ho

theorem encode_plain {L : Layout} (hL : L ∈ classes) {p : Attrs} (hs : Off p "m_streamid")
    (hb : Off p "m_bitcnt") {body : Bytes} (h : encRows L.cls p L.body = .ok body) :
    encode L (asPlain p) = .ok (Fal.enc0 ⟨UInt8.ofNat L.type, body⟩) := by
  rw [header_bytes (p := asPlain p) hL (off_setTo rfl hs) (off_setTo rfl hb) 0 0 rfl rfl (by decide) (by decide) 0 0
    (by simp) (by simp)]
  rw [show encRows L.cls (asPlain p) L.body = encRows L.cls p L.body from body_setTo hL p _ (by simp), h]
  rfl

theorem encode_short {L : Layout} (hL : L ∈ classes) {p : Attrs} (hs : Off p "m_streamid")
    (hb : Off p "m_bitcnt") {body : Bytes} (h : encRows L.cls p L.body = .ok body)
    (hl : body.length < 256) :
    encode L (asShort p body.length) = .ok (Fal.enc1 ⟨UInt8.ofNat L.type, body⟩) := by
  rw [header_bytes (p := asShort p body.length) hL (off_setTo rfl hs) (off_setTo rfl hb) 1 0 rfl rfl (by decide) (by decide) body.length 0
    (fun _ => ⟨rfl, hl⟩) (by simp)]
  rw [show encRows L.cls (asShort p body.length) L.body = encRows L.cls p L.body from body_setTo hL p _ (by simp), h]
  rfl

theorem encode_long {L : Layout} (hL : L ∈ classes) {p : Attrs} (hs : Off p "m_streamid")
    (hb : Off p "m_bitcnt") {body : Bytes} (h : encRows L.cls p L.body = .ok body)
    (hl : body.length < 65536) :
    encode L (asLong p (body.length % 256) (body.length / 256)) =
      .ok (Fal.enc2 ⟨UInt8.ofNat L.type, body⟩) := by
  rw [header_bytes (p := asLong p (body.length % 256) (body.length / 256)) hL (off_setTo rfl hs)
    (off_setTo rfl hb) 1 1 rfl rfl (by decide) (by decide)
    (body.length % 256) (body.length / 256) (fun _ => ⟨rfl, by omega⟩) (fun _ => ⟨rfl, by omega⟩)]
  rw [show encRows L.cls (asLong p (body.length % 256) (body.length / 256)) L.body = encRows L.cls p L.body from body_setTo hL p _ (by simp), h]
  rfl

/-- Splitting is that of the blocks of `Verif.Fal`. -/
theorem split_plain (m : Fal.Msg) : split (Fal.enc0 m) = .ok (Fal.enc0 m, []) := by
  simp [split, Fal.enc0]

theorem split_short (m : Fal.Msg) (h : m.body.length < 256) (r : Bytes) :
    split (Fal.enc1 m ++ r) = .ok (Fal.enc1 m, r) := by
  have e : (UInt8.ofNat m.body.length).toNat = m.body.length := ofNat_toNat_lt h
  simp only [split, Fal.enc1, List.cons_append, e]
  rw [if_neg (by decide), if_pos trivial, if_neg (by rw [List.length_append]; omega)]
  simp

theorem split_long (m : Fal.Msg) (h : m.body.length < 65536) (r : Bytes) :
    split (Fal.enc2 m ++ r) = .ok (Fal.enc2 m, r) := by
  have e1 : (UInt8.ofNat (m.body.length % 256)).toNat = m.body.length % 256 := ofNat_toNat_lt (by omega)
  have e2 : (UInt8.ofNat (m.body.length / 256)).toNat = m.body.length / 256 := ofNat_toNat_lt (by omega)
  have e3 : m.body.length % 256 + m.body.length / 256 * 256 = m.body.length := by omega
  simp only [split, Fal.enc2, List.cons_append, e1, e2, e3]
  rw [if_neg (by decide), if_neg (by decide), if_pos trivial, if_neg (by rw [List.length_append]; omega)]
  simp

theorem decode_split {L : Layout} (hL : L ∈ classes) {p : Attrs} {buf m rest : Bytes}
    (hm : encode L p = .ok m) (hs : split buf = .ok (m, rest))
    (hc : ∃ t, buf = UInt8.ofNat L.type :: t) :
    ∃ q, decodeAny buf = .ok (L, q, rest) ∧ Shows L.cls (L.rows.flatMap (given L.cls p)) q := by
  obtain ⟨q, h1, h2⟩ := message_step (classes_ok hL) hm
  refine ⟨q, ?_, h2⟩
  obtain ⟨t, rfl⟩ := hc
  simp [decodeAny, find_class hL, decode, hs, h1]

theorem on_setTo {L : Layout} (hL : L ∈ classes) {p : Attrs} {ws : List (String × Val)}
    (h : ∀ w ∈ ws, w.1 ∈ ["m_length", "m_len256", "length", "len256"]) {q : Attrs}
    (hr : Received L (setTo p ws) q) : Received L p q := by
  have hl : ∀ r ∈ L.body, ∀ n ∈ r.guard.flags ++ r.core.names, setTo p ws n = p n := by
    intro r hr n hn
    refine setTo_other p ws ?_
    cases hl : ws.lookup n with
    | none => rfl
    | some v =>
      exfalso
      apply body_names hL r hr n hn
      rw [List.lookup_eq_some_iff] at hl
      obtain ⟨a, b, rfl, _⟩ := hl
      exact h (n, v) (by simp)
  have hon : ∀ r ∈ L.body, r.on (setTo p ws) = r.on p := by
    intro r hr
    have := fun f hf => hl r hr f (List.mem_append.2 (.inl hf))
    unfold Row.on
    cases hg : r.guard with
    | always => rfl
    | orElse d => rfl
    | when f => rw [hg] at this; simp only; rw [this f (by simp [Guard.flags])]
    | whenElse f d => rw [hg] at this; simp only; rw [this f (by simp [Guard.flags])]
  have hnm : ∀ r ∈ L.body, ∀ n ∈ r.core.names, setTo p ws n = p n :=
    fun r hr n hn => hl r hr n (List.mem_append.2 (.inr hn))
  have hw : ∀ (es : List Elem), (∀ e ∈ es, setTo p ws e.name = p e.name) →
      word L.cls (setTo p ws) es = word L.cls p es := by
    intro es
    induction es with
    | nil => intro _; rfl
    | cons e es ih =>
      intro hh
      simp only [word, ih (fun x hx => hh x (by simp [hx]))]
      have : num L.cls (setTo p ws) e.name = num L.cls p e.name := by
        unfold num PktClass.get
        cases L.cls.fixed e.name with
        | some w => rfl
        | none => simp only [hh e (by simp)]
      rw [this]
  constructor
  · intro r hm ho n f hc
    rw [hr.field r hm (by rw [hon r hm]; exact ho) n f hc, hnm r hm n (by rw [hc]; simp [Core.names])]
  · intro r hm ho ha n hn
    have := hr.bits r hm (by rw [hon r hm]; exact ho) ha n hn
    rwa [hnm r hm n hn] at this
  · intro r hm ho m es hc e he hnd
    have := hr.over r hm (by rw [hon r hm]; exact ho) m es hc e he hnd
    rwa [hw es (fun e he => hnm r hm e.name (by rw [hc]; exact List.mem_map_of_mem he))] at this
  · intro r hm ho f hg n hn
    exact hr.off r hm (by rw [hon r hm]; exact ho) f hg n hn
  · intro r hm ho f d hg n hn
    exact hr.dflt r hm (by rw [hon r hm]; exact ho) f d hg n hn

end Verif.Dap
