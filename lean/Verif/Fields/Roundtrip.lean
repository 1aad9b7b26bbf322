import Verif.Fields.Lemmas

/-!
Decoding what `Packet.encode` produced, for an arbitrary layout.
-/

namespace Verif.Fields

/-! ## Specification vocabulary -/

/-- What happens to an attribute that is not set: a default is sent, or the
item is omitted. -/
inductive Slot
  | dflt (d : Val)
  | opt

/-- The value the receiver must see, given the sender's attribute. -/
def Slot.fill : Slot → Option Val → Option Val
  | .dflt d, v => some (v.getD d)
  | .opt, v => v

def TRow.slots : TRow → List (String × Slot)
  | .simple n _ => [(n, .opt)]
  | .bm es => es.map fun e => (e.name, .dflt (.int 0))

/-- The attributes a row carries. -/
def Row.slots : Row → List (String × Slot)
  | .simple n cd => [(n, .dflt cd.dflt)]
  | .bm es => es.map fun e => (e.name, .dflt (.int 0))
  | .res _ => []
  | .tlv _ _ _ items => items.flatMap fun i => i.2.slots

def slotsOf (rs : List Row) : List (String × Slot) := rs.flatMap Row.slots

/-- A codec reproduces the value `v`; `last` says that the field ends the
buffer. -/
def Faithful (last : Prop) (cd : Codec) (v : Val) : Prop :=
  ∀ b rest, (last → rest = []) → cd.enc v = .ok b → cd.dec (b ++ rest) = .ok (v, rest)

def TRow.Good (c : PktClass) (p : Attrs) : TRow → Prop
  | .simple n cd => ∀ v, c.get p n = some v → Faithful True cd v
  | .bm es => es.Pairwise Elem.Apart

/-- A row is well formed, and its values are ones its codec reproduces. -/
def Row.Good (c : PktClass) (p : Attrs) (last : Prop) : Row → Prop
  | .simple n cd => Faithful last cd ((c.get p n).getD cd.dflt)
  | .bm es => es.Pairwise Elem.Apart
  | .res _ => True
  | .tlv tlen llen _ items => last ∧ 0 < tlen + llen ∧ (items.map (·.1)).Nodup ∧
      ∀ i ∈ items, i.2.Good c p

def RowsGood (c : PktClass) (p : Attrs) (last : Prop) : List Row → Prop
  | [] => True
  | [r] => r.Good c p last
  | r :: rs => r.Good c p False ∧ RowsGood c p last rs

/-! ## Proof -/

/-- `acc'` is `acc` with the slots of `ss` received from `p`. -/
structure Recv (c : PktClass) (p acc acc' : Attrs) (ss : List (String × Slot)) : Prop where
  got : ∀ s ∈ ss, c.get acc' s.1 = s.2.fill (c.get p s.1)
  same : ∀ n, n ∉ ss.map (·.1) → c.get acc' n = c.get acc n

theorem Recv.nil (c : PktClass) (p acc : Attrs) : Recv c p acc acc [] :=
  ⟨by simp, fun _ _ => rfl⟩

theorem Recv.append {c : PktClass} {p a1 a2 a3 : Attrs} {s1 s2 : List (String × Slot)}
    (h1 : Recv c p a1 a2 s1) (h2 : Recv c p a2 a3 s2)
    (hd : ∀ n ∈ s1.map (·.1), n ∉ s2.map (·.1)) : Recv c p a1 a3 (s1 ++ s2) := by
  constructor
  · intro s hs
    rcases List.mem_append.1 hs with hs | hs
    · rw [h2.same _ (hd _ (List.mem_map_of_mem hs)), h1.got s hs]
    · exact h2.got s hs
  · intro n hn
    rw [List.map_append, List.mem_append, not_or] at hn
    rw [h2.same n hn.2, h1.same n hn.1]

theorem set_dflt (c : PktClass) (p acc : Attrs) (n : String) (d : Val) :
    ∃ acc', c.set acc n ((c.get p n).getD d) = .ok acc' ∧
      Recv c p acc acc' [(n, .dflt d)] := by
  unfold PktClass.set
  cases hf : c.fixed n with
  | some wa =>
    obtain ⟨w, any⟩ := wa
    have hg : ∀ q, c.get q n = some w := by intro q; simp [PktClass.get, hf]
    refine ⟨acc, by simp [hg], ?_, ?_⟩
    · intro s hs
      simp only [List.mem_singleton] at hs
      subst hs
      simp [Slot.fill, hg]
    · intro m _; rfl
  | none =>
    refine ⟨_, rfl, ?_, ?_⟩
    · intro s hs
      simp only [List.mem_singleton] at hs
      subst hs
      simp [Slot.fill, PktClass.get, hf]
    · intro m hm
      simp only [List.map_cons, List.map_nil, List.mem_singleton] at hm
      simp [PktClass.get, hm]

theorem bmSet_recv {c : PktClass} {p : Attrs} {field : Nat} :
    ∀ (es : List Elem) (acc : Attrs),
      (∀ e ∈ es, (c.get p e.name).getD (.int 0) = .int (bmGet field e)) →
      (es.map (·.name)).Nodup →
      ∃ acc', bmSet c field es acc = .ok acc' ∧ Recv c p acc acc' (Row.bm es).slots := by
  intro es
  induction es with
  | nil => intro acc _ _; exact ⟨acc, rfl, Recv.nil c p acc⟩
  | cons e es ih =>
    intro acc hv hn
    rw [List.map_cons, List.nodup_cons] at hn
    obtain ⟨a1, h1, r1⟩ := set_dflt c p acc e.name (.int 0)
    rw [hv e (by simp)] at h1
    obtain ⟨a2, h2, r2⟩ := ih a1 (fun x hx => hv x (by simp [hx])) hn.2
    refine ⟨a2, by simp [bmSet, h1, h2], ?_⟩
    have := r1.append r2 ?_
    · simpa [Row.slots] using this
    · intro n hnn
      simp only [List.map_cons, List.map_nil, List.mem_singleton] at hnn
      subst hnn
      intro hc
      apply hn.1
      simpa [Row.slots, Function.comp_def] using hc

theorem bmDec_enc {c : PktClass} {p acc : Attrs} {es : List Elem} {b rest : Bytes}
    (hd : es.Pairwise Elem.Apart) (hn : (es.map (·.name)).Nodup)
    (h : bmEnc c p es = .ok b) :
    ∃ acc', bmDec c es (b ++ rest) acc = .ok (acc', rest) ∧
      Recv c p acc acc' (Row.bm es).slots := by
  unfold bmEnc at h
  rw [bind_ok] at h
  obtain ⟨F, hF, hb⟩ := h
  obtain ⟨h0, h1, rfl⟩ := toBytes_ok.1 hb
  have hlt := bmField_lt hF
  have hFn : ((F : Int)).toNat = F := by simp
  rw [hFn]
  obtain ⟨acc', h2, h3⟩ := bmSet_recv (field := F) es acc (fun e he => bmGet_eq hF hd he) hn
  refine ⟨acc', ?_, h3⟩
  unfold bmDec
  rw [require_append (by simp), List.take_left' (by simp), List.drop_left' (by simp),
    fromLe_le_lt hlt]
  simp [h2]

theorem bmEnc_length {c : PktClass} {p : Attrs} {es : List Elem} {b : Bytes}
    (h : bmEnc c p es = .ok b) : b.length = bmLen es := by
  unfold bmEnc at h
  rw [bind_ok] at h
  obtain ⟨F, hF, hb⟩ := h
  obtain ⟨_, _, rfl⟩ := toBytes_ok.1 hb
  simp

theorem lookup_of_mem {items : List (Nat × TRow)} (hn : (items.map (·.1)).Nodup)
    {k : Nat} {r : TRow} (h : (k, r) ∈ items) : items.lookup k = some r := by
  induction items with
  | nil => simp at h
  | cons x xs ih =>
    obtain ⟨k', r'⟩ := x
    rw [List.map_cons, List.nodup_cons] at hn
    rcases List.mem_cons.1 h with h | h
    · simp only [Prod.mk.injEq] at h
      obtain ⟨rfl, rfl⟩ := h
      simp
    · have hk : k ≠ k' := by
        intro hkk
        exact hn.1 (List.mem_map.2 ⟨(k, r), h, hkk⟩)
      rw [List.lookup_cons]
      have : (k == k') = false := by simpa using hk
      rw [this]
      exact ih hn.2 h

theorem tDec_enc {c : PktClass} {p acc : Attrs} {wild : Bool} {items : List (Nat × TRow)}
    {k : Nat} {r : TRow} {v : Bytes} (hl : items.lookup k = some r)
    (hg : r.Good c p) (hn : (r.slots.map (·.1)).Nodup) (h : tEnc c p r = .ok (some v)) :
    ∃ acc', tDec c wild items k v acc = .ok acc' ∧ Recv c p acc acc' r.slots := by
  unfold tDec
  rw [hl]
  cases r with
  | simple n cd =>
    simp only [tEnc] at h
    cases hgn : c.get p n with
    | none => simp [hgn] at h
    | some x =>
      rw [hgn] at h
      rw [map_ok] at h
      obtain ⟨b, hb, hbv⟩ := h
      injection hbv with hbv
      subst hbv
      have hf := hg x hgn b [] (fun _ => rfl) hb
      rw [List.append_nil] at hf
      obtain ⟨a1, h1, r1⟩ := set_dflt c p acc n (.int 0)
      rw [hgn, Option.getD_some] at h1
      refine ⟨a1, ?_, ?_⟩
      · simp [hf, h1]
      · refine ⟨?_, ?_⟩
        · intro s hs
          simp only [TRow.slots, List.mem_singleton] at hs
          subst hs
          have := r1.got (n, .dflt (.int 0)) (by simp)
          simpa [Slot.fill, hgn] using this
        · intro m hm
          exact r1.same m (by simpa [TRow.slots] using hm)
  | bm es =>
    simp only [tEnc] at h
    rw [map_ok] at h
    obtain ⟨b, hb, hbv⟩ := h
    injection hbv with hbv
    subst hbv
    have hn' : (es.map (·.name)).Nodup := by
      simpa [TRow.slots, Function.comp_def] using hn
    obtain ⟨a1, h1, r1⟩ := bmDec_enc (acc := acc) (rest := []) hg hn' hb
    rw [List.append_nil] at h1
    refine ⟨a1, ?_, r1⟩
    simp [h1]

theorem tEnc_none {c : PktClass} {p : Attrs} {r : TRow} (h : tEnc c p r = .ok none) :
    ∃ n cd, r = .simple n cd ∧ c.get p n = none := by
  cases r with
  | simple n cd =>
    simp only [tEnc] at h
    cases hgn : c.get p n with
    | none => exact ⟨n, cd, rfl, hgn⟩
    | some x =>
      rw [hgn] at h
      simp only [map_ok] at h
      obtain ⟨b, _, hb⟩ := h
      cases hb
  | bm es =>
    simp only [tEnc] at h
    rw [map_ok] at h
    obtain ⟨b, _, hb⟩ := h
    cases hb

theorem tlvDec_enc {c : PktClass} {p : Attrs} {tlen llen : Nat} {wild : Bool}
    {codedict : List (Nat × TRow)} (hpos : 0 < tlen + llen)
    (hk : (codedict.map (·.1)).Nodup) :
    ∀ (items : List (Nat × TRow)) (b : Bytes) (acc : Attrs),
      (∀ i ∈ items, i ∈ codedict) → (∀ i ∈ items, i.2.Good c p) →
      ((Row.tlv tlen llen wild items).slots.map (·.1)).Nodup →
      (∀ n ∈ (Row.tlv tlen llen wild items).slots.map (·.1),
        c.get acc n = c.get (fun _ => none) n) →
      tlvEnc c p tlen llen items = .ok b →
      ∃ acc', tlvDec c tlen llen wild codedict b acc = .ok acc' ∧
        Recv c p acc acc' (Row.tlv tlen llen wild items).slots := by
  intro items
  induction items with
  | nil =>
    intro b acc _ _ _ _ h
    simp only [tlvEnc, Except.ok.injEq] at h
    subst h
    refine ⟨acc, ?_, Recv.nil c p acc⟩
    rw [tlvDec, dif_neg (by omega), if_pos rfl]
  | cons i items ih =>
    intro b acc hsub hg hn hempty h
    obtain ⟨k, r⟩ := i
    have hslots : (Row.tlv tlen llen wild ((k, r) :: items)).slots =
        r.slots ++ (Row.tlv tlen llen wild items).slots := by
      simp [Row.slots]
    rw [hslots, List.map_append, List.nodup_append] at hn
    obtain ⟨hn1, hn2, hn3⟩ := hn
    rw [hslots] at hempty ⊢
    simp only [tlvEnc, bind_ok] at h
    obtain ⟨ov, hov, h⟩ := h
    cases ov with
    | none =>
      simp only at h
      obtain ⟨n, cd, rfl, hgn⟩ := tEnc_none hov
      obtain ⟨acc', h1, r1⟩ := ih b acc (fun i hi => hsub i (by simp [hi]))
        (fun i hi => hg i (by simp [hi])) hn2
        (fun n hn => hempty n (by rw [List.map_append]; exact List.mem_append_right _ hn)) h
      refine ⟨acc', h1, ?_⟩
      have r0 : Recv c p acc acc (TRow.simple n cd).slots := by
        refine ⟨?_, fun _ _ => rfl⟩
        intro s hs
        simp only [TRow.slots, List.mem_singleton] at hs
        subst hs
        have h2 := hempty n (by simp [TRow.slots])
        rw [h2]
        simp only [Slot.fill, hgn]
        unfold PktClass.get at hgn ⊢
        cases hf : c.fixed n with
        | none => rfl
        | some w => rw [hf] at hgn; cases hgn
      exact r0.append r1 (fun n hn hn' => hn3 n hn n hn' rfl)
    | some v =>
      simp only [bind_ok] at h
      obtain ⟨t, ht, l, hl, rest, hrest, hb⟩ := h
      simp only [pure_eq_ok, Except.ok.injEq] at hb
      subst hb
      obtain ⟨t0, t1, rfl⟩ := toBytes_ok.1 ht
      obtain ⟨l0, l1, rfl⟩ := toBytes_ok.1 hl
      have ht2 := toNat_lt_pow t0 t1
      have hl2 := toNat_lt_pow l0 l1
      simp only [Int.toNat_natCast] at ht2 hl2 ⊢
      have hlk : codedict.lookup k = some r := lookup_of_mem hk (hsub _ (by simp))
      obtain ⟨a1, h1, r1⟩ := tDec_enc (acc := acc) (wild := wild) hlk (hg (k, r) (by simp)) hn1 hov
      obtain ⟨a2, h2, r2⟩ := ih rest a1 (fun i hi => hsub i (by simp [hi]))
        (fun i hi => hg i (by simp [hi])) hn2
        (by
          intro n hn
          rw [r1.same n (fun hc => hn3 n hc n hn rfl)]
          exact hempty n (by rw [List.map_append]; exact List.mem_append_right _ hn)) hrest
      refine ⟨a2, ?_, r1.append r2 (fun n hn hn' => hn3 n hn n hn' rfl)⟩
      have hlen : tlen + llen ≤ (le tlen k ++ le llen v.length ++ v ++ rest).length := by
        simp only [List.length_append, le_length]; omega
      have hne : le tlen k ++ le llen v.length ++ v ++ rest ≠ [] := by
        intro hc
        rw [hc] at hlen
        simp only [List.length_nil] at hlen; omega
      rw [tlvDec, dif_neg (by omega), if_neg hne, dif_neg (by omega)]
      have e1 : (le tlen k ++ le llen v.length ++ v ++ rest).take tlen = le tlen k := by
        rw [List.append_assoc, List.append_assoc, List.take_left' (by simp)]
      have e2 : ((le tlen k ++ le llen v.length ++ v ++ rest).drop tlen).take llen =
          le llen v.length := by
        rw [List.append_assoc, List.append_assoc, List.drop_left' (by simp), List.take_left' (by simp)]
      have e3 : (le tlen k ++ le llen v.length ++ v ++ rest).drop (tlen + llen) = v ++ rest := by
        rw [List.append_assoc, List.drop_left' (by simp)]
      simp only [e1, e2, e3, fromLe_le_lt ht2, fromLe_le_lt hl2]
      rw [if_neg (by simp), List.take_left' rfl, List.drop_left' rfl, h1]
      exact h2

theorem decRow_enc {c : PktClass} {p acc : Attrs} {r : Row} {last : Prop} {b rest : Bytes}
    (hg : r.Good c p last) (hlast : last → rest = []) (hn : (r.slots.map (·.1)).Nodup)
    (hempty : ∀ n ∈ r.slots.map (·.1), c.get acc n = c.get (fun _ => none) n)
    (h : encRow c p r = .ok b) :
    ∃ acc', decRow c (b ++ rest) acc r = .ok (acc', rest) ∧ Recv c p acc acc' r.slots := by
  cases r with
  | simple n cd =>
    have hf := hg b rest hlast h
    obtain ⟨a1, h1, r1⟩ := set_dflt c p acc n cd.dflt
    exact ⟨a1, by simp [decRow, hf, h1], r1⟩
  | bm es =>
    have hn' : (es.map (·.name)).Nodup := by
      simpa [Row.slots, Function.comp_def] using hn
    exact bmDec_enc hg hn' h
  | res flen =>
    simp only [encRow, Except.ok.injEq] at h
    subst h
    refine ⟨acc, ?_, Recv.nil c p acc⟩
    simp only [decRow]
    rw [require_append (by simp), List.drop_left' (by simp)]
    rfl
  | tlv tlen llen wild items =>
    obtain ⟨h1, h2, h3, h4⟩ := hg
    rw [hlast h1, List.append_nil]
    obtain ⟨a, ha, hr⟩ := tlvDec_enc (wild := wild) h2 h3 items b acc (fun _ h => h) h4 hn hempty h
    exact ⟨a, by simp [decRow, ha], hr⟩

theorem decRows_enc {c : PktClass} {p : Attrs} {last : Prop} {rest : Bytes}
    (hlast : last → rest = []) :
    ∀ (rs : List Row) (b : Bytes) (acc : Attrs), RowsGood c p last rs →
      ((slotsOf rs).map (·.1)).Nodup →
      (∀ n ∈ (slotsOf rs).map (·.1), c.get acc n = c.get (fun _ => none) n) →
      encRows c p rs = .ok b →
      ∃ acc', decRows c rs (b ++ rest) acc = .ok (acc', rest) ∧
        Recv c p acc acc' (slotsOf rs) := by
  intro rs
  induction rs with
  | nil =>
    intro b acc _ _ _ h
    simp only [encRows, Except.ok.injEq] at h
    subst h
    exact ⟨acc, rfl, Recv.nil c p acc⟩
  | cons r rs ih =>
    intro b acc hg hn hempty h
    have hslots : slotsOf (r :: rs) = r.slots ++ slotsOf rs := by simp [slotsOf]
    rw [hslots, List.map_append] at hn hempty
    rw [List.nodup_append] at hn
    obtain ⟨hn1, hn2, hn3⟩ := hn
    rw [hslots]
    simp only [encRows, bind_ok] at h
    obtain ⟨b1, hb1, b2, hb2, hb⟩ := h
    simp only [pure_eq_ok, Except.ok.injEq] at hb
    subst hb
    have key : ∀ l : Prop, (l → b2 ++ rest = []) → r.Good c p l → RowsGood c p last rs →
        ∃ acc', decRows c (r :: rs) (b1 ++ b2 ++ rest) acc = .ok (acc', rest) ∧
        Recv c p acc acc' (r.slots ++ slotsOf rs) := by
      intro l hl hgr hgrs
      obtain ⟨a1, h1, r1⟩ := decRow_enc (acc := acc) hgr hl hn1
        (fun n hn => hempty n (List.mem_append_left _ hn)) hb1
      obtain ⟨a2, h2, r2⟩ := ih b2 a1 hgrs hn2 (by
        intro n hn
        rw [r1.same n (fun hc => hn3 n hc n hn rfl)]
        exact hempty n (List.mem_append_right _ hn)) hb2
      refine ⟨a2, ?_, r1.append r2 (fun n hn hn' => hn3 n hn n hn' rfl)⟩
      simp only [decRows, List.append_assoc, h1, ok_bind]
      exact h2
    cases rs with
    | nil =>
      simp only [encRows, Except.ok.injEq] at hb2
      subst hb2
      exact key last (by simpa using hlast) hg trivial
    | cons r' rs' =>
      exact key False (fun h => h.elim) hg.1 hg.2

/-! ## Which values each field class reproduces -/

theorem faithful_I (l : Prop) (m : Nat) (v : Val) : Faithful l (cI m) v := by
  intro b rest _ h
  cases v with
  | bytes v =>
    obtain ⟨h1, h2, rfl⟩ := iEnc_ok.1 (show iEnc m v = .ok b from h)
    have := (iDec_ok (m := m) (rest := rest)).2 ⟨h1, h2, rfl⟩
    simp only [cI, bytesCodec, List.cons_append, this, map_of_ok]
  | int _ => cases h
  | str _ => cases h

theorem faithful_A (l : Prop) (m : Nat) (v : Val) : Faithful l (cA m) v := by
  intro b rest _ h
  cases v with
  | str s =>
    obtain ⟨h1, h2⟩ := aEnc_ok.1 (show aEnc m s = .ok b from h)
    obtain ⟨h3, h4, rfl⟩ := iEnc_ok.1 h2
    have := (aDec_ok (m := m) (rest := rest)).2 ⟨_, iDec_ok.2 ⟨h3, h4, rfl⟩, rfl⟩
    rw [latin1Dec_enc h1] at this
    simp only [cA, List.cons_append, this, map_of_ok]
  | int _ => cases h
  | bytes _ => cases h

theorem faithful_B (l : Prop) (k : Nat) (v : Val) : Faithful l (cB k) v := by
  intro b rest _ h
  cases v with
  | int i =>
    have := bDec_enc (rest := rest) (show bEnc k i = .ok b from h)
    simp only [cB, intCodec, this, map_of_ok]
  | str _ => cases h
  | bytes _ => cases h

theorem signedEnc_ok {k : Nat} {i : Int} {b : Bytes} :
    signedEnc k i = .ok b ↔ -(2 ^ (8 * k - 1)) ≤ i ∧ i < 2 ^ (8 * k - 1) ∧
      b = le k (i % 256 ^ k).toNat := by
  unfold signedEnc
  split
  · rename_i h; simp [h.1, h.2, eq_comm]
  · rename_i h
    simp only [reduceCtorEq, false_iff]
    rintro ⟨h1, h2, _⟩; exact h ⟨h1, h2⟩

theorem faithful_signed (l : Prop) (k : Nat) (hk : 1 ≤ k) (v : Val) :
    Faithful l (cSigned k) v := by
  intro b rest _ h
  cases v with
  | int i =>
    obtain ⟨h1, h2, rfl⟩ := signedEnc_ok.1 (show signedEnc k i = .ok b from h)
    have := (signedDec_ok hk (rest := rest)).2 ⟨h1, h2, rfl⟩
    simp only [cSigned, intCodec, this, map_of_ok]
  | str _ => cases h
  | bytes _ => cases h

/-- A counter field reproduces every value up to the maximum of its width. -/
theorem faithful_ctr (l : Prop) (k : Nat) (i : Int) (hi : i ≤ maxint k) :
    Faithful l (cCtr k) (.int i) := by
  intro b rest _ h
  have h : ctrEnc k i = .ok b := h
  unfold ctrEnc at h
  rw [if_pos hi] at h
  have := bDec_enc (rest := rest) h
  simp only [cCtr, intCodec, this, map_of_ok]

theorem exEnc_ok {m v : Nat} {b : Bytes} :
    exEnc m v = .ok b ↔ (exGroups v).length ≤ m ∧ b = exGroups v := by
  unfold exEnc
  simp only
  split
  · simp; omega
  · constructor
    · intro h; injection h with h; exact ⟨by omega, h.symm⟩
    · rintro ⟨_, rfl⟩; rfl

theorem exDec_enc {m v : Nat} {b rest : Bytes} (h : exEnc m v = .ok b) :
    exDec m (b ++ rest) = .ok (v, rest) := by
  obtain ⟨h1, rfl⟩ := exEnc_ok.1 h
  have := exLoop_groups v m 0 0 rest (by simp) h1
  simpa [exDec] using this

theorem faithful_EX (l : Prop) (m : Nat) (v : Val) : Faithful l (cEX m) v := by
  intro b rest _ h
  cases v with
  | int i =>
    have h : (if 0 ≤ i then exEnc m i.toNat else .error .other) = Except.ok b := h
    split at h
    · rename_i h0
      have := exDec_enc (rest := rest) h
      simp only [cEX, this, map_of_ok, Int.toNat_of_nonneg h0]
    · cases h
  | str _ => cases h
  | bytes _ => cases h

theorem bvEnc_ok {k : Nat} {v b : Bytes} :
    bvEnc k v = .ok b ↔ v.length ≤ k ∧ b = v ++ List.replicate (k - v.length) 0 := by
  unfold bvEnc
  split
  · simp; omega
  · constructor
    · intro h; injection h with h; exact ⟨by omega, h.symm⟩
    · rintro ⟨_, rfl⟩; rfl

theorem bvDec_append {k : Nat} {b rest : Bytes} (h : b.length = k) :
    bvDec k (b ++ rest) = .ok (b, rest) := by
  unfold bvDec
  rw [require_append h, List.take_left' h, List.drop_left' h]
  rfl

/-- A fixed length byte string field reproduces strings of that length. -/
theorem faithful_BV (l : Prop) (k : Nat) (v : Bytes) (hv : v.length = k) :
    Faithful l (cBV k) (.bytes v) := by
  intro b rest _ h
  obtain ⟨_, rfl⟩ := bvEnc_ok.1 (show bvEnc k v = .ok b from h)
  subst hv
  simp only [Nat.sub_self, List.replicate_zero, List.append_nil]
  simp only [cBV, bytesCodec, bvDec_append, map_of_ok]

theorem faithful_rest (v : Val) : Faithful True cRest v := by
  intro b rest hr h
  rw [hr trivial, List.append_nil]
  cases v with
  | bytes v =>
    have h : Except.ok v = Except.ok (ε := Err) b := h
    injection h with h
    subst h; rfl
  | str _ => cases h
  | int _ => cases h

end Verif.Fields
