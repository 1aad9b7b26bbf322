import Verif.Configr.Blocks

/-!
# C130: SHOW MODULE CONFIGURATOR
-/

namespace Verif.Configr

open Nice (Simple Val Item)

/-! ## Lemmas -/

theorem opt_par {α : Type} {p : Nat} {f : α → Val} {x : Option α} : ∀ i ∈ opt p f x, ∃ q v, i = Item.par q v := by
  intro i hi
  cases x with
  | none => cases hi
  | some a => simp only [opt, List.mem_singleton] at hi; exact ⟨_, _, hi⟩

theorem params_par (r : Rec) : ∀ i ∈ r.params, ∃ q v, i = Item.par q v := by
  intro i hi
  rw [params_eq] at hi
  unfold Rec.rest at hi
  simp only [List.mem_cons, List.mem_append] at hi
  rcases hi with h | h | h | h | h | h | h | h | h | h | h | h | h | h | h | h | h
  · exact ⟨_, _, h⟩
  all_goals exact opt_par i h

theorem says_fine (tm : Int → Tm) (ht : TmOk tm) (c : Circ) (hg : Good c) (k : Bytes) (m : MopId.SysId) (t : Int)
    (hx : (k, m, t) ∈ c.heard) (p : Nat) (v : Val) (h : Says tm c k m t p v) :
    (Item.par p v).Valid ∧ (Item.par p v).Fits := by
  have hs := hg.sized _ hx
  have hn := hg.name
  have h6 := hg.addr _ hx
  obtain ⟨t1, t2, t3, t4, t5⟩ := ht t
  cases h with
  | circuit => exact ⟨⟨by decide, trivial⟩, hn⟩
  | addr => exact ⟨⟨by decide, trivial⟩, by show k.length ≤ 255; simp only at h6; omega⟩
  | report =>
    refine ⟨⟨by decide, by simp, by simp, by simp [Simple.Valid, Nice.Num.maxLen]⟩, ?_⟩
    simp only [Item.Fits, Val.Fits, Simple.Fits, List.mem_cons, List.not_mem_nil, or_false, forall_eq_or_imp, forall_eq]
    omega
  | version a b d hv =>
    refine ⟨⟨by decide, by simp, by simp, by simp [Simple.Valid, Nice.Num.maxLen]⟩, ?_⟩
    simp only [Item.Fits, Val.Fits, Simple.Fits, List.mem_cons, List.not_mem_nil, or_false, forall_eq_or_imp, forall_eq]
    have := a.toNat_lt; have := b.toNat_lt; have := d.toNat_lt
    omega
  | functions n h1 h2 =>
    have hle : ((List.range 7).filter (hasFunction m)).length ≤ 7 := List.length_filter_le _ _
    have hpos : 0 < ((List.range 7).filter (hasFunction m)).length :=
      List.length_pos_of_mem (List.mem_filter.mpr ⟨List.mem_range.mpr h1, h2⟩)
    refine ⟨⟨by decide, by rw [List.length_map]; omega, by rw [List.length_map]; omega, ?_⟩, ?_⟩
    · intro s hs'
      obtain ⟨i, _, rfl⟩ := List.mem_map.mp hs'
      simp [Simple.Valid, Nice.Num.maxLen]
    · intro s hs'
      obtain ⟨i, hi, rfl⟩ := List.mem_map.mp hs'
      have := List.mem_range.mp (List.mem_filter.mp hi).1
      simp only [Simple.Fits]
      omega
  | user v hv => exact ⟨⟨by decide, trivial⟩, by show v.length ≤ 255; have := hs.user v hv; omega⟩
  | hwaddr v hv => exact ⟨⟨by decide, trivial⟩, by show v.length ≤ 255; have := hs.hwaddr v hv; omega⟩
  | resTimer v hv =>
    have := hs.resTimer v hv
    exact ⟨⟨by decide, by simp [Val.Valid, Simple.Valid, Nice.Num.maxLen]⟩, by simp only [Item.Fits, Val.Fits, Simple.Fits]; omega⟩
  | cmdSize v hv =>
    have := hs.cmdSize v hv
    exact ⟨⟨by decide, by simp [Val.Valid, Simple.Valid, Nice.Num.maxLen]⟩, by simp only [Item.Fits, Val.Fits, Simple.Fits]; omega⟩
  | respSize v hv =>
    have := hs.respSize v hv
    exact ⟨⟨by decide, by simp [Val.Valid, Simple.Valid, Nice.Num.maxLen]⟩, by simp only [Item.Fits, Val.Fits, Simple.Fits]; omega⟩
  | device v hv =>
    have := hs.device v hv
    exact ⟨⟨by decide, by simp [Val.Valid, Simple.Valid, Nice.Num.maxLen]⟩, by simp only [Item.Fits, Val.Fits, Simple.Fits]; omega⟩
  | processor v hv =>
    have := hs.processor v hv
    exact ⟨⟨by decide, by simp [Val.Valid, Simple.Valid, Nice.Num.maxLen]⟩, by simp only [Item.Fits, Val.Fits, Simple.Fits]; omega⟩
  | datalink v hv =>
    have := hs.datalink v hv
    exact ⟨⟨by decide, by simp [Val.Valid, Simple.Valid, Nice.Num.maxLen]⟩, by simp only [Item.Fits, Val.Fits, Simple.Fits]; omega⟩
  | bufsize v hv =>
    have := hs.bufsize v hv
    exact ⟨⟨by decide, by simp [Val.Valid, Simple.Valid, Nice.Num.maxLen]⟩, by simp only [Item.Fits, Val.Fits, Simple.Fits]; omega⟩

/-- All items can be coded, but perhaps for the elapsed time. -/
def Fine (r : Rec) : Prop := ∀ p v, Item.par p v ∈ r.params → (Item.par p v).Valid ∧ (Item.par p v).Fits

theorem station_fine (tm : Int → Tm) (ht : TmOk tm) (c : Circ) (hg : Good c) (y : Heard) (hy : y ∈ c.heard) :
    Fine (station tm c y) := fun p v h =>
  says_fine tm ht c hg y.1 y.2.1 y.2.2 hy p v ((station_says tm c y.1 y.2.1 y.2.2 (hg.sized y hy) p v).mp h)

/-- The time since the start can be shown. -/
def InTime (now : Int) (c : Circ) : Prop := c.start ≤ now ∧ now < c.start + 65536 * 3600000

theorem mark_fine (r : Rec) (h1 : r.surveillance = none) (h2 : r.elapsed = none) (hf : Fine r) (ms : Int) :
    (∀ i ∈ ({ r with surveillance := some 0, elapsed := some (hms ms) } : Rec).params, i.Valid) ∧
    ((∀ i ∈ ({ r with surveillance := some 0, elapsed := some (hms ms) } : Rec).params, i.Fits) ↔
      0 ≤ ms ∧ ms < 65536 * 3600000) := by
  have hm := mark_mem r (hms ms) h1 h2
  have hp := hms_spec ms
  constructor
  · intro i hi
    obtain ⟨p, v, rfl⟩ := params_par _ i hi
    rcases (hm p v).mp hi with ⟨rfl, rfl⟩ | ⟨rfl, rfl⟩ | h
    · exact ⟨by decide, by simp [Val.Valid, Simple.Valid, Nice.Num.maxLen]⟩
    · exact ⟨by decide, by simp, by simp, by simp [Simple.Valid, Nice.Num.maxLen]⟩
    · exact (hf p v h).1
  · constructor
    · intro h
      have := h _ ((hm 111 _).mpr (Or.inr (Or.inl ⟨rfl, rfl⟩)))
      simp only [Item.Fits, Val.Fits, Simple.Fits, List.mem_cons, List.not_mem_nil, or_false, forall_eq_or_imp,
        forall_eq] at this
      have := this.1
      simp only [hms] at this
      omega
    · intro hms' i hi
      obtain ⟨p, v, rfl⟩ := params_par _ i hi
      rcases (hm p v).mp hi with ⟨rfl, rfl⟩ | ⟨rfl, rfl⟩ | h
      · simp [Item.Fits, Val.Fits, Simple.Fits]
      · simp only [Item.Fits, Val.Fits, Simple.Fits, List.mem_cons, List.not_mem_nil, or_false, forall_eq_or_imp,
          forall_eq]
        have : (hms ms).1 = ms / 3600000 := rfl
        omega
      · exact (hf p v h).2

theorem circuit_fine (tm : Int → Tm) (ht : TmOk tm) (now : Int) (c : Circ) (hg : Good c) :
    (∀ r ∈ circuit tm true now c, ∀ i ∈ r.params, i.Valid) ∧
    ((∀ r ∈ circuit tm true now c, ∀ i ∈ r.params, i.Fits) ↔ InTime now c) := by
  have key : ∀ (r : Rec) (l : List Heard), (∀ y ∈ l, y ∈ c.heard) → r.surveillance = none → r.elapsed = none → Fine r →
      (∀ s ∈ ({ r with surveillance := some 0, elapsed := some (hms (now - c.start)) } : Rec) :: l.map (station tm c),
        ∀ i ∈ s.params, i.Valid) ∧
      ((∀ s ∈ ({ r with surveillance := some 0, elapsed := some (hms (now - c.start)) } : Rec) :: l.map (station tm c),
        ∀ i ∈ s.params, i.Fits) ↔ InTime now c) := by
    intro r l hl h1 h2 hf
    have hm := mark_fine r h1 h2 hf (now - c.start)
    have hst : ∀ s ∈ l.map (station tm c), ∀ i ∈ s.params, i.Valid ∧ i.Fits := by
      intro s hs i hi
      obtain ⟨y, hy, rfl⟩ := List.mem_map.mp hs
      obtain ⟨p, v, rfl⟩ := params_par _ i hi
      exact station_fine tm ht c hg y (hl y hy) p v hi
    constructor
    · intro s hs i hi
      rcases List.mem_cons.mp hs with rfl | hs
      · exact hm.1 i hi
      · exact (hst s hs i hi).1
    · rw [List.forall_mem_cons, hm.2]
      unfold InTime
      constructor
      · rintro ⟨h, _⟩; omega
      · intro h; exact ⟨by omega, fun s hs i hi => (hst s hs i hi).2⟩
  cases hs : sorted c.heard with
  | nil =>
    have hc : circuit tm true now c =
        { ({ circuit := c.name } : Rec) with surveillance := some 0, elapsed := some (hms (now - c.start)) } ::
          ([] : List Heard).map (station tm c) := by
      unfold circuit; rw [hs]; rfl
    rw [hc]
    refine key { circuit := c.name } [] (by simp) rfl rfl fun p v h => ?_
    have : p = 100 ∧ v = .one (.ai c.name) := by simpa [Rec.params, opt] using h
    obtain ⟨rfl, rfl⟩ := this
    exact ⟨⟨by decide, trivial⟩, hg.name⟩
  | cons x xs =>
    have hc : circuit tm true now c =
        { station tm c x with surveillance := some 0, elapsed := some (hms (now - c.start)) } ::
          xs.map (station tm c) := by
      unfold circuit; rw [if_pos rfl, hs]; rfl
    have hmem : ∀ y ∈ x :: xs, y ∈ c.heard := fun y hy => (sorted_perm _).mem_iff.mp (by rw [hs]; exact hy)
    rw [hc]
    exact key _ _ (fun y hy => hmem y (List.mem_cons_of_mem _ hy)) rfl rfl
      (station_fine tm ht c hg x (hmem x (by simp)))

/-! ## Sending -/

theorem sat_params (r : Rec) : r.params.map Item.sat = r.params := by
  have : ∀ i ∈ r.params, Item.sat i = i := by
    intro i hi; obtain ⟨p, v, rfl⟩ := params_par r i hi; rfl
  generalize r.params = l at this
  induction l with
  | nil => rfl
  | cons i l ih => rw [List.map_cons, this i List.mem_cons_self, ih fun j hj => this j (List.mem_cons_of_mem _ hj)]

theorem send_spec (l : List (Int × Rec)) (hv : ∀ x ∈ l, ∀ i ∈ x.2.params, i.Valid) :
    ((send l).2 = true ↔ ¬ ∀ x ∈ l, ∀ i ∈ x.2.params, i.Fits) ∧
    ((send l).2 = false → (bodies (send l).1).map Nice.decode = l.map (fun x => .ok x.2.params) ∧
      codes (send l).1 = l.map (·.1)) := by
  induction l with
  | nil => simp [send, bodies, codes]
  | cons x l ih =>
    obtain ⟨c, r⟩ := x
    have hr : ∀ i ∈ r.params, i.Valid := hv (c, r) (by simp)
    have ih := ih fun x hx => hv x (by simp [hx])
    have he := Nice.encodes_iff hr
    unfold send
    cases hb : Nice.encode r.params with
    | error e =>
      simp only
      refine ⟨⟨fun _ h => ?_, fun _ => trivial⟩, fun h => by cases h⟩
      obtain ⟨b, hb'⟩ := he.mpr (h (c, r) (by simp))
      rw [hb] at hb'; cases hb'
    | ok b =>
      simp only
      have hf := he.mp ⟨b, hb⟩
      refine ⟨?_, fun h => ?_⟩
      · rw [ih.1]
        simp only [List.forall_mem_cons]
        exact ⟨fun h h' => h h'.2, fun h h' => h ⟨hf, h'⟩⟩
      · have := ih.2 h
        have hd := Nice.response_roundtrip hr hb
        rw [sat_params] at hd
        simp only [bodies, List.filterMap_cons, List.map_cons, codes] at this ⊢
        exact ⟨by rw [hd, this.1], by rw [this.2]⟩

theorem coded_map : ∀ l : List Rec, (coded l).map (·.2) = l
  | [] => rfl
  | [_] => rfl
  | r :: s :: l => by
    show r :: (coded (s :: l)).map (·.2) = _
    rw [coded_map (s :: l)]

theorem coded_codes : ∀ (l : List Rec) (r : Rec), (coded (l ++ [r])).map (·.1) = List.replicate l.length 3 ++ [1]
  | [], _ => rfl
  | [_], _ => rfl
  | a :: b :: l, r => by
    show 3 :: (coded (b :: l ++ [r])).map (·.1) = _
    rw [coded_codes (b :: l) r]
    rfl

theorem read_asks {up : Str → Str} {cs : List Circ} {q : Req} {l : List Circ} (tm : Int → Tm) (now : Int)
    (ho : OfConfigurator up q) (ha : Asks up cs q l) (hn : (cs.map (·.name)).Nodup) :
    read up tm cs now q = some (l.flatMap (circuit tm true now)) := by
  have hsum : ∀ c, circuit tm (decide (q.info = 1)) now c =
      circuit tm true now (if q.info = 1 then c else { c with heard := [] }) := by
    intro c
    by_cases h : q.info = 1
    · simp [h]
    · simp only [h, decide_false, if_false]; rfl
  have hm : ¬ ((q.module.any fun n => decide (up n ≠ moduleName)) = true) := by
    intro h
    cases hq : q.module with
    | none => rw [hq] at h; cases h
    | some n =>
      rw [hq] at h
      simp only [Option.any_some, decide_eq_true_eq] at h
      exact h (ho.2 n hq)
  have hi := ho.1
  unfold read
  rw [if_neg (by omega), if_neg hm]
  cases ha with
  | all h =>
    have : circuits cs q.circuit = some cs := by
      rcases h with h | h <;> rw [h] <;> rfl
    rw [this, List.flatMap_map]
    rw [funext hsum, Option.map_some]
  | one c hc h =>
    have : circuits cs q.circuit = some [c] := by
      rw [h]
      show (cs.find? _).map _ = _
      have hf : cs.find? (fun d => decide (d.name = c.name)) = some c := by
        clear h
        induction cs with
        | nil => cases hc
        | cons d r ih =>
          rw [List.map_cons, List.nodup_cons] at hn
          by_cases e : d.name = c.name
          · rcases List.mem_cons.mp hc with rfl | hc
            · simp
            · exact absurd (List.mem_map.mpr ⟨c, hc, e.symm⟩) hn.1
          · rw [List.find?_cons_of_neg (by simpa using e)]
            rcases List.mem_cons.mp hc with rfl | hc
            · exact absurd rfl e
            · exact ih hn.2 hc
      rw [hf]; rfl
    rw [this]
    simp [hsum]

theorem asks_good {up : Str → Str} {cs : List Circ} {q : Req} {l : List Circ} (ha : Asks up cs q l)
    (hg : ∀ c ∈ cs, Good c) : ∀ c ∈ l, Good c := by
  have h1 : ∀ c, Good c → Good (if q.info = 1 then c else { c with heard := [] }) := by
    intro c h
    split
    · exact h
    · exact ⟨h.name, List.nodup_nil, by simp, by simp⟩
  cases ha with
  | all _ =>
    intro c hc
    obtain ⟨d, hd, rfl⟩ := List.mem_map.mp hc
    exact h1 d (hg d hd)
  | one d hd _ =>
    intro c hc
    rw [List.mem_singleton] at hc
    subst hc
    exact h1 d (hg d hd)

/-- The answer in one form for one item and many. -/
theorem answer_send {up : Str → Str} {tm : Int → Tm} {cs : List Circ} {now : Int} {q : Req} {l : List Rec}
    (h : read up tm cs now q = some l) :
    (answer up tm cs now q).2 = (send (coded l)).2 ∧
    bodies (answer up tm cs now q).1 = bodies (send (coded l)).1 ∧
    ((send (coded l)).2 = false → codes (answer up tm cs now q).1 =
      if l.length = 1 then codes (send (coded l)).1 else 2 :: codes (send (coded l)).1 ++ [-128]) := by
  unfold answer
  rw [h]
  match l with
  | [r] => exact ⟨rfl, rfl, fun _ => rfl⟩
  | [] => exact ⟨rfl, rfl, fun _ => rfl⟩
  | a :: b :: r =>
    simp only
    refine ⟨trivial, ?_, fun hf => ?_⟩
    · simp only [bodies, List.cons_append, List.filterMap_cons, List.filterMap_append]
      split <;> simp
    · rw [hf]
      simp [codes]

theorem decode_split (tm : Int → Tm) (now : Int) (l : List Circ) (hg : ∀ c ∈ l, Good c) :
    List.Forall₂ (Block tm now) l (l.map fun c => (circuit tm true now c).map Rec.params) := by
  induction l with
  | nil => exact .nil
  | cons c r ih =>
    exact .cons (block tm now c (hg c (by simp))) (ih fun d hd => hg d (by simp [hd]))

/-! ## The property -/

/-- When an exception ends the answer: if the clock was set back since a circuit asked for was started, or
after 65536 hours. -/
theorem raises_iff (up : Str → Str) (tm : Int → Tm) (ht : TmOk tm) (cs : List Circ) (now : Int) (q : Req) (l : List Circ)
    (ho : OfConfigurator up q) (ha : Asks up cs q l) (hg : ∀ c ∈ cs, Good c) (hn : (cs.map (·.name)).Nodup) :
    (answer up tm cs now q).2 = true ↔ ∃ c ∈ l, now < c.start ∨ c.start + 65536 * 3600000 ≤ now := by
  have hr := read_asks tm now ho ha hn
  have hgl := asks_good ha hg
  have hmem : ∀ x ∈ coded (l.flatMap (circuit tm true now)), ∃ c ∈ l, x.2 ∈ circuit tm true now c := by
    intro x hx
    have : x.2 ∈ (coded (l.flatMap (circuit tm true now))).map (·.2) := List.mem_map.mpr ⟨x, hx, rfl⟩
    rw [coded_map] at this
    exact List.mem_flatMap.mp this
  have hs := send_spec (coded (l.flatMap (circuit tm true now))) fun x hx i hi => by
    obtain ⟨c, hc, hxc⟩ := hmem x hx
    exact (circuit_fine tm ht now c (hgl c hc)).1 x.2 hxc i hi
  rw [(answer_send hr).1, hs.1]
  constructor
  · intro h
    apply Classical.byContradiction
    intro hne
    apply h
    intro x hx i hi
    obtain ⟨c, hc, hxc⟩ := hmem x hx
    refine (circuit_fine tm ht now c (hgl c hc)).2.mpr ?_ x.2 hxc i hi
    have h' : ¬ (now < c.start ∨ c.start + 65536 * 3600000 ≤ now) := fun e => hne ⟨c, hc, e⟩
    unfold InTime
    omega
  · rintro ⟨c, hc, h⟩ hf
    have : InTime now c := by
      refine (circuit_fine tm ht now c (hgl c hc)).2.mp fun r hrc i hi => ?_
      have hm : r ∈ (coded (l.flatMap (circuit tm true now))).map (·.2) := by
        rw [coded_map]; exact List.mem_flatMap.mpr ⟨c, hc, hrc⟩
      obtain ⟨x, hx, rfl⟩ := List.mem_map.mp hm
      exact hf x hx i hi
    unfold InTime at this
    omega

/-- What is decoded from an answer: the circuits asked for, each with the stations heard on it.  Missing:
the software identification of the stations, which is never sent (`software_ignored`). -/
theorem status_lists_partial (up : Str → Str) (tm : Int → Tm) (ht : TmOk tm) (cs : List Circ) (now : Int) (q : Req)
    (l : List Circ) (ho : OfConfigurator up q) (ha : Asks up cs q l) (hg : ∀ c ∈ cs, Good c)
    (hn : (cs.map (·.name)).Nodup) (hr : (answer up tm cs now q).2 = false) :
    ∃ bl : List (List (List Item)), (bodies (answer up tm cs now q).1).map Nice.decode = bl.flatten.map .ok ∧
      List.Forall₂ (Block tm now) l bl ∧
      codes (answer up tm cs now q).1 =
        if bl.flatten.length = 1 then [1]
        else if bl.flatten.length = 0 then [2, -128]
        else 2 :: List.replicate (bl.flatten.length - 1) 3 ++ [1, -128] := by
  have hrd := read_asks tm now ho ha hn
  have hgl := asks_good ha hg
  have hv : ∀ x ∈ coded (l.flatMap (circuit tm true now)), ∀ i ∈ x.2.params, i.Valid := fun x hx i hi => by
    have : x.2 ∈ (coded (l.flatMap (circuit tm true now))).map (·.2) := List.mem_map.mpr ⟨x, hx, rfl⟩
    rw [coded_map] at this
    obtain ⟨c, hc, hxc⟩ := List.mem_flatMap.mp this
    exact (circuit_fine tm ht now c (hgl c hc)).1 x.2 hxc i hi
  have has := answer_send hrd
  have hs := (send_spec _ hv).2 (by rw [← has.1]; exact hr)
  have hfl : (l.map fun c => (circuit tm true now c).map Rec.params).flatten =
      (l.flatMap (circuit tm true now)).map Rec.params := by
    rw [List.map_flatMap, List.flatMap_def]
  refine ⟨_, ?_, decode_split tm now l hgl, ?_⟩
  · rw [has.2.1, hs.1, hfl]
    have : ∀ k : List Rec, (coded k).map (fun x => (Except.ok x.2.params : Except Nice.Err (List Item))) =
        (k.map Rec.params).map .ok := by
      intro k
      rw [List.map_map]
      conv => rhs; rw [← coded_map k]
      rw [List.map_map]
      rfl
    exact this _
  · rw [has.2.2 (by rw [← has.1]; exact hr), hs.2, hfl, List.length_map]
    generalize l.flatMap (circuit tm true now) = k
    rcases List.eq_nil_or_concat k with rfl | ⟨k', r, rfl⟩
    · rfl
    · rw [List.concat_eq_append, coded_codes]
      simp only [List.length_append, List.length_cons, List.length_nil]
      by_cases h : k'.length = 0
      · rw [if_pos (by omega), if_pos (by omega), List.length_eq_zero_iff.mp h]; rfl
      · rw [if_neg (by omega), if_neg (by omega), if_neg (by omega)]
        simp

/-- A circuit that there is not, and a plural that is not `known`: no such component, or no items at all if
all modules are asked for. -/
theorem unknown (up : Str → Str) (tm : Int → Tm) (cs : List Circ) (now : Int) (q : Req)
    (h : (∃ n, q.circuit = .one n ∧ ∀ c ∈ cs, c.name ≠ n) ∨ (∃ k, q.circuit = .plural k ∧ k ≠ -1) ∨ 2 ≤ q.info ∨
      ∃ n, q.module = some n ∧ up n ≠ "CONFIGURATOR".toList.map Char.toNat) :
    answer up tm cs now q = (if q.module = none then [.code 2, .code (-128)] else [.code (-8)], false) := by
  have hr : read up tm cs now q = none := by
    unfold read
    split
    · rfl
    · split
      · rfl
      · next h2 h3 =>
        rcases h with ⟨n, h, h'⟩ | ⟨k, h, h'⟩ | h | ⟨n, h, h'⟩
        · rw [h]
          have : cs.find? (fun c => decide (c.name = n)) = none := by
            rw [List.find?_eq_none]; intro c hc; simpa using h' c hc
          simp [circuits, this]
        · rw [h]; simp [circuits, h']
        · omega
        · exfalso; apply h3; rw [h]; simp only [Option.any_some, decide_eq_true_eq]; exact h'
  unfold answer
  rw [hr]
  cases q.module <;> rfl

/-! ## Software -/

theorem send_congr : ∀ l l' : List Rec, l.map Rec.params = l'.map Rec.params → send (coded l) = send (coded l')
  | [], [], _ => rfl
  | [], _ :: _, h => by cases h
  | _ :: _, [], h => by cases h
  | [r], [r'], h => by
    simp only [List.map_cons, List.map_nil, List.cons.injEq, and_true] at h
    simp only [coded, send, h]
  | [_], _ :: _ :: _, h => by simp at h
  | _ :: _ :: _, [_], h => by simp at h
  | r :: a :: l, r' :: a' :: l', h => by
    have h1 : r.params = r'.params := (List.cons.inj h).1
    have := send_congr (a :: l) (a' :: l') (List.cons.inj h).2
    show send ((3, r) :: coded (a :: l)) = send ((3, r') :: coded (a' :: l'))
    unfold send
    rw [h1, this]

theorem answer_congr {up : Str → Str} {tm : Int → Tm} {cs cs' : List Circ} {now : Int} {q : Req}
    (h : (read up tm cs now q).map (List.map Rec.params) = (read up tm cs' now q).map (List.map Rec.params)) :
    answer up tm cs now q = answer up tm cs' now q := by
  unfold answer
  cases h1 : read up tm cs now q with
  | none =>
    cases h2 : read up tm cs' now q with
    | none => rfl
    | some l' => rw [h1, h2] at h; cases h
  | some l =>
    cases h2 : read up tm cs' now q with
    | none => rw [h1, h2] at h; cases h
    | some l' =>
      rw [h1, h2, Option.map_some, Option.map_some, Option.some.injEq] at h
      have hs := send_congr l l' h
      clear h1 h2
      cases l with
      | nil =>
        cases l' with
        | nil => rfl
        | cons _ _ => cases h
      | cons r t =>
        cases l' with
        | nil => cases h
        | cons r' t' =>
          cases t with
          | nil =>
            cases t' with
            | nil => exact hs
            | cons _ _ => simp at h
          | cons a t =>
            cases t' with
            | nil => simp at h
            | cons a' t' => simp only [hs]

/-- Stations with other software. -/
def withSoft (f : Bytes → Option MopId.Soft) (c : Circ) : Circ :=
  { c with heard := c.heard.map fun x => (x.1, { x.2.1 with software := f x.1 }, x.2.2) }

theorem circuit_soft (tm : Int → Tm) (b : Bool) (now : Int) (f : Bytes → Option MopId.Soft) (c : Circ) :
    (circuit tm b now (withSoft f c)).map Rec.params = (circuit tm b now c).map Rec.params := by
  cases b with
  | false => rfl
  | true =>
    have hs : sorted (withSoft f c).heard =
        (sorted c.heard).map fun x => (x.1, { x.2.1 with software := f x.1 }, x.2.2) :=
      sorted_map (fun x => (x.1, { x.2.1 with software := f x.1 }, x.2.2)) (fun _ => rfl) _
    unfold circuit
    rw [if_pos rfl, if_pos rfl, hs]
    cases sorted c.heard with
    | nil => rfl
    | cons x xs =>
      simp only [List.map_cons, List.map_map]
      rfl

/-- Whatever software the stations say that they have does not matter: no answer says so. -/
theorem software_ignored (up : Str → Str) (tm : Int → Tm) (cs : List Circ) (now : Int) (q : Req)
    (f : Bytes → Option MopId.Soft) :
    answer up tm (cs.map fun c =>
      { c with heard := c.heard.map fun x => (x.1, { x.2.1 with software := f x.1 }, x.2.2) }) now q =
    answer up tm cs now q := by
  show answer up tm (cs.map (withSoft f)) now q = _
  apply answer_congr
  have hc : circuits (cs.map (withSoft f)) q.circuit = (circuits cs q.circuit).map (List.map (withSoft f)) := by
    cases q.circuit with
    | none => rfl
    | plural k => simp only [circuits]; split <;> rfl
    | one n =>
      simp only [circuits, List.find?_map, Option.map_map]
      rfl
  unfold read
  split
  · rfl
  · split
    · rfl
    · rw [hc]
      cases circuits cs q.circuit with
      | none => rfl
      | some l =>
        simp only [Option.map_some, List.map_flatMap, List.flatMap_map, circuit_soft]

end Verif.Configr
