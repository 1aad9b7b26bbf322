import Verif.Lines.Ports
import Verif.Nice.Props
import Mathlib.Tactic.Tauto

/-!
# C133: lines shown by network management
-/

namespace Verif.Lines

open Nice (Simple Val Item Width)

/-! ## Lemmas -/

theorem valid_fits (l : Line) (hk : l.kind.Ok) (info : Nat) :
    ∀ i ∈ (l.read info).items, i.Valid ∧ i.Fits := by
  obtain ⟨name, k⟩ := l
  intro i hi
  unfold Line.read at hi
  split at hi
  · simp only [Rec.items, par, ctr, ctm, List.append_nil, List.mem_singleton] at hi
    subst hi
    simp [Item.Valid, Item.Fits, Val.Valid, Val.Fits, Simple.Valid, Simple.Fits, Nice.Num.maxLen]
  · split at hi
    · cases k with
      | lan hw s u a b ps =>
        cases hw with
        | none =>
          simp only [Rec.items, par, ctr, ctm, List.append_nil, List.nil_append, List.cons_append, Kind.protocol,
            Kind.hw, List.mem_cons, List.not_mem_nil, or_false] at hi
          rcases hi with rfl | rfl <;>
            simp [Item.Valid, Item.Fits, Val.Valid, Val.Fits, Simple.Valid, Simple.Fits, Nice.Num.maxLen]
        | some hw =>
          have h6 := hk.1 hw rfl
          simp only [Rec.items, par, ctr, ctm, List.append_nil, List.nil_append, List.cons_append, Kind.protocol,
            Kind.hw, List.mem_cons, List.not_mem_nil, or_false] at hi
          rcases hi with rfl | rfl | rfl <;>
            simp [Item.Valid, Item.Fits, Val.Valid, Val.Fits, Simple.Valid, Simple.Fits, Nice.Num.maxLen, h6]
      | ptp s c =>
        simp only [Rec.items, par, ctr, ctm, List.append_nil, List.nil_append, List.cons_append, Kind.protocol,
          Kind.hw, List.mem_cons, List.not_mem_nil, or_false] at hi
        rcases hi with rfl | rfl <;>
          simp [Item.Valid, Item.Fits, Val.Valid, Val.Fits, Simple.Valid, Simple.Fits, Nice.Num.maxLen]
      | ddcmp s c din dout rr lr rb =>
        simp only [Rec.items, par, ctr, ctm, List.append_nil, List.nil_append, List.cons_append, Kind.protocol,
          Kind.hw, List.mem_cons, List.not_mem_nil, or_false] at hi
        rcases hi with rfl | rfl <;>
          simp [Item.Valid, Item.Fits, Val.Valid, Val.Fits, Simple.Valid, Simple.Fits, Nice.Num.maxLen]
    · split at hi
      · cases k with
        | lan hw s u a b ps =>
          simp only [Rec.counters, Rec.items, par, ctr, ctm, List.append_nil, List.nil_append, List.cons_append,
            List.mem_cons, List.not_mem_nil, or_false] at hi
          rcases hi with rfl | rfl | rfl | rfl | rfl | rfl | rfl | rfl <;> simp [Item.Valid, Item.Fits]
        | ptp s c =>
          simp only [Rec.counters, Rec.items, par, ctr, ctm, List.append_nil, List.nil_append, List.cons_append,
            List.mem_cons, List.not_mem_nil, or_false] at hi
          rcases hi with rfl | rfl | rfl | rfl | rfl <;> simp [Item.Valid, Item.Fits]
        | ddcmp s c din dout rr lr rb =>
          obtain ⟨h1, h2, h3⟩ := hk
          simp only [Rec.counters, Rec.items, par, ctr, ctm, List.append_nil, List.nil_append, List.cons_append,
            List.mem_cons, List.not_mem_nil, or_false] at hi
          rcases hi with rfl | rfl | rfl | rfl | rfl | rfl | rfl | rfl | rfl | rfl <;>
            simp [Item.Valid, Item.Fits, h1, h2, h3]
      · simp only [Rec.items, par, ctr, ctm, List.append_nil, List.not_mem_nil] at hi

theorem min_two (v : Nat) : min (v : Int) Width.w2.max = ((min v 65535 : Nat) : Int) := by
  simp only [Width.max]; omega
theorem min_four (v : Nat) : min (v : Int) Width.w4.max = ((min v 4294967295 : Nat) : Int) := by
  simp only [Width.max]; omega
theorem min_one (v : Nat) : min (v : Int) Width.w1.max = ((min v 255 : Nat) : Int) := by
  simp only [Width.max]; omega

theorem sat_says (l : Line) (hk : l.kind.Ok) (info : Nat) :
    ((l.read info).items.map Item.sat).Nodup ∧
    ∀ i, i ∈ (l.read info).items.map Item.sat ↔ Says l.kind info i := by
  obtain ⟨name, k⟩ := l
  unfold Line.read
  by_cases h1 : info < 2
  · have : info = 0 ∨ info = 1 := by omega
    rcases this with rfl | rfl <;>
      simp [Rec.items, par, ctr, ctm, Item.sat, Says, code]
  · by_cases h2 : info = 2
    · subst h2
      cases k with
      | lan hw s u a b ps =>
        cases hw <;>
          simp [Rec.items, par, ctr, ctm, Item.sat, Says, code, Kind.protocol, Kind.hw]
      | ptp s c => simp [Rec.items, par, ctr, ctm, Item.sat, Says, code, Kind.protocol, Kind.hw]
      | ddcmp s c din dout rr lr rb => simp [Rec.items, par, ctr, ctm, Item.sat, Says, code, Kind.protocol, Kind.hw]
    · by_cases h3 : info = 3
      · subst h3
        cases k with
        | lan hw s u a b ps =>
          have hr := hk.2
          constructor
          · simp [Rec.counters, Rec.items, par, ctr, ctm, Item.sat]
          · intro i
            simp only [Rec.counters, Rec.items, par, ctr, ctm, Item.sat, Says, Traffic, two, four, min_two, min_four,
              combine_total hr, List.append_nil, List.nil_append, List.cons_append, List.map_cons, List.map_nil,
              List.mem_cons, List.not_mem_nil, or_false, if_false, if_true,
              show ¬ (3 < 2) by decide, show (3 = 2) = False by decide]
            tauto
        | ptp s c =>
          constructor
          · simp [Rec.counters, Rec.items, par, ctr, ctm, Item.sat]
          · intro i
            simp only [Rec.counters, Rec.items, par, ctr, ctm, Item.sat, Says, Traffic, two, four, min_two, min_four,
              List.append_nil, List.nil_append, List.cons_append, List.map_cons, List.map_nil,
              List.mem_cons, List.not_mem_nil, or_false, if_false, if_true,
              show ¬ (3 < 2) by decide, show (3 = 2) = False by decide]
            tauto
        | ddcmp s c din dout rr lr rb =>
          constructor
          · simp [Rec.counters, Rec.items, par, ctr, ctm, Item.sat]
          · intro i
            simp only [Rec.counters, Rec.items, par, ctr, ctm, Item.sat, Says, Traffic, two, four, one, bits, min_two,
              min_four, min_one, List.append_nil, List.nil_append, List.cons_append, List.map_cons, List.map_nil,
              List.mem_cons, List.not_mem_nil, or_false, if_false, if_true,
              show ¬ (3 < 2) by decide, show (3 = 2) = False by decide]
            tauto
      · simp only [h1, h2, h3, if_false]
        obtain ⟨n, rfl⟩ : ∃ n, info = n + 4 := ⟨info - 4, by omega⟩
        cases k <;> simp [Rec.items, par, ctr, ctm, Says]

/-- A line can always be encoded, and read again. -/
theorem line_read (l : Line) (hk : l.kind.Ok) (info : Nat) :
    ∃ b, Nice.encode (l.read info).items = .ok b ∧ About info l (.line l.name b) := by
  have hv := valid_fits l hk info
  obtain ⟨b, hb⟩ := (Nice.encodes_iff fun i hi => (hv i hi).1).2 fun i hi => (hv i hi).2
  have hs := sat_says l hk info
  exact ⟨b, hb, b, _, rfl, Nice.response_roundtrip (fun i hi => (hv i hi).1) hb, hs.1, hs.2⟩

theorem send_ok (info : Nat) : ∀ ls : List Line, (∀ l ∈ ls, l.kind.Ok) →
    ∃ rs, send info ls = (rs, false) ∧ List.Forall₂ (About info) ls rs := by
  intro ls
  induction ls with
  | nil => intro _; exact ⟨[], rfl, .nil⟩
  | cons l r ih =>
    intro h
    obtain ⟨b, hb, ha⟩ := line_read l (h l (by simp)) info
    obtain ⟨rs, h1, h2⟩ := ih fun x hx => h x (by simp [hx])
    refine ⟨.line l.name b :: rs, ?_, .cons ha h2⟩
    unfold send
    rw [hb, h1]

theorem before_total : ∀ a b : Str, before a b = true ∨ before b a = true
  | [], _ => Or.inl rfl
  | _ :: _, [] => Or.inr rfl
  | a :: s, b :: t => by
    unfold before
    by_cases h1 : a < b
    · simp [h1]
    · by_cases h2 : b < a
      · simp [h1, h2]
      · simp only [h1, h2, if_false]
        exact before_total s t

theorem before_trans : ∀ a b c : Str, before a b = true → before b c = true → before a c = true
  | [], _, _, _, _ => by unfold before; rfl
  | _ :: _, [], _, h, _ => by unfold before at h; cases h
  | _ :: _, _ :: _, [], _, h => by unfold before at h; cases h
  | a :: s, b :: t, c :: u, h1, h2 => by
    unfold before at h1 h2 ⊢
    by_cases hab : a < b
    · by_cases hbc : b < c
      · rw [if_pos (by omega)]
      · rw [if_neg hbc] at h2
        by_cases hcb : c < b
        · rw [if_pos hcb] at h2; cases h2
        · rw [if_pos (by omega)]
    · rw [if_neg hab] at h1
      by_cases hba : b < a
      · rw [if_pos hba] at h1; cases h1
      · rw [if_neg hba] at h1
        have : a = b := by omega
        subst this
        by_cases hbc : a < c
        · rw [if_pos hbc]
        · rw [if_neg hbc] at h2 ⊢
          by_cases hcb : c < a
          · rw [if_pos hcb] at h2; cases h2
          · rw [if_neg hcb] at h2 ⊢
            exact before_trans s t u h1 h2

theorem before_less : ∀ a b : Str, before a b = true → a ≠ b → Less a b
  | [], [], _, h => absurd rfl h
  | [], b :: t, _, _ => ⟨[], [], b :: t, Or.inl ⟨rfl, rfl, by simp⟩⟩
  | _ :: _, [], h, _ => by unfold before at h; cases h
  | a :: s, b :: t, h, hne => by
    unfold before at h
    by_cases h1 : a < b
    · exact ⟨[], s, t, Or.inr ⟨a, b, rfl, rfl, h1⟩⟩
    · rw [if_neg h1] at h
      by_cases h2 : b < a
      · rw [if_pos h2] at h; cases h
      · rw [if_neg h2] at h
        have : a = b := by omega
        subst this
        obtain ⟨p, u, v, hp | ⟨x, y, e1, e2, e3⟩⟩ := before_less s t h (fun e => hne (by rw [e]))
        · exact ⟨a :: p, u, v, Or.inl ⟨by rw [hp.1], by rw [hp.2.1]; rfl, hp.2.2⟩⟩
        · exact ⟨a :: p, u, v, Or.inr ⟨x, y, by rw [e1]; rfl, by rw [e2]; rfl, e3⟩⟩

theorem insert_perm (x : Line) (l : List Line) : (insert x l).Perm (x :: l) := by
  induction l with
  | nil => exact .refl _
  | cons y r ih =>
    unfold insert
    split
    · exact .refl _
    · exact (List.Perm.cons y ih).trans (List.Perm.swap x y r)

theorem sorted_perm (l : List Line) : (sorted l).Perm l := by
  induction l with
  | nil => exact .refl _
  | cons x r ih => exact (insert_perm x _).trans (List.Perm.cons x ih)

theorem insert_pairwise (x : Line) (l : List Line) (h : l.Pairwise fun a b => before a.name b.name = true) :
    (insert x l).Pairwise fun a b => before a.name b.name = true := by
  induction l with
  | nil => simp [insert]
  | cons y r ih =>
    rw [List.pairwise_cons] at h
    unfold insert
    split
    · next hb =>
      rw [List.pairwise_cons, List.pairwise_cons]
      refine ⟨?_, h⟩
      intro z hz
      rcases List.mem_cons.1 hz with rfl | hz
      · exact hb
      · exact before_trans _ _ _ hb (h.1 z hz)
    · next hb =>
      rw [List.pairwise_cons]
      refine ⟨?_, ih h.2⟩
      intro z hz
      rcases List.mem_cons.1 ((insert_perm x r).mem_iff.1 hz) with rfl | hz
      · exact (before_total _ _).resolve_right hb |> fun h => h
      · exact h.1 z hz

theorem sorted_pairwise (l : List Line) : (sorted l).Pairwise fun a b => before a.name b.name = true := by
  induction l with
  | nil => exact .nil
  | cons x r ih => exact insert_pairwise x _ ih

/-! ## C133 -/

/-- A request for one line, by its name in upper or lower case, is answered by one message about that line, with what is
to be said. -/
theorem one_line (up : Str → Str) (ls : List Line) (hk : ∀ l ∈ ls, l.kind.Ok) (hn : (ls.map (·.name)).Nodup)
    (l : Line) (hl : l ∈ ls) (n : Str) (hu : up n = l.name) (info : Nat) (h4 : info ≠ 4) :
    ∃ r, answer up ls { info := info, ent := .one n } = ([r], false) ∧ About info l r := by
  have hf : ls.find? (fun x => x.name = up n) = some l := by
    clear hk
    induction ls with
    | nil => cases hl
    | cons x r ih =>
      rw [List.map_cons, List.nodup_cons] at hn
      rcases List.mem_cons.1 hl with rfl | hl
      · rw [List.find?_cons, hu]; simp
      · have : x.name ≠ up n := by
          rw [hu]; intro e; exact hn.1 (List.mem_map.2 ⟨l, hl, e.symm⟩)
        rw [List.find?_cons]
        simp only [this, decide_false]
        exact ih hn.2 hl
  obtain ⟨rs, h1, h2⟩ := send_ok info [l] (by intro x hx; rw [List.mem_singleton.1 hx]; exact hk l hl)
  cases h2 with
  | cons ha hr =>
    cases hr
    refine ⟨_, ?_, ha⟩
    unfold answer select
    simp only [Bool.false_eq_true, if_false, h4, hf, Option.toList]
    exact h1

/-- No such line: code -8, and only then. -/
theorem no_line (up : Str → Str) (ls : List Line) (hk : ∀ l ∈ ls, l.kind.Ok) (n : Str) (info : Nat) (h4 : info ≠ 4) :
    answer up ls { info := info, ent := .one n } = ([.code (-8)], false) ↔ ∀ l ∈ ls, l.name ≠ up n := by
  unfold answer select
  simp only [Bool.false_eq_true, if_false, h4]
  cases hf : ls.find? (fun x => x.name = up n) with
  | none =>
    rw [List.find?_eq_none] at hf
    simpa using hf
  | some l =>
    have hm := List.mem_of_find?_eq_some hf
    have hp := List.find?_some hf
    simp only [decide_eq_true_eq] at hp
    obtain ⟨rs, h1, h2⟩ := send_ok info [l] (by intro x hx; rw [List.mem_singleton.1 hx]; exact hk l hm)
    cases h2 with
    | cons ha hr =>
      obtain ⟨b, is, e, _⟩ := ha
      constructor
      · intro h
        simp only [Option.toList] at h
        rw [h1] at h
        injection h with h _
        injection h with h _
        rw [e] at h
        cases h
      · intro h; exact absurd hp (h l hm)

/-- The messages of an answer about several lines: those between the codes 2 and -128; a single one stands alone. -/
def Framed (rs : List Rep) (out : List Rep) : Prop :=
  (∃ r, rs = [r] ∧ out = [r]) ∨ (rs.length ≠ 1 ∧ out = .code 2 :: rs ++ [.code (-128)])

/-- A request for several lines is answered with every line once, in the order of their names, each with what is to be
said. -/
theorem known_lines (up : Str → Str) (ls : List Line) (hk : ∀ l ∈ ls, l.kind.Ok) (hn : (ls.map (·.name)).Nodup)
    (c : Int) (info : Nat) (h4 : info ≠ 4) :
    ∃ out rs ls', answer up ls { info := info, ent := .plural c } = (out, false) ∧ Framed rs out ∧
      ls'.Perm ls ∧ ls'.Pairwise (fun a b => Less a.name b.name) ∧ List.Forall₂ (About info) ls' rs := by
  have hp := sorted_perm ls
  obtain ⟨rs, h1, h2⟩ := send_ok info (sorted ls) (fun l hl => hk l (hp.mem_iff.1 hl))
  have hpw : (sorted ls).Pairwise (fun a b => Less a.name b.name) := by
    have hnd : ((sorted ls).map (·.name)).Nodup := (hp.map _).nodup_iff.2 hn
    rw [List.nodup_iff_pairwise_ne, List.pairwise_map] at hnd
    exact ((sorted_pairwise ls).and hnd).imp fun h => before_less _ _ h.1 h.2
  unfold answer
  simp only [Bool.false_eq_true, if_false, h4, select]
  generalize sorted ls = S at h1 h2 hp hpw ⊢
  cases S with
  | nil =>
    cases h2
    exact ⟨_, [], [], rfl, Or.inr ⟨by decide, rfl⟩, hp, .nil, .nil⟩
  | cons a r =>
    cases r with
    | nil =>
      cases h2 with
      | cons ha hr =>
        cases hr
        exact ⟨_, _, [a], h1, Or.inl ⟨_, rfl, rfl⟩, hp, hpw, .cons ha .nil⟩
    | cons b r =>
      refine ⟨.code 2 :: rs ++ [.code (-128)], rs, _, ?_, Or.inr ⟨?_, rfl⟩, hp, hpw, h2⟩
      · simp only [h1, Bool.false_eq_true, if_false]
      · cases h2 with
        | cons _ h => cases h with
          | cons _ _ => simp

/-- Events, and what is stored on disk, are refused. -/
theorem refused (up : Str → Str) (ls : List Line) (q : Req) (h : q.permanent = true ∨ q.info = 4) :
    answer up ls q = ([.code (-1)], false) := by
  unfold answer
  rcases h with h | h
  · rw [if_pos h]
  · split
    · rfl
    · rfl

/-- The counters of a LAN leave out the traffic of ports that have a SAP only. -/
theorem sap_uncounted : ∃ s, Reach s ∧ (∃ p ∈ s.made, p.ctrs.pktsRecv = 7) ∧ s.combine Ctrs.pktsRecv = 0 := by
  refine ⟨_, ⟨[.create (.sap 0xfe), .traffic 0 { pktsRecv := 7, bytesRecv := 700 }], rfl⟩, ?_, ?_⟩ <;> decide

/-! ## Cases -/

def exPorts : Ports :=
  [Op.create (.proto 0x6003), .create (.proto 0x6002), .add 1 (.proto 0x6004), .traffic 0 ⟨100, 50, 2, 1⟩,
    .traffic 1 ⟨10, 5, 1, 1⟩].foldl Ports.step {}

def exLines : List Line :=
  [⟨"UNA-0".toList.map Char.toNat, .lan (some [1, 2, 3, 4, 5, 6]) 70000 3 0 0 exPorts⟩,
   ⟨"DMC-0".toList.map Char.toNat, .ddcmp 12 ⟨1, 2, 3, 4⟩ (5, 3) (0, 0) 1 300 (0, 0)⟩]

example : (∀ l ∈ exLines, l.kind.Ok) ∧ (exLines.map (·.name)).Nodup := by
  refine ⟨?_, by decide⟩
  intro l hl
  simp only [exLines, List.mem_cons, List.not_mem_nil, or_false] at hl
  rcases hl with rfl | rfl
  · exact ⟨by rintro a ⟨⟩; rfl, _, rfl⟩
  · exact ⟨by decide, by decide, by decide⟩

example : exPorts.combine Ctrs.bytesRecv = 110 := by decide

example : answer id exLines { info := 3, ent := .one ("DMC-0".toList.map Char.toNat) } =
    ([.line ("DMC-0".toList.map Char.toNat)
      [0x00, 0xc0, 12, 0, 0xe8, 0xe3, 1, 0, 0, 0, 0xe9, 0xe3, 2, 0, 0, 0, 0xf2, 0xe3, 3, 0, 0, 0, 0xf3, 0xe3, 4, 0, 0, 0,
       0xfc, 0xb3, 3, 0, 5, 0xfd, 0xb3, 0, 0, 0, 0x06, 0xa4, 1, 0x07, 0xa4, 255, 0x10, 0xb4, 0, 0, 0]], false) := by
  decide +kernel

example : (answer id exLines { info := 0, ent := .plural (-1) }).1 =
    [.code 2, .line ("DMC-0".toList.map Char.toNat) [0, 0, 0x81, 0], .line ("UNA-0".toList.map Char.toNat) [0, 0, 0x81, 0],
      .code (-128)] := by
  decide +kernel

end Verif.Lines
