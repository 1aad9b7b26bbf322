import Verif.EvLog.Sinks

/-!
# Properties of event lists and of the choice of sinks (C79, C80)
-/

namespace Verif.EvLog

/-! ## Event lists -/

theorem not_reads_star (l : List (Nat × Nat × Nat)) : ¬ Reads [42, 46, 42] l := by
  rintro ⟨items, hne, hs, he⟩
  have h1 := split_commas hne (entries_nocomma he)
  rw [← hs] at h1
  have h2 : split [42, 46, 42] = [[42, 46, 42]] := by decide
  rw [h2] at h1
  subst h1
  have h3 := (parseItems_iff (c := none)).2 ⟨l, he, rfl⟩
  have h4 : (match parseItems none [[42, 46, 42]] with | .ok _ => true | .error _ => false) = false := by decide
  rw [h3] at h4
  cases h4

/-- C79: exactly the lists that follow the description are accepted, and `*.*`. -/
theorem list_accepted (s : Str) :
    (∃ f, parseEvents s = .ok f) ↔ s = [42, 46, 42] ∨ ∃ l, Reads s l := by
  constructor
  · rintro ⟨f, h⟩
    by_cases hs : s = [42, 46, 42]
    · exact .inl hs
    · unfold parseEvents at h
      rw [if_neg hs] at h
      split at h
      · cases h
      · rename_i p hp
        obtain ⟨l, hl, -⟩ := parseItems_iff.1 hp
        exact .inr ⟨l, split s, split_ne s, (commas_split s).symm, hl⟩
  · rintro (rfl | ⟨l, items, hne, hs, he⟩)
    · exact ⟨known, rfl⟩
    · by_cases hs' : s = [42, 46, 42]
      · exact ⟨known, by unfold parseEvents; rw [if_pos hs']⟩
      · refine ⟨fun x => (allPairs l).contains x && known x, ?_⟩
        unfold parseEvents
        rw [if_neg hs']
        have h1 := split_commas hne (entries_nocomma he)
        rw [← hs] at h1
        rw [h1, parseItems_iff.2 ⟨l, he, rfl⟩]

/-- C79: an accepted list selects the known events in the ranges it stands for, and no other. -/
theorem list_selects (s : Str) (l : List (Nat × Nat × Nat)) (h : Reads s l) :
    ∃ f, parseEvents s = .ok f ∧ ∀ x, f x = true ↔ InRanges l x ∧ known x = true := by
  have hs' : s ≠ [42, 46, 42] := by rintro rfl; exact not_reads_star l h
  obtain ⟨items, hne, hs, he⟩ := h
  refine ⟨fun x => (allPairs l).contains x && known x, ?_, ?_⟩
  · unfold parseEvents
    rw [if_neg hs']
    have h1 := split_commas hne (entries_nocomma he)
    rw [← hs] at h1
    rw [h1, parseItems_iff.2 ⟨l, he, rfl⟩]
  · intro x
    simp [mem_allPairs]

/-- C79: `*.*` selects the known events. -/
theorem list_all : ∃ f, parseEvents [42, 46, 42] = .ok f ∧ ∀ x, f x = true ↔ known x = true :=
  ⟨known, rfl, fun _ => Iff.rfl⟩

/-- C79: a list has one meaning: two readings cover the same events. -/
theorem list_unambiguous (s : Str) (l l' : List (Nat × Nat × Nat)) (h : Reads s l) (h' : Reads s l') (x : Nat × Nat) :
    InRanges l x ↔ InRanges l' x := by
  obtain ⟨i, hne, hs, he⟩ := h
  obtain ⟨i', hne', hs', he'⟩ := h'
  have h1 := split_commas hne (entries_nocomma he)
  have h2 := split_commas hne' (entries_nocomma he')
  rw [← hs] at h1
  rw [← hs', h1] at h2
  subst h2
  have e1 := (parseItems_iff (c := none)).2 ⟨l, he, rfl⟩
  have e2 := (parseItems_iff (c := none)).2 ⟨l', he', rfl⟩
  rw [e1] at e2
  simp only [Except.ok.injEq] at e2
  rw [← mem_allPairs, ← mem_allPairs, e2]

/-- What a known event is: a class of events.py and a number of 0 to 31. -/
theorem known_iff (x : Nat × Nat) : known x = true ↔
    x.1 ∈ [0, 2, 3, 4, 5, 6, 33, 34, 64, 93, 94, 128, 353] ∧ x.2 ≤ 31 := by
  simp only [known, classes, Bool.and_eq_true, List.contains_iff_mem, decide_eq_true_eq]
  constructor <;> rintro ⟨h1, h2⟩ <;> exact ⟨h1, by omega⟩

/-- `2.0,1,4.1,7,11-14`, the example of the manual. -/
theorem manual_reads : Reads [50, 46, 48, 44, 49, 44, 52, 46, 49, 44, 55, 44, 49, 49, 45, 49, 52]
    [(2, 0, 0), (2, 1, 1), (4, 1, 1), (4, 7, 7), (4, 11, 14)] := by
  have d : ∀ d : Nat, d < 10 → Numeral [48 + d] d := fun d h => .one h
  have n11 : Numeral [49, 49] 11 := .snoc (s := [49]) (n := 1) (d := 1) (.one (d := 1) (by decide)) (by decide)
  have n14 : Numeral [49, 52] 14 := .snoc (s := [49]) (n := 1) (d := 4) (.one (d := 1) (by decide)) (by decide)
  refine ⟨[[50, 46, 48], [49], [52, 46, 49], [55], [49, 49, 45, 49, 52]], by simp, rfl, ?_⟩
  exact .own (t := [50]) (s := [48]) (n := []) (d 2 (by decide)) (by decide) (.one (d 0 (by decide))) (by decide) (.inl rfl)
    (.same (s := [49]) (n := []) (.one (d 1 (by decide))) (by decide) (.inl rfl)
    (.own (t := [52]) (s := [49]) (n := []) (d 4 (by decide)) (by decide) (.one (d 1 (by decide))) (by decide) (.inl rfl)
    (.same (s := [55]) (n := []) (.one (d 7 (by decide))) (by decide) (.inl rfl)
    (.same (s := [49, 49, 45, 49, 52]) (n := []) (.range (s := [49, 49]) (t := [49, 52]) n11 n14 (by decide)) (by decide)
      (.inl rfl) .nil))))

example : ∃ f, parseEvents [50, 46, 48, 44, 49, 44, 52, 46, 49, 44, 55, 44, 49, 49, 45, 49, 52] = .ok f ∧
    f (2, 1) = true ∧ f (4, 12) = true ∧ f (4, 10) = false ∧ f (3, 1) = false := by
  obtain ⟨f, hf, h⟩ := list_selects _ _ manual_reads
  refine ⟨f, hf, (h _).2 ⟨⟨(2, 1, 1), by decide, by decide⟩, by decide⟩,
    (h _).2 ⟨⟨(4, 11, 14), by decide, by decide⟩, by decide⟩, ?_, ?_⟩
  all_goals
    rw [← Bool.not_eq_true, h]
    unfold InRanges
    decide

/-! ## Sinks -/

theorem entFilter_selects {e : Ent} {g : Filter} (h : entFilter e = .ok g) (x : Nat × Nat) :
    g x = true ↔ Selects e x := by
  have hnil : ∀ l, ¬ Reads [] l := by
    rintro l ⟨items, hne, hs, he⟩
    have h1 := split_commas hne (entries_nocomma he)
    rw [← hs] at h1
    have h2 : split [] = [[]] := rfl
    rw [h2] at h1
    subst h1
    have h3 := (parseItems_iff (c := none)).2 ⟨l, he, rfl⟩
    have h4 : (match parseItems none [[]] with | .ok _ => true | .error _ => false) = false := by decide
    rw [h3] at h4
    cases h4
  unfold entFilter at h
  split at h
  · rename_i c s hs
    rcases (list_accepted _).1 ⟨g, h⟩ with ha | ⟨l, hl⟩
    · rw [ha] at h
      have hg : g = known := by
        have : parseEvents [42, 46, 42] = .ok known := rfl
        rw [this] at h; simp only [Except.ok.injEq] at h; exact h.symm
      subst hg
      constructor
      · intro hk; exact ⟨hk, .inr (.inl (by rw [hs, ha]))⟩
      · exact fun hk => hk.1
    · obtain ⟨f, hf, hm⟩ := list_selects _ _ hl
      rw [h] at hf
      simp only [Except.ok.injEq] at hf
      subst hf
      rw [hm]
      constructor
      · rintro ⟨h1, h2⟩; exact ⟨h2, .inl ⟨_, l, hs, hl, h1⟩⟩
      · rintro ⟨h2, h3 | h3 | h3⟩
        · obtain ⟨s', l', hs', hl', hin⟩ := h3
          rw [hs] at hs'
          simp only [Option.some.injEq] at hs'
          subst hs'
          exact ⟨(list_unambiguous _ _ _ hl' hl x).1 hin, h2⟩
        · rw [hs] at h3
          simp only [Option.some.injEq] at h3
          rw [h3] at hl
          exact absurd hl (not_reads_star l)
        · rcases h3.1 with h4 | h4 <;> (rw [hs] at h4; simp at h4)
  · rename_i hne
    simp only [Except.ok.injEq] at h
    subst h
    have hev : e.events = none ∨ e.events = some [] := by
      cases hh : e.events with
      | none => exact .inl rfl
      | some s => cases s with
        | nil => exact .inr rfl
        | cons c s => exact absurd hh (hne c s)
    simp only [Bool.and_eq_true, decide_eq_true_eq]
    constructor
    · rintro ⟨h1, h2⟩; exact ⟨h2, .inr (.inr ⟨hev, h1.2, h1.1⟩)⟩
    · rintro ⟨h2, h3 | h3 | h3⟩
      · obtain ⟨s', l', hs', hl', -⟩ := h3
        rcases hev with h4 | h4
        · rw [h4] at hs'; cases hs'
        · rw [h4] at hs'
          simp only [Option.some.injEq] at hs'
          subst hs'
          exact absurd hl' (hnil l')
      · rcases hev with h4 | h4 <;> (rw [h4] at h3; simp at h3)
      · exact ⟨⟨h3.2.2, h3.2.1⟩, h2⟩

theorem filt_selects {cfg : List Ent} {S : List Sink} (hi : SInv cfg S) {e : Ent} (he : e ∈ cfg) (x : Nat × Nat) :
    filt e x = true ↔ Selects e x := by
  obtain ⟨g, hg⟩ := hi.ok e he
  have : filt e = g := by simp [filt, hg]
  rw [this]
  exact entFilter_selects hg x

theorem filter_le_one {cfg : List Ent} (h : OneEach cfg) (k : Kind) : (cfg.filter (isLoc k)).length ≤ 1 := by
  induction cfg with
  | nil => simp
  | cons e es ih =>
    have h1 := List.pairwise_cons.1 h
    have h2 := ih h1.2
    rw [List.filter_cons]
    split
    · rename_i hp
      have : es.filter (isLoc k) = [] := by
        rw [List.filter_eq_nil_iff]
        intro a ha hp'
        simp only [isLoc, decide_eq_true_eq] at hp hp'
        exact h1.1 a ha ⟨by rw [hp.1, hp'.1], by rw [hp.2, hp'.2]⟩
      simp [this]
    · exact h2

/-- C80: an event that is logged is written exactly once to each local sink whose entry selects it, and
not to any other. -/
theorem local_exact (cfg : List Ent) (S : List Sink) (e : Event) (k : Kind) (hne : cfg ≠ []) (h1 : OneEach cfg)
    (hc : init cfg = .ok S) (hr : (logEvent true e S).2 = true) :
    (Selected cfg none k (e.cls, e.num) → ((logEvent true e S).1.filter (Write.isLocal k)).length = 1) ∧
    (¬ Selected cfg none k (e.cls, e.num) → (logEvent true e S).1.filter (Write.isLocal k) = []) := by
  have hi := sinv_init hne hc
  have hl := logEvent_local k e S hr
  rw [hi.loc, List.filter_map, List.length_map] at hl
  have hle := filter_le_one h1 k
  have hle2 : ((cfg.filter (isLoc k)).filter ((fun f => f (e.cls, e.num)) ∘ filt)).length ≤ 1 :=
    Nat.le_trans (List.length_filter_le _ _) hle
  have hsel : Selected cfg none k (e.cls, e.num) ↔
      (cfg.filter (isLoc k)).filter ((fun f => f (e.cls, e.num)) ∘ filt) ≠ [] := by
    rw [Ne, List.filter_eq_nil_iff]
    constructor
    · rintro ⟨a, ha, hn, hk, hs⟩ hh
      exact hh a (List.mem_filter.2 ⟨ha, by simp [isLoc, hn, hk]⟩) ((filt_selects hi ha _).2 hs)
    · intro hh
      refine Classical.byContradiction fun hns => hh ?_
      intro a ha hf
      obtain ⟨ha1, ha2⟩ := List.mem_filter.1 ha
      simp only [isLoc, decide_eq_true_eq] at ha2
      exact hns ⟨a, ha1, ha2.1, ha2.2, (filt_selects hi ha1 _).1 hf⟩
  constructor
  · intro hs
    rw [hl]
    have := List.length_pos_iff.2 (hsel.1 hs)
    omega
  · intro hs
    have : (cfg.filter (isLoc k)).filter ((fun f => f (e.cls, e.num)) ∘ filt) = [] :=
      Classical.byContradiction fun hh => hs (hsel.2 hh)
    rw [this] at hl
    exact List.length_eq_zero_iff.1 hl

/-- C80: the event gets exactly one place in the queue for each other node some sink of which selects it,
whatever the number of its sinks that do, and none in the queue for another node. -/
theorem remote_exact_partial (cfg : List Ent) (S : List Sink) (mon : Bool) (e : Event) (n : Str) (hne : cfg ≠ [])
    (hc : init cfg = .ok S) (hr : (logEvent mon e S).2 = true) :
    ((∃ k, Selected cfg (some n) k (e.cls, e.num)) → (logEvent mon e S).1.filter (Write.isFor n) = [.queue n 7]) ∧
    ((¬ ∃ k, Selected cfg (some n) k (e.cls, e.num)) → (logEvent mon e S).1.filter (Write.isFor n) = []) := by
  have hi := sinv_init hne hc
  have hl := logEvent_for n mon e S hr
  rw [hi.rem] at hl
  have hsel : (∃ k, Selected cfg (some n) k (e.cls, e.num)) ↔ ∃ k, remFilter n cfg k (e.cls, e.num) = true := by
    constructor
    · rintro ⟨k, a, ha, hn, hk, hs⟩
      refine ⟨k, ?_⟩
      simp only [remFilter, List.any_eq_true, Bool.and_eq_true, decide_eq_true_eq]
      exact ⟨a, List.mem_filter.2 ⟨ha, by simp [isRem, hn]⟩, hk, (filt_selects hi ha _).2 hs⟩
    · rintro ⟨k, hk⟩
      simp only [remFilter, List.any_eq_true, Bool.and_eq_true, decide_eq_true_eq] at hk
      obtain ⟨a, ha, hk, hf⟩ := hk
      obtain ⟨ha1, ha2⟩ := List.mem_filter.1 ha
      simp only [isRem, decide_eq_true_eq] at ha2
      exact ⟨k, a, ha1, ha2, hk, (filt_selects hi ha1 _).1 hf⟩
  constructor
  · intro hs
    obtain ⟨k, hk⟩ := hsel.1 hs
    have hne' : cfg.filter (isRem n) ≠ [] := by
      intro h0
      rw [remFilter_none h0] at hk
      cases hk
    rw [if_neg hne'] at hl
    rw [hl, List.filter_cons, if_pos (by simpa using mask_ne.2 ⟨k, hk⟩)]
    rfl
  · intro hs
    rw [hl]
    split
    · rfl
    · rw [List.filter_cons, if_neg]
      · rfl
      · simp only [decide_eq_true_eq]
        intro hm
        exact hs (hsel.2 (mask_ne.1 hm))

/-- C80: a record of the file is the encoded event after its length in two bytes. -/
theorem file_record (mon : Bool) (e : Event) (S : List Sink) (b : Bytes) (h : .record b ∈ (logEvent mon e S).1) :
    ∃ p, e.enc = some p ∧ ∃ lo hi : UInt8, lo.toNat + 256 * hi.toNat = p.length ∧ b = lo :: hi :: p := by
  induction S with
  | nil => simp [logEvent] at h
  | cons s S ih =>
    simp only [logEvent] at h
    split at h
    · simp at h
    · rename_i w hw
      simp only [List.mem_append] at h
      rcases h with h | h
      · cases s with
        | remote n f => simp only [logOne] at hw; split at hw <;> (simp only [Option.some.injEq] at hw; subst hw; simp at h)
        | loc k f =>
          simp only [logOne] at hw
          split at hw
          · cases k with
            | console => simp only [writeLocal, Option.some.injEq] at hw; subst hw; simp at h
            | monitor =>
              simp only [writeLocal, Option.some.injEq] at hw; subst hw
              split at h <;> simp at h
            | file =>
              simp only [writeLocal] at hw
              split at hw
              · cases hw
              · rename_i p hp
                simp only [Option.map_eq_some_iff] at hw
                obtain ⟨r, hr, rfl⟩ := hw
                simp only [List.mem_singleton, Write.record.injEq] at h
                subst h
                unfold record at hr
                split at hr
                · rename_i hlt
                  simp only [Option.some.injEq] at hr
                  refine ⟨p, hp, _, _, ?_, hr.symm⟩
                  rw [UInt8.toNat_ofNat', UInt8.toNat_ofNat']
                  have h1 : p.length / 256 < 256 := by omega
                  have h2 : p.length % 256 < 256 := by omega
                  have e1 : p.length % 256 % 2 ^ 8 = p.length % 256 := Nat.mod_eq_of_lt h2
                  have e2 : p.length / 256 % 2 ^ 8 = p.length / 256 := Nat.mod_eq_of_lt h1
                  rw [e1, e2]
                  omega
                · cases hr
          · simp only [Option.some.injEq] at hw; subst hw; simp at h
      · exact ih h

/-- C80: logging cannot fail when the event has an encoding that fits a record. -/
theorem log_succeeds (e : Event) (p : Bytes) (he : e.enc = some p) (hp : p.length < 65536) (S : List Sink) (mon : Bool) :
    (logEvent mon e S).2 = true := by
  induction S with
  | nil => rfl
  | cons s S ih =>
    simp only [logEvent]
    split
    · rename_i hw
      cases s with
      | remote n f => simp only [logOne] at hw; split at hw <;> cases hw
      | loc k f =>
        simp only [logOne] at hw
        split at hw
        · cases k with
          | console => cases hw
          | monitor => cases hw
          | file =>
            simp only [writeLocal, he, record, hp, if_true] at hw
            cases hw
        · cases hw
    · exact ih

/-- C80, not as the configuration says: which sinks of the other node select the event makes no
difference to the message. -/
theorem remote_flags_ignored (e : Event) (S : List Sink) (mon : Bool) (n : Str) (fl : Nat)
    (h : .queue n fl ∈ (logEvent mon e S).1) : fl = 7 := by
  induction S with
  | nil => simp [logEvent] at h
  | cons s S ih =>
    simp only [logEvent] at h
    split at h
    · simp at h
    · rename_i w hw
      simp only [List.mem_append] at h
      rcases h with h | h
      · cases s with
        | remote m f =>
          simp only [logOne] at hw
          split at hw
          · simp only [Option.some.injEq, wireFlags] at hw; subst hw; simp at h; exact h.2
          · simp only [Option.some.injEq] at hw; subst hw; simp at h
        | loc k f =>
          simp only [logOne] at hw
          split at hw
          · have := writeLocal_for (n := n) hw
            have h' : Write.queue n fl ∈ w.filter (Write.isFor n) := List.mem_filter.2 ⟨h, by simp [Write.isFor]⟩
            rw [this] at h'; cases h'
          · simp only [Option.some.injEq] at hw; subst hw; simp at h
      · exact ih h

/-- C80: a configuration without `logging` lines logs nothing, not even to the console. -/
theorem no_configuration (S : List Sink) (h : init [] = .ok S) (mon : Bool) (e : Event) :
    logEvent mon e S = ([], true) := by
  simp only [init, if_true, Except.ok.injEq] at h
  subst h
  simp [logEvent, logOne]

/-- An entry with a list that cannot be read makes the start of the node fail. -/
theorem bad_list_fails (cfg : List Ent) (e : Ent) (he : e ∈ cfg) (s : Str) (hs : e.events = some s) (hne : s ≠ [])
    (hb : s ≠ [42, 46, 42]) (hr : ¬ ∃ l, Reads s l) (S : List Sink) : init cfg ≠ .ok S := by
  intro hc
  have hne' : cfg ≠ [] := by rintro rfl; cases he
  obtain ⟨g, hg⟩ := (sinv_init hne' hc).ok e he
  unfold entFilter at hg
  rw [hs] at hg
  cases s with
  | nil => exact hne rfl
  | cons c s =>
    rcases (list_accepted _).1 ⟨g, hg⟩ with h | h
    · exact hb h
    · exact hr h

/-- Two local sinks and two of node `HUB`. -/
def exCfg : List Ent :=
  [⟨none, .console, none⟩, ⟨none, .file, some [52, 46, 55, 45, 49, 48]⟩,
   ⟨some [72, 85, 66], .file, some [52, 46, 42]⟩, ⟨some [72, 85, 66], .console, some [52, 46, 49, 53]⟩]

example : OneEach exCfg := by unfold OneEach; decide

/-- 4.10 goes to the console, the file, and node `HUB` (with the flags of three sinks, though only the
file is to have it); 4.15 to the console and `HUB`; 3.0 to the console. -/
example : (match init exCfg with
    | .ok S => [logEvent true ⟨4, 10, some [1, 2]⟩ S, logEvent true ⟨4, 15, some [1, 2]⟩ S, logEvent true ⟨3, 0, none⟩ S]
    | .error _ => []) =
    [([.log, .record [2, 0, 1, 2], .queue [72, 85, 66] 7], true), ([.log, .queue [72, 85, 66] 7], true),
     ([.log], true)] := by decide

/-! ## Events from other nodes -/

theorem localSink_iff (cfgs : List (List Ent)) (k : Kind) (i : Nat) : localSink cfgs k = some i ↔
    i < cfgs.length ∧ (cfgs.getD i []).any (isLoc k) = true ∧
    ∀ j, i < j → j < cfgs.length → (cfgs.getD j []).any (isLoc k) = false := by
  unfold localSink
  have gen : ∀ m, (List.range m).foldl
      (fun r i => if (cfgs.getD i []).any (fun e => decide (e.node = none ∧ e.kind = k)) then some i else r) none = some i ↔
      i < m ∧ (cfgs.getD i []).any (isLoc k) = true ∧ ∀ j, i < j → j < m → (cfgs.getD j []).any (isLoc k) = false := by
    intro m
    induction m with
    | zero => simp
    | succ m ih =>
      rw [List.range_succ, List.foldl_append]
      simp only [List.foldl_cons, List.foldl_nil]
      have hd : (cfgs.getD m []).any (fun e => decide (e.node = none ∧ e.kind = k)) = (cfgs.getD m []).any (isLoc k) := rfl
      rw [hd]
      by_cases hm : (cfgs.getD m []).any (isLoc k) = true
      · rw [if_pos hm]
        simp only [Option.some.injEq]
        constructor
        · rintro rfl; exact ⟨by omega, hm, fun j h1 h2 => by omega⟩
        · rintro ⟨h1, h2, h3⟩
          refine Classical.byContradiction fun hne => ?_
          have := h3 m (by omega) (by omega)
          rw [hm] at this; cases this
      · rw [if_neg hm, ih]
        constructor
        · rintro ⟨h1, h2, h3⟩
          refine ⟨by omega, h2, fun j h4 h5 => ?_⟩
          by_cases hj : j = m
          · subst hj; simpa using hm
          · exact h3 j h4 (by omega)
        · rintro ⟨h1, h2, h3⟩
          have : i ≠ m := by rintro rfl; exact hm h2
          exact ⟨by omega, h2, fun j h4 h5 => h3 j h4 (by omega)⟩
  exact gen _

theorem localSink_none (cfgs : List (List Ent)) (k : Kind) (h : localSink cfgs k = none) (j : Nat) (hj : j < cfgs.length) :
    (cfgs.getD j []).any (isLoc k) = false := by
  unfold localSink at h
  have gen : ∀ m, (List.range m).foldl
      (fun r i => if (cfgs.getD i []).any (fun e => decide (e.node = none ∧ e.kind = k)) then some i else r) none = none →
      ∀ j, j < m → (cfgs.getD j []).any (isLoc k) = false := by
    intro m
    induction m with
    | zero => intro _ j hj; omega
    | succ m ih =>
      rw [List.range_succ, List.foldl_append]
      simp only [List.foldl_cons, List.foldl_nil]
      have hd : (cfgs.getD m []).any (fun e => decide (e.node = none ∧ e.kind = k)) = (cfgs.getD m []).any (isLoc k) := rfl
      rw [hd]
      by_cases hm : (cfgs.getD m []).any (isLoc k) = true
      · rw [if_pos hm]; intro h; cases h
      · rw [if_neg hm]
        intro h j hj
        by_cases hj' : j = m
        · subst hj'; simpa using hm
        · exact ih h j (by omega)
  exact gen _ h j hj

theorem logRemote_count (cfgs : List (List Ent)) (fl : Nat) (e : Event) (k : Kind) : ∀ ks : List Kind,
    (logRemote cfgs (fun _ => true) fl e ks).2 = true →
    ((logRemote cfgs (fun _ => true) fl e ks).1.filter (fun w => Write.isLocal k w.2)).map (·.1) =
      (ks.filter (· = k)).filterMap fun k => if flag fl k then localSink cfgs k else none := by
  intro ks
  induction ks with
  | nil => intro _; rfl
  | cons k' ks ih =>
    intro h
    simp only [logRemote] at h ⊢
    cases hs : (if flag fl k' = true then localSink cfgs k' else none) with
    | none =>
      rw [hs] at h
      simp only at h ⊢
      rw [ih h]
      by_cases hk : k' = k
      · subst hk; simp [hs]
      · simp [hk]
    | some i =>
      rw [hs] at h
      simp only at h ⊢
      cases hw : writeLocal k' true e with
      | none => rw [hw] at h; cases h
      | some w =>
        rw [hw] at h
        simp only at h ⊢
        have hl := writeLocal_local (k' := k) hw
        rw [List.filter_append, List.map_append, ih h]
        rw [List.filter_map, List.map_map]
        by_cases hk : k' = k
        · subst hk
          rw [if_pos rfl] at hl
          obtain ⟨y, hy⟩ := List.length_eq_one_iff.1 hl
          have : w.filter ((fun w : Nat × Write => Write.isLocal k' w.2) ∘ fun x => (i, x)) = [y] := hy
          rw [this]
          simp [hs]
        · rw [if_neg hk] at hl
          have : w.filter ((fun w : Nat × Write => Write.isLocal k w.2) ∘ fun x => (i, x)) = [] :=
            List.length_eq_zero_iff.1 hl
          rw [this]
          simp [hk]

/-- The bits of the sink flags in an event message: console, file, monitor from the lowest. -/
def Kind.pos : Kind → Nat
  | .console => 0 | .file => 1 | .monitor => 2

/-- C80: an event from another node is written once to the local sink of each kind its flags ask for: that
of the last node of the process (not of the node that was connected to) that has an entry for such a
sink. -/
theorem received_exact (cfgs : List (List Ent)) (fl : Nat) (e : Event) (k : Kind)
    (h : (logRemote cfgs (fun _ => true) fl e kinds).2 = true) (i : Nat) :
    ((logRemote cfgs (fun _ => true) fl e kinds).1.filter (fun w => Write.isLocal k w.2)).map (·.1) = [i] ↔
      fl.testBit k.pos = true ∧ i < cfgs.length ∧ (∃ x ∈ cfgs.getD i [], x.node = none ∧ x.kind = k) ∧
      ∀ j, i < j → j < cfgs.length → ¬ ∃ x ∈ cfgs.getD j [], x.node = none ∧ x.kind = k := by
  have hbit : fl.testBit k.pos = true ↔ fl / k.bit % 2 = 1 := by
    rw [Nat.testBit_eq_decide_div_mod_eq, decide_eq_true_eq]
    cases k <;> rfl
  rw [logRemote_count cfgs fl e k kinds h, hbit]
  have h1 : kinds.filter (· = k) = [k] := by cases k <;> decide
  rw [h1]
  have hany : ∀ j, (cfgs.getD j []).any (isLoc k) = true ↔ ∃ x ∈ cfgs.getD j [], x.node = none ∧ x.kind = k := by
    intro j; simp [isLoc]
  have hs := localSink_iff cfgs k i
  by_cases hf : flag fl k = true
  · have hf' : fl / k.bit % 2 = 1 := by simpa [flag] using hf
    simp only [List.filterMap_cons, hf, if_true, List.filterMap_nil]
    cases hq : localSink cfgs k with
    | none =>
      simp only [reduceCtorEq, false_iff]
      rintro ⟨-, h2, h3, -⟩
      have := localSink_none cfgs k hq i h2
      rw [(hany i).2 h3] at this; cases this
    | some q =>
      rw [hq] at hs
      simp only [List.cons.injEq, and_true, Option.some.injEq] at hs ⊢
      rw [hs, hany]
      constructor
      · rintro ⟨a, b, c⟩
        exact ⟨hf', a, b, fun j h1 h2 h3 => by have := c j h1 h2; rw [(hany j).2 h3] at this; cases this⟩
      · rintro ⟨-, a, b, c⟩
        refine ⟨a, b, fun j h1 h2 => ?_⟩
        cases hh : (cfgs.getD j []).any (isLoc k) with
        | false => rfl
        | true => exact absurd ((hany j).1 hh) (c j h1 h2)
  · have hf' : ¬ fl / k.bit % 2 = 1 := by simpa [flag] using hf
    simp [hf, hf']

/-- Two nodes in a process, both with a console; an event for the consoles sent to the first is shown
by the second. -/
example : logRemote [[⟨none, .console, none⟩], [⟨none, .console, none⟩, ⟨none, .file, none⟩]] (fun _ => true) 1
    ⟨4, 10, some []⟩ kinds = ([(1, .log)], true) := by decide

end Verif.EvLog
