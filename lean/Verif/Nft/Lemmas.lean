import Verif.Nft.Runs
import Verif.Nft.Spec

namespace Verif.Nft

variable {h : Host}

theorem visible_eq (dirop : Bool) (e : Entry) : e.visible dirop = (e.there && e.readable && (dirop || !e.isdir)) := by
  unfold Entry.visible
  cases e.there <;> cases e.readable <;> cases e.isdir <;> cases dirop <;> rfl

theorem reported_cons (dirop : Bool) (e : Entry) (es : List Entry) :
    reported dirop (e :: es) = if e.visible dirop then e :: reported dirop es else reported dirop es := by
  unfold reported
  rw [List.filter_cons, ← visible_eq]

theorem walk_nil (strip : Str → Str) (dirop named : Bool) (es : List Entry) (ret : List Msg) (cur : Option Str) :
    walk strip dirop named ret cur es = [] ↔ reported dirop es = [] := by
  induction es with
  | nil => simp [walk, reported]
  | cons e es ih =>
    rw [reported_cons, walk]
    by_cases hv : e.visible dirop = true
    · simp [hv]
    · simp only [hv, Bool.false_eq_true, if_false]; exact ih

theorem files_found {strip : Str → Str} {dirop : Bool} {g : Glob} (hf : Found dirop g) :
    files strip dirop g = .files (walk strip dirop (dirop || g.wild)
      (if dirop || g.wild then [.name .vol []] else []) none g.found) := by
  unfold files
  have h0 : ¬ (g.found = [] ∧ g.searchable = false) := by
    rintro ⟨h1, h2⟩
    rcases hf with h | ⟨_, h, _⟩ | ⟨e, h, _⟩
    · exact h (by rw [h1]; rfl)
    · rw [h2] at h; cases h
    · rw [h1] at h; cases h
  rw [if_neg h0]
  simp only []
  cases hw : walk strip dirop (dirop || g.wild) (if dirop || g.wild then [.name .vol []] else []) none g.found with
  | nil =>
    have hn := (walk_nil ..).1 hw
    have hm : 42 ∈ lastName g := by
      rcases hf with h | ⟨h, _, h2⟩ | ⟨e, h, h2⟩
      · exact absurd hn h
      · simpa [lastName, h] using h2
      · simpa [lastName, h] using h2
    simp [hm]
  | cons x l => rfl

theorem files_lost {strip : Str → Str} {dirop : Bool} {g : Glob} (hf : ¬ Found dirop g) :
    ∃ mic, files strip dirop g = .error 4 mic := by
  unfold files
  by_cases h0 : g.found = [] ∧ g.searchable = false
  · exact ⟨32, by rw [if_pos h0]⟩
  · rw [if_neg h0]
    simp only []
    have hn : reported dirop g.found = [] := Classical.byContradiction fun e => hf (.inl e)
    rw [(walk_nil ..).2 hn]
    have hm : 42 ∉ lastName g := by
      intro hm
      unfold lastName at hm
      cases hl : g.found.getLast? with
      | none =>
        rw [hl] at hm
        have hnil : g.found = [] := by simpa using hl
        refine hf (.inr (.inl ⟨hnil, ?_, by simpa using hm⟩))
        cases hs : g.searchable with
        | true => rfl
        | false => exact absurd ⟨hnil, hs⟩ h0
      | some e =>
        rw [hl] at hm
        exact hf (.inr (.inr ⟨e, hl, by simpa using hm⟩))
    exact ⟨50, by simp [hm]⟩

theorem length_pad (b : Bytes) : (Fal.blocks b).flatten = padded b := by
  induction b using Fal.blocks.induct with
  | case1 => simp [Fal.blocks, padded]
  | case2 b hb ih =>
    have hpos : 0 < b.length := by
      cases b with
      | nil => contradiction
      | cons x b => simp
    rw [Fal.blocks, if_neg hb]
    simp only [List.flatten_cons, ih]
    unfold padded
    by_cases hl : b.length ≤ 512
    · have h1 : b.take 512 = b := List.take_of_length_le hl
      have h2 : b.drop 512 = [] := List.drop_of_length_le hl
      rw [h1, h2]
      simp only [List.length_nil, Nat.zero_mod, Nat.sub_zero, Nat.mod_self, List.replicate_zero, List.append_nil]
      congr 2
      by_cases he : b.length = 512
      · simp [he]
      · have : b.length % 512 = b.length := Nat.mod_eq_of_lt (by omega)
        rw [this]; omega
    · have h1 : (b.take 512).length = 512 := by rw [List.length_take]; omega
      rw [h1]
      simp only [Nat.sub_self, List.replicate_zero, List.append_nil]
      rw [← List.append_assoc, List.take_append_drop]
      congr 2
      rw [List.length_drop]
      have : (b.length - 512) % 512 = b.length % 512 := by omega
      rw [this]

/-! ## The client reading -/

/-- The variables of `files` before a file has been described, and after. -/
def base (c : Cmd) : Scan := { cmd := c }
def full (c : Cmd) (e : Entry) : Scan :=
  { cmd := c, name := some (true, clean e), attr := some (512, e.bytes.length / 512 + 1, e.bytes.length % 512),
    date := true, prot := some (e.owner, e.mode) }

theorem full_clear (c : Cmd) (e : Entry) : (full c e).clear = base c := rfl

/-- What is shown for an entry. -/
def line (e : Entry) : Ev := .entry e.mode e.owner e.bytes.length (clean e)

theorem line_eq (e : Entry) :
    Ev.entry e.mode e.owner ((((e.bytes.length / 512 + 1 : Nat) : Int) - 1) * (512 : Nat) + (e.bytes.length % 512 : Nat))
      (clean e) = line e := by
  unfold line
  congr 1
  omega

theorem run_describe (c : Cmd) (e : Entry) (todo : List Cmd) :
    Cli.run ⟨.scan (base c), todo⟩ (describe true e) = some (⟨.scan (full c e), todo⟩, [], []) := rfl

theorem run_ack (spec : Str) (e : Entry) (todo : List Cmd) :
    Cli.run ⟨.scan (full (.dir spec) e), todo⟩ [.ack] = some (⟨.scan (base (.dir spec)), todo⟩, [], [line e]) := by
  rw [← line_eq]; rfl

theorem run_head (spec : Str) (e : Entry) (d : Str) (todo : List Cmd) :
    Cli.run ⟨.scan (full (.dir spec) e), todo⟩ [.name .dir d]
      = some (⟨.scan (base (.dir spec)), todo⟩, [], [line e, .heading [] d spec]) := by
  rw [← line_eq]; rfl

theorem run_next (spec : Str) (e e' : Entry) (todo : List Cmd) :
    Cli.run ⟨.scan (full (.dir spec) e), todo⟩ (describe true e')
      = some (⟨.scan (full (.dir spec) e'), todo⟩, [], [line e]) := by
  rw [← line_eq]; rfl

theorem run_end (spec : Str) (e : Entry) (todo : List Cmd) (f : Nat) :
    Cli.run ⟨.scan (full (.dir spec) e), todo⟩ [.complete f] = some ((begin todo).1, (begin todo).2, [line e]) := by
  rw [← line_eq]; simp [Cli.run, Cli.step, scan, full, Msg.ends, yield, treat, finish]

theorem run_base_end (c : Cmd) (todo : List Cmd) (f : Nat) :
    Cli.run ⟨.scan (base c), todo⟩ [.complete f] = some ((begin todo).1, (begin todo).2, []) := by
  simp [Cli.run, Cli.step, scan, base, treat, finish]

/-- Waiting, with a file described or not. -/
def pend (c : Cmd) : Option Entry → Scan
  | none => base c
  | some e => full c e

def lines (p : Option Entry) : List Ev := p.toList.map line

/-- What comes before a file: the volume before the first one, the directory where it changes. -/
theorem run_pre (spec : Str) (p : Option Entry) (ret : List Msg) (hret : ret = [] ∨ (ret = [.name .vol []] ∧ p = none))
    (d : Str) (e : Entry) (c : Bool) (todo : List Cmd) :
    Cli.run ⟨.scan (pend (.dir spec) p), todo⟩ (ret ++ (if c then [.name .dir d] else []) ++ describe true e)
      = some (⟨.scan (full (.dir spec) e), todo⟩, [], lines p ++ if c then [.heading [] d spec] else []) := by
  cases c with
  | true =>
    simp only [if_true]
    have h1 : Cli.run ⟨.scan (pend (.dir spec) p), todo⟩ (ret ++ [.name .dir d])
        = some (⟨.scan (base (.dir spec)), todo⟩, [], lines p ++ [.heading [] d spec]) := by
      rcases hret with rfl | ⟨rfl, rfl⟩
      · cases p with
        | none => rfl
        | some e' => exact run_head spec e' d todo
      · rfl
    have := Cli.run_append _ (ret ++ [.name .dir d]) (describe true e) h1 (run_describe _ e todo)
    simpa using this
  | false =>
    simp only [Bool.false_eq_true, if_false, List.append_nil]
    rcases hret with rfl | ⟨rfl, rfl⟩
    · cases p with
      | none => exact run_describe _ e todo
      | some e' => exact run_next spec e' e todo
    · rfl

/-- A whole listing.  `p` is the file before, if it has not been shown yet. -/
theorem run_listing (strip : Str → Str) (spec : Str) (v7 : Bool) (todo : List Cmd) (es : List Entry) :
    ∀ (p : Option Entry) (ret : List Msg) (cur : Option Str),
      (ret = [] ∨ (ret = [.name .vol []] ∧ p = none)) → (v7 = true → p = none) →
      ∃ q evs, (v7 = true → q = none) ∧
        Cli.run ⟨.scan (pend (.dir spec) p), todo⟩
            ((walk strip true true ret cur es).flatMap fun x => x.2 ++ if v7 then [.ack] else [])
          = some (⟨.scan (pend (.dir spec) q), todo⟩, [], evs) ∧
        evs ++ lines q = lines p ++ listing strip spec cur (reported true es) := by
  induction es with
  | nil =>
    intro p ret cur _ hv
    exact ⟨p, [], hv, rfl, by simp [listing, reported]⟩
  | cons e es ih =>
    intro p ret cur hret hv
    rw [reported_cons, walk]
    by_cases hvis : e.visible true = true
    · simp only [hvis, if_true, List.flatMap_cons]
      have hc : (some e.dn ≠ cur && true) = decide (¬ cur = some e.dn) := by
        rw [Bool.and_true, decide_eq_decide]
        exact ⟨fun a b => a b.symm, fun a b => a b.symm⟩
      have h1 := run_pre spec p ret hret (strip e.dn ++ [47]) e (some e.dn ≠ cur && true) todo
      have hl : listing strip spec cur (e :: reported true es)
          = (if (some e.dn ≠ cur && true) = true then [.heading [] (strip e.dn ++ [47]) spec] else []) ++
            line e :: listing strip spec (some e.dn) (reported true es) := by
        rw [hc]
        simp only [listing]
        by_cases hcur : cur = some e.dn
        · simp [hcur, line]
        · simp [hcur, line]
      rw [hl]
      cases v7 with
      | true =>
        obtain ⟨q, evs, hq, hrun, hev⟩ := ih none [] (some e.dn) (.inl rfl) (fun _ => rfl)
        have h2 := Cli.run_append _ _ [.ack] h1 (run_ack spec e todo)
        have h3 := Cli.run_append _ _ _ h2 hrun
        simp only [List.append_nil] at h3
        refine ⟨q, _, hq, h3, ?_⟩
        simp only [List.append_assoc, hev]
        simp [lines]
      | false =>
        obtain ⟨q, evs, hq, hrun, hev⟩ := ih (some e) [] (some e.dn) (.inl rfl) (by simp)
        have h3 := Cli.run_append _ _ _ h1 hrun
        simp only [Bool.false_eq_true, if_false, List.append_nil] at h3 ⊢
        refine ⟨q, _, (fun x => x.elim), h3, ?_⟩
        · simp only [List.append_assoc, hev]
          simp [lines]
    · simp only [hvis, Bool.false_eq_true, if_false]
      exact ih p ret cur hret hv

/-- The messages of a listing are read to the end, and the next command is started. -/
theorem run_dir (strip : Str → Str) (spec : Str) (v7 : Bool) (todo : List Cmd) (es : List Entry) :
    Cli.run ⟨.scan (base (.dir spec)), todo⟩
        (((walk strip true true [.name .vol []] none es).flatMap fun x => x.2 ++ if v7 then [.ack] else []) ++ [.complete 2])
      = some ((begin todo).1, (begin todo).2, listing strip spec none (reported true es)) := by
  obtain ⟨q, evs, _, hrun, hev⟩ := run_listing strip spec v7 todo es none [.name .vol []] none
    (.inr ⟨rfl, rfl⟩) (fun _ => rfl)
  have h2 : Cli.run ⟨.scan (pend (.dir spec) q), todo⟩ [.complete 2]
      = some ((begin todo).1, (begin todo).2, lines q) := by
    cases q with
    | none => exact run_base_end _ todo 2
    | some e => exact run_end spec e todo 2
  have h3 := Cli.run_append _ _ _ hrun h2
  rw [show pend (.dir spec) none = base (.dir spec) from rfl] at h3
  rw [h3]
  simp only [List.nil_append]
  rw [hev]
  simp [lines]

theorem run_data (path : Str) (s : Scan) (resp : Msg) (todo : List Cmd) (l : List Bytes) (buf : Bytes) :
    Cli.run ⟨.reading path buf s resp, todo⟩ (l.map .data)
      = some (⟨.reading path (buf ++ l.flatten) s resp, todo⟩, [], []) := by
  induction l generalizing buf with
  | nil => simp [Cli.run]
  | cons d l ih =>
    simp only [List.map_cons, Cli.run, Cli.step]
    simp [ih]

theorem run_contents (path : Str) (c : Cmd) (todo : List Cmd) (e : Entry) :
    Cli.run ⟨.reading path [] (base c) .ack, todo⟩ (contents e)
      = some (⟨.scan (base c), todo⟩, [.complete 1], [.wrote path (padded e.bytes)]) := by
  have h1 := run_data path (base c) .ack todo (Fal.blocks e.bytes) []
  rw [length_pad, List.nil_append] at h1
  have h2 : Cli.run ⟨.reading path (padded e.bytes) (base c) .ack, todo⟩ [.status 5 39]
      = some (⟨.scan (base c), todo⟩, [.complete 1], [.wrote path (padded e.bytes)]) := rfl
  have := Cli.run_append _ _ _ h1 h2
  simpa [contents] using this

end Verif.Nft
