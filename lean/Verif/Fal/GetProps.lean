import Verif.Fal.Get
import Verif.Fal.BlockProps

/-!
# Files are copied as they are

The client's side is told here by itself, from the messages it gets: what it writes to its own disk.
-/

namespace Verif.Fal

/-- The messages the client gets. -/
def outs : List Act → List Out
  | [] => []
  | .send m :: r => m :: outs r
  | _ :: r => outs r

/-- The client's disk: it starts a file when one is described to it, adds to it what data it gets (`g` is what
it makes of a record) and keeps it when told that the end has been reached (`fin`, from the size in the
description). -/
def collect (g : Bytes → Bytes) (fin : Nat → Bytes → Bytes) :
    Option (List Nat × Nat × Bytes) → List Out → List (List Nat × Bytes)
  | _, [] => []
  | _, .about n e b :: r => collect g fin (some (n, (e - 1) * 512 + b, [])) r
  | some (n, s, d), .data x :: r => collect g fin (some (n, s, d ++ g x)) r
  | some (n, s, d), .status 5 39 :: r => (n, fin s d) :: collect g fin none r
  | cur, _ :: r => collect g fin cur r

/-- What a client does about a file it is told of: nothing, or it reads it (`r` goes with its connect request),
and says that the stream has ended or only that it is finished. -/
inductive Choice where
  | skip
  | fetch (r : Option Nat) (eos : Bool)
  deriving DecidableEq, Repr

def Choice.says : Choice → List In
  | .skip => [.complete 1]
  | .fetch r false => [.control 2 r, .control 1 (some 3), .complete 1]
  | .fetch r true => [.control 2 r, .control 1 (some 3), .complete 4, .complete 1]

/-- The files chosen, with `c` what is to be had of each. -/
def wanted (c : File → Bytes) : List File → List Choice → List (List Nat × Bytes)
  | f :: fs, .fetch _ _ :: cs => (f.name, c f) :: wanted c fs cs
  | _ :: fs, .skip :: cs => wanted c fs cs
  | _, _ => []

theorem outs_append (a b : List Act) : outs (a ++ b) = outs a ++ outs b := by
  induction a with
  | nil => rfl
  | cons x a ih => cases x <;> simp [outs, ih]

theorem outs_data (l : List Bytes) : outs (l.map fun d => .send (.data d)) = l.map Out.data := by
  induction l with
  | nil => rfl
  | cons x l ih => simp [outs, ih]

theorem collect_data (g : Bytes → Bytes) (fin : Nat → Bytes → Bytes) (n : List Nat) (s : Nat) (d : Bytes)
    (l : List Bytes) (r : List Out) :
    collect g fin (some (n, s, d)) (l.map Out.data ++ r) = collect g fin (some (n, s, d ++ l.flatMap g)) r := by
  induction l generalizing d with
  | nil => simp
  | cons x l ih => simp only [List.map_cons, List.cons_append, collect, ih, List.flatMap_cons, List.append_assoc]

theorem serve_collect (g : Bytes → Bytes) (fin : Nat → Bytes → Bytes) (a : Option Attr) (fs : List File)
    (hd : ∀ f ∈ fs, (copy a f).2 = false) (c : File → Bytes)
    (hc : ∀ f ∈ fs, fin f.bytes.length ((copy a f).1.flatMap g) = c f)
    (cs : List Choice) (hl : cs.length = fs.length) (more : List In)
    (cur : Option (List Nat × Nat × Bytes)) :
    (serve a fs (cs.flatMap Choice.says ++ more)).fin = .done ∧
    (serve a fs (cs.flatMap Choice.says ++ more)).rest = more ∧
    collect g fin cur (outs (serve a fs (cs.flatMap Choice.says ++ more)).acts) = wanted c fs cs := by
  induction fs generalizing cs cur with
  | nil =>
    cases cs with
    | nil => simp only [serve, say, outs, List.flatMap_nil, List.nil_append, wanted]
             refine ⟨trivial, trivial, ?_⟩
             cases cur <;> simp [collect]
    | cons _ _ => simp at hl
  | cons f fs ih =>
    have hsz : (f.bytes.length / 512 + 1 - 1) * 512 + f.bytes.length % 512 = f.bytes.length := by omega
    have hd0 := hd f (by simp)
    have hc0 := hc f (by simp)
    have ih := ih (fun x hx => hd x (List.mem_cons_of_mem _ hx)) (fun x hx => hc x (List.mem_cons_of_mem _ hx))
    cases cs with
    | nil => simp at hl
    | cons ch cs =>
      have hl' : cs.length = fs.length := by simpa using hl
      cases ch with
      | skip =>
        have e := ih cs hl' (some (f.name, f.bytes.length, []))
        simp only [serve, List.flatMap_cons, Choice.says, List.cons_append, List.nil_append, offered, if_true,
          Res.after, outs, about, collect, hsz, wanted]
        exact e
      | fetch r eos =>
        have e := ih cs hl' none
        cases eos with
        | false =>
          simp only [serve, List.flatMap_cons, Choice.says, List.cons_append, List.nil_append, offered,
            ne_eq, not_true, if_false, reading, hd0, ended, Res.after, outs, about, collect, hsz, wanted,
            outs_append, outs_data, collect_data, say, Bool.false_eq_true, if_true,
            show ¬ (1 : Nat) = 4 from by decide, hc0]
          exact ⟨e.1, e.2.1, by rw [e.2.2]⟩
        | true =>
          simp only [serve, List.flatMap_cons, Choice.says, List.cons_append, List.nil_append, offered,
            ne_eq, not_true, if_false, reading, hd0, ended, closing, Res.after, outs, about, collect, hsz, wanted,
            outs_append, outs_data, collect_data, say, Bool.false_eq_true, if_true, hc0]
          exact ⟨e.1, e.2.1, by rw [e.2.2]⟩

/-! ## Binary copies -/

theorem blocks_take (b : Bytes) : (blocks b).flatten.take b.length = b := by
  induction h : b.length using Nat.strongRecOn generalizing b with
  | _ n ih =>
    unfold blocks
    split
    · rename_i e; subst e; simp
    · rename_i e
      simp only [List.flatten_cons]
      by_cases hl : b.length ≤ 512
      · rw [List.take_of_length_le (l := b) hl, List.append_assoc, ← h, List.take_left']
        rfl
      · have h1 : (b.take 512).length = 512 := by rw [List.length_take]; omega
        rw [h1, Nat.sub_self, List.replicate_zero, List.append_nil]
        have h2 := ih (b.drop 512).length (by rw [List.length_drop]; omega) (b.drop 512) rfl
        have h3 : n = (b.take 512).length + (b.drop 512).length := by
          rw [h1, List.length_drop]; omega
        rw [h3, List.take_length_add_append, h2, List.take_append_drop]

theorem blocks_size (b : Bytes) : ∀ d ∈ blocks b, d.length = 512 := by
  induction h : b.length using Nat.strongRecOn generalizing b with
  | _ n ih =>
    unfold blocks
    split
    · simp
    · rename_i e
      intro d hd
      rcases List.mem_cons.1 hd with rfl | hd
      · simp only [List.length_append, List.length_replicate, List.length_take]; omega
      · cases b with
        | nil => contradiction
        | cons x b => exact ih _ (by rw [← h]; simp only [List.length_drop, List.length_cons]; omega) _ rfl d hd

/-- **Binary copies are exact.**  For any files and any choice among them, a client that cuts what it gets to the
size it was told ends up with exactly the files it chose, under their names and in their order; then the
listener is ready for the next request. -/
theorem binary_copy (a : Option Attr) (ha : isText a = false) (fs : List File) (cs : List Choice)
    (hl : cs.length = fs.length) (more : List In) :
    (serve a fs (cs.flatMap Choice.says ++ more)).fin = .done ∧
    (serve a fs (cs.flatMap Choice.says ++ more)).rest = more ∧
    collect id (fun s d => d.take s) none (outs (serve a fs (cs.flatMap Choice.says ++ more)).acts) =
      wanted File.bytes fs cs := by
  refine serve_collect _ _ a fs ?_ _ ?_ cs hl more none
  · intro f _; simp [copy, ha]
  · intro f _
    simp only [copy, ha, Bool.false_eq_true, if_false, List.flatMap_id]
    exact blocks_take _

/-- Two files of which the second is wanted. -/
example : wanted File.bytes [⟨[97], [1], []⟩, ⟨[98], [2, 3], []⟩] [.skip, .fetch none true] = [([98], [2, 3])] := by
  decide

/-- In blocks of 512 bytes each. -/
theorem binary_blocks (a : Option Attr) (ha : isText a = false) (f : File) :
    ∀ d ∈ (copy a f).1, d.length = 512 := by
  simp only [copy, ha, Bool.false_eq_true, if_false]
  exact blocks_size _

/-! ## Text copies -/

/-- Text with an end of line after its last line. -/
def endl (s : List Nat) : List Nat := if s = [] ∨ s.getLast? = some 10 then s else s ++ [10]

/-- Lines ended by carriage return and line feed. -/
def crlf : List Nat → List Nat
  | [] => []
  | c :: s => if c = 10 then 13 :: 10 :: crlf s else c :: crlf s

theorem lines_endl (s : List Nat) : (lines s).flatMap (· ++ [10]) = endl s := by
  induction s with
  | nil => rfl
  | cons c s ih =>
    unfold lines
    by_cases hc : c = 10
    · subst hc
      rw [if_pos rfl, List.flatMap_cons, ih]
      unfold endl
      cases s with
      | nil => rfl
      | cons x s =>
        simp only [List.nil_append, List.cons_append, reduceCtorEq, false_or, List.getLast?_cons_cons]
        split <;> rfl
    · rw [if_neg hc]
      cases hs : lines s with
      | nil =>
        have : s = [] := by
          cases s with
          | nil => rfl
          | cons x s =>
            unfold lines at hs
            split at hs
            · simp at hs
            · split at hs <;> simp at hs
        subst this
        simp [endl, hc]
      | cons h t =>
        rw [hs] at ih
        simp only [List.flatMap_cons, List.cons_append] at ih ⊢
        rw [ih]
        cases s with
        | nil => simp [lines] at hs
        | cons x s =>
          unfold endl
          simp only [reduceCtorEq, false_or, List.getLast?_cons_cons]
          split <;> simp_all

theorem lines_no_nl (s : List Nat) : ∀ l ∈ lines s, 10 ∉ l := by
  induction s with
  | nil => simp [lines]
  | cons c s ih =>
    unfold lines
    split
    · intro l hl
      rcases List.mem_cons.1 hl with rfl | hl
      · simp
      · exact ih l hl
    · rename_i hc
      split
      · rename_i h; simp; exact fun h => hc h.symm
      · rename_i h t hs
        intro l hl
        rcases List.mem_cons.1 hl with rfl | hl
        · have := ih h (by rw [hs]; simp)
          simp only [List.mem_cons, not_or]
          exact ⟨fun e => hc e.symm, this⟩
        · exact ih l (by rw [hs]; exact List.mem_cons_of_mem _ hl)

theorem lines_mem (s : List Nat) : ∀ l ∈ lines s, ∀ c ∈ l, c ∈ s := by
  induction s with
  | nil => simp [lines]
  | cons x s ih =>
    unfold lines
    split
    · intro l hl
      rcases List.mem_cons.1 hl with rfl | hl
      · simp
      · exact fun c hc => List.mem_cons_of_mem _ (ih l hl c hc)
    · split
      · simp
      · rename_i h t hs
        intro l hl
        rcases List.mem_cons.1 hl with rfl | hl
        · intro c hc
          rcases List.mem_cons.1 hc with rfl | hc
          · simp
          · exact List.mem_cons_of_mem _ (ih h (by rw [hs]; simp) c hc)
        · exact fun c hc => List.mem_cons_of_mem _ (ih l (by rw [hs]; exact List.mem_cons_of_mem _ hl) c hc)

theorem newlines_mem (s : List Nat) : ∀ c ∈ newlines s, c = 10 ∨ c ∈ s := by
  fun_induction newlines s with
  | case1 s ih =>
    intro c hc
    rcases List.mem_cons.1 hc with h | h
    · exact Or.inl h
    · rcases ih c h with h | h
      · exact Or.inl h
      · exact Or.inr (by simp [h])
  | case2 s _ ih =>
    intro c hc
    rcases List.mem_cons.1 hc with h | h
    · exact Or.inl h
    · rcases ih c h with h | h
      · exact Or.inl h
      · exact Or.inr (by simp [h])
  | case3 x s _ _ ih =>
    intro c hc
    rcases List.mem_cons.1 hc with h | h
    · exact Or.inr (by simp [h])
    · rcases ih c h with h | h
      · exact Or.inl h
      · exact Or.inr (by simp [h])
  | case4 => simp

theorem latin1_eq {l : List Nat} (h : ∀ c ∈ l, c < 256) : latin1 l = some (l.map UInt8.ofNat) := by
  unfold latin1; rw [if_pos (by simpa using h)]

theorem records_eq (exp : Bool) (ls : List (List Nat)) (h : ∀ l ∈ ls, ∀ c ∈ l, c < 256) :
    records exp ls = (ls.map fun l => (if exp then l ++ [13, 10] else l).map UInt8.ofNat, false) := by
  induction ls with
  | nil => rfl
  | cons l ls ih =>
    have hl := h l (by simp)
    rw [records, latin1_eq (by
      split
      · intro c hc
        rcases List.mem_append.1 hc with hc | hc
        · exact hl c hc
        · simp at hc; omega
      · exact hl), ih (fun x hx => h x (List.mem_cons_of_mem _ hx))]
    simp

theorem crlf_lines (ls : List (List Nat)) (h : ∀ l ∈ ls, 10 ∉ l) :
    ls.flatMap (· ++ [13, 10]) = crlf (ls.flatMap (· ++ [10])) := by
  have happ : ∀ (l r : List Nat), 10 ∉ l → crlf (l ++ r) = l ++ crlf r := by
    intro l r hl
    induction l with
    | nil => rfl
    | cons x l ih =>
      simp only [List.mem_cons, not_or] at hl
      simp only [List.cons_append, crlf, if_neg (fun e : x = 10 => hl.1 e.symm), ih hl.2]
  induction ls with
  | nil => rfl
  | cons l ls ih =>
    simp only [List.flatMap_cons, List.append_assoc]
    rw [happ l _ (h l (by simp)), ih (fun x hx => h x (List.mem_cons_of_mem _ hx))]
    simp [crlf]

/-- **Text copies are the lines of the file.**  If all characters can be coded in one byte, a client that asked
for records without carriage control in them, and ends each record it gets with a line feed, ends up with the
text, its ends of line written as line feeds, one added after a last line that has none. -/
theorem text_copy (a : Attr) (ha : a.rfm = some 2 ∨ a.rfm = some 4) (hcr : a.cr = true) (fs : List File)
    (hch : ∀ f ∈ fs, ∀ c ∈ f.chars, c < 256) (cs : List Choice) (hl : cs.length = fs.length) (more : List In) :
    (serve (some a) fs (cs.flatMap Choice.says ++ more)).fin = .done ∧
    (serve (some a) fs (cs.flatMap Choice.says ++ more)).rest = more ∧
    collect (fun r => r ++ [10]) (fun _ d => d) none
        (outs (serve (some a) fs (cs.flatMap Choice.says ++ more)).acts) =
      wanted (fun f => (endl (newlines f.chars)).map UInt8.ofNat) fs cs := by
  have ht : isText (some a) = true := by
    rcases ha with h | h <;> simp [isText, h]
  have hlines : ∀ f ∈ fs, ∀ l ∈ lines (newlines f.chars), ∀ c ∈ l, c < 256 := by
    intro f hf l hl c hc
    rcases newlines_mem _ c (lines_mem _ l hl c hc) with h | h
    · omega
    · exact hch f hf c h
  refine serve_collect _ _ (some a) fs ?_ _ ?_ cs hl more none
  · intro f hf; simp only [copy, ht, if_true]; rw [records_eq _ _ (hlines f hf)]
  · intro f hf
    simp only [copy, ht, if_true]
    rw [records_eq _ _ (hlines f hf)]
    simp only [Option.map_some, Option.getD_some, hcr, Bool.not_true, Bool.false_eq_true, if_false]
    rw [← lines_endl, List.map_flatMap, List.flatMap_map]
    congr 1
    funext l
    simp

/-- A text of two lines, the second without end: `a\r\nb`. -/
example : endl (newlines [97, 13, 10, 98]) = [97, 10, 98, 10] ∧
    (serve (some ⟨some 2, true, none⟩) [⟨[102], [], [97, 13, 10, 98]⟩]
      (([.fetch none false] : List Choice).flatMap Choice.says)).fin = .done := by decide

/-- With line endings asked for in the records, what it gets is the same text with carriage return and line
feed after each line. -/
theorem text_copy_explicit (a : Attr) (ha : a.rfm = some 2 ∨ a.rfm = some 4) (hcr : a.cr = false)
    (fs : List File) (hch : ∀ f ∈ fs, ∀ c ∈ f.chars, c < 256) (cs : List Choice)
    (hl : cs.length = fs.length) (more : List In) :
    (serve (some a) fs (cs.flatMap Choice.says ++ more)).fin = .done ∧
    (serve (some a) fs (cs.flatMap Choice.says ++ more)).rest = more ∧
    collect id (fun _ d => d) none (outs (serve (some a) fs (cs.flatMap Choice.says ++ more)).acts) =
      wanted (fun f => (crlf (endl (newlines f.chars))).map UInt8.ofNat) fs cs := by
  have ht : isText (some a) = true := by
    rcases ha with h | h <;> simp [isText, h]
  have hlines : ∀ f ∈ fs, ∀ l ∈ lines (newlines f.chars), ∀ c ∈ l, c < 256 := by
    intro f hf l hl c hc
    rcases newlines_mem _ c (lines_mem _ l hl c hc) with h | h
    · omega
    · exact hch f hf c h
  refine serve_collect _ _ (some a) fs ?_ _ ?_ cs hl more none
  · intro f hf; simp only [copy, ht, if_true]; rw [records_eq _ _ (hlines f hf)]
  · intro f hf
    simp only [copy, ht, if_true]
    rw [records_eq _ _ (hlines f hf)]
    simp only [Option.map_some, Option.getD_some, hcr, Bool.not_false, if_true]
    rw [← lines_endl, ← crlf_lines _ (lines_no_nl _), List.map_flatMap, List.flatMap_map]
    rfl

/-- A character that takes more than one byte ends the listener, in the middle of the file. -/
theorem wide_character : (serve (some ⟨some 2, true, none⟩) [⟨[102], [], [65, 10, 8364, 10, 66]⟩]
    [.control 2 none, .control 1 (some 3), .complete 1]).fin = .died := by decide

/-- `newlines` leaves no carriage return, and text without any as it is. -/
theorem newlines_clean (s : List Nat) : 13 ∉ newlines s ∧ (13 ∉ s → newlines s = s) := by
  fun_induction newlines s with
  | case1 s ih => simp [ih.1]
  | case2 s _ ih => simp [ih.1]
  | case3 x s h1 h2 ih =>
    have hx : x ≠ 13 := fun e => h2 e
    simp only [List.mem_cons, not_or]
    exact ⟨⟨fun e => hx e.symm, ih.1⟩, fun h => by rw [ih.2 h.2]⟩
  | case4 => simp

end Verif.Fal
