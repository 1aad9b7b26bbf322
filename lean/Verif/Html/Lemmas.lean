import Verif.Html.Spec

/-! # Reading what was rendered -/

namespace Verif.Html

theorem read_append (a b : Str) (r : Rd) : read (a ++ b) r = (read a r).bind (read b) := by
  induction a generalizing r with
  | nil => rfl
  | cons c t ih =>
    simp only [List.cons_append, read]
    cases step c r with
    | none => rfl
    | some x => exact ih x

theorem read_text (s : Str) (h : noTag s) (stk seen : List Str) :
    read s ⟨none, stk, seen⟩ = some ⟨none, stk, seen⟩ := by
  induction s with
  | nil => rfl
  | cons c t ih =>
    have hc : c ≠ '<' := fun e => h (by simp [e])
    have ht : noTag t := fun e => h (by simp [e])
    simp only [read, step, if_neg hc, Option.bind_some]
    exact ih ht

theorem read_acc (t : Str) (h : noEnd t) (a : Str) (stk seen : List Str) :
    read t ⟨some a, stk, seen⟩ = some ⟨some (t.reverse ++ a), stk, seen⟩ := by
  induction t generalizing a with
  | nil => rfl
  | cons c t ih =>
    have hc : c ≠ '>' := fun e => h (by simp [e])
    have ht : noEnd t := fun e => h (by simp [e])
    simp only [read, step, if_neg hc, Option.bind_some]
    rw [ih ht]; simp

theorem read_tag (t rest : Str) (h : noEnd t) (stk seen : List Str) :
    read ('<' :: t ++ ('>' :: rest)) ⟨none, stk, seen⟩ = (tag t stk seen).bind (read rest) := by
  rw [List.cons_append, read]
  have h1 : step '<' ⟨none, stk, seen⟩ = some ⟨some [], stk, seen⟩ := rfl
  rw [h1, Option.bind_some, read_append, read_acc t h, Option.bind_some, read]
  have h2 : step '>' ⟨some (t.reverse ++ []), stk, seen⟩ = tag t stk seen := by
    simp [step]
  rw [h2]

/-- The name of the tag of an element. -/
def Kind.name : Kind → String
  | .trow => "tr"
  | .table => "table"
  | .dtable => "table"
  | .lines => "p"
  | .pre => "pre"
  | _ => "div"

/-- The opening tag without its brackets. -/
def inner (s : Str) : Str := s.tail.dropLast

theorem opening_eq (k : Kind) : k.opening.toList = '<' :: inner k.opening.toList ++ ['>'] := by
  cases k <;> decide +kernel
theorem opening_end (k : Kind) : noEnd (inner k.opening.toList) := by cases k <;> decide +kernel
theorem opening_slash (k : Kind) : (inner k.opening.toList).head? ≠ some '/' := by
  cases k <;> decide +kernel
theorem opening_name (k : Kind) :
    (inner k.opening.toList).takeWhile (· ≠ ' ') = k.name.toList := by cases k <;> decide +kernel
theorem name_void (k : Kind) : void k.name.toList = false := by cases k <;> decide +kernel
theorem closing_eq (k : Kind) : k.closing.toList = '<' :: ('/' :: k.name.toList) ++ ['>'] := by
  cases k <;> decide +kernel
theorem name_end (k : Kind) : noEnd ('/' :: k.name.toList) := by cases k <;> decide +kernel

theorem tag_open (t : Str) (h : t.head? ≠ some '/') (hv : void (t.takeWhile (· ≠ ' ')) = false)
    (stk seen : List Str) :
    tag t stk seen = some ⟨none, t.takeWhile (· ≠ ' ') :: stk, seen ++ [t.takeWhile (· ≠ ' ')]⟩ := by
  unfold tag
  split
  · simp at h
  · simp only [hv]; rfl

theorem tag_void (t : Str) (h : t.head? ≠ some '/') (hv : void (t.takeWhile (· ≠ ' ')) = true)
    (stk seen : List Str) : tag t stk seen = some ⟨none, stk, seen⟩ := by
  unfold tag
  split
  · simp at h
  · simp only [hv]; rfl

theorem tag_close (n : Str) (stk seen : List Str) :
    tag ('/' :: n) (n :: stk) seen = some ⟨none, stk, seen⟩ := by
  simp [tag]

theorem tag_close_other (n m : Str) (h : m ≠ n) (stk seen : List Str) :
    tag ('/' :: n) (m :: stk) seen = none := by
  simp [tag, h]

theorem read_opening (k : Kind) (rest : Str) (stk seen : List Str) :
    read (k.opening.toList ++ rest) ⟨none, stk, seen⟩ =
      read rest ⟨none, k.name.toList :: stk, seen ++ [k.name.toList]⟩ := by
  have e : k.opening.toList ++ rest = '<' :: inner k.opening.toList ++ ('>' :: rest) := by
    conv => lhs; rw [opening_eq k]
    simp
  rw [e, read_tag _ _ (opening_end k), tag_open _ (opening_slash k)
    (by rw [opening_name]; exact name_void k), opening_name]
  rfl

theorem read_close (n rest : Str) (h : noEnd ('/' :: n)) (stk seen : List Str) :
    read ('<' :: ('/' :: n) ++ ('>' :: rest)) ⟨none, n :: stk, seen⟩ = read rest ⟨none, stk, seen⟩ := by
  rw [read_tag _ _ h, tag_close]; rfl

theorem read_open (n attrs rest : Str) (hn : noEnd n) (ha : noEnd attrs)
    (hs : n.head? ≠ some '/') (h0 : n ≠ []) (hsp : ' ' ∉ n) (hv : void n = false)
    (hb : attrs = [] ∨ attrs.head? = some ' ') (stk seen : List Str) :
    read ('<' :: (n ++ attrs) ++ ('>' :: rest)) ⟨none, stk, seen⟩ =
      read rest ⟨none, n :: stk, seen ++ [n]⟩ := by
  have htw : (n ++ attrs).takeWhile (· ≠ ' ') = n := by
    rw [List.takeWhile_append_of_pos]
    · have : attrs.takeWhile (· ≠ ' ') = [] := by
        rcases hb with rfl | hb
        · rfl
        · cases attrs with
          | nil => rfl
          | cons c t => simp at hb; subst hb; simp
      rw [this]; simp
    · intro c hc
      simp only [ne_eq, decide_not, Bool.not_eq_eq_eq_not, Bool.not_true, decide_eq_false_iff_not]
      rintro rfl; exact hsp hc
  rw [read_tag _ _ (by intro h; rcases List.mem_append.mp h with h | h
                       · exact hn h
                       · exact ha h),
    tag_open _ (by cases n with | nil => exact absurd rfl h0 | cons c t => simpa using hs)
      (by rw [htw]; exact hv), htw]
  rfl

theorem read_sep (k : Kind) (rest : Str) (stk seen : List Str) :
    read (k.sep.toList ++ rest) ⟨none, stk, seen⟩ = read rest ⟨none, stk, seen⟩ := by
  have hbr : ∀ rest, read ("<br>\n".toList ++ rest) ⟨none, stk, seen⟩ = read rest ⟨none, stk, seen⟩ := by
    intro rest
    have : "<br>\n".toList ++ rest = '<' :: "br".toList ++ ('>' :: '\n' :: rest) := by
      have : "<br>\n".toList = '<' :: "br".toList ++ ('>' :: '\n' :: []) := by decide +kernel
      rw [this]; simp
    rw [this, read_tag _ _ (by decide +kernel)]
    have : tag "br".toList stk seen = some ⟨none, stk, seen⟩ :=
      tag_void _ (by decide +kernel) (by decide +kernel) stk seen
    rw [this, Option.bind_some, read]
    rfl
  have htx : ∀ s : Str, noTag s → read (s ++ rest) ⟨none, stk, seen⟩ = read rest ⟨none, stk, seen⟩ := by
    intro s h; rw [read_append, read_text s h]; rfl
  cases k <;> first | exact hbr rest | exact htx _ (by decide +kernel)

end Verif.Html
