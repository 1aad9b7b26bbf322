import Verif.Log.Model

/-!
# The log

C128, C129.
-/

namespace Verif.Log

/-! ## The memory handler -/

/-- The last `n` of a list. -/
def lastN {R : Type} (n : Nat) (l : List R) : List R := l.drop (l.length - n)

/-- What was logged. -/
def logged {R : Type} : List (Op R) → List R
  | [] => []
  | .emit r :: l => r :: logged l
  | _ :: l => logged l

/-- No call changes the bypass. -/
def Normal {R : Type} (ops : List (Op R)) : Prop := ∀ b, Op.bypass b ∉ ops

theorem logged_append {R : Type} (a b : List (Op R)) : logged (a ++ b) = logged a ++ logged b := by
  induction a with
  | nil => rfl
  | cons o a ih => cases o <;> simp [logged, ih]

theorem lastN_append {R : Type} (n : Nat) (a b : List R) : lastN n (lastN n a ++ b) = lastN n (a ++ b) := by
  unfold lastN
  rw [List.length_append, List.length_drop, List.length_append]
  by_cases h : n ≤ a.length
  · rw [List.drop_append, List.drop_append, List.drop_drop, List.length_drop]
    congr 2 <;> omega
  · have : a.length - n = 0 := by omega
    simp [this]

theorem lastN_sub {R : Type} (n : Nat) (l : List R) : (lastN n l).Sublist l := List.drop_sublist _ _

theorem lastN_append' {R : Type} (n : Nat) (a b : List R) : lastN n (a ++ lastN n b) = lastN n (a ++ b) := by
  unfold lastN
  rw [List.length_append, List.length_drop, List.length_append]
  by_cases h : n ≤ b.length
  · rw [List.drop_append, List.drop_append, List.drop_drop,
      List.drop_eq_nil_of_le (by omega : a.length ≤ a.length + (b.length - (b.length - n)) - n),
      List.drop_eq_nil_of_le (by omega : a.length ≤ a.length + b.length - n)]
    congr 2; omega
  · have : b.length - n = 0 := by omega
    simp [this]

/-- What holds of a handler after `d` was logged. -/
structure Inv {R : Type} (cap : Nat) (h : H R) (d : List R) : Prop where
  byp : h.byp = false
  room : h.buf.length ≤ cap
  sub : (h.sent ++ h.buf).Sublist d
  last : lastN cap (h.sent ++ h.buf) = lastN cap d

theorem push_eq {R : Type} (cap : Nat) (b : List R) (r : R) : push cap b r = lastN cap (b ++ [r]) := rfl

theorem lastN_length {R : Type} (n : Nat) (l : List R) : (lastN n l).length ≤ n := by
  unfold lastN; rw [List.length_drop]; omega

theorem inv_flush {R : Type} {cap : Nat} {h : H R} {d : List R} (i : Inv cap h d) : Inv cap h.flush d :=
  ⟨i.byp, Nat.zero_le _, by simpa [H.flush] using i.sub, by simpa [H.flush] using i.last⟩

theorem inv_emit {R : Type} {cap : Nat} {h : H R} {d : List R} (urgent : R → Bool) (i : Inv cap h d) (r : R) :
    Inv cap (h.emit cap urgent r) (d ++ [r]) := by
  have key : Inv cap { h with buf := push cap h.buf r } (d ++ [r]) := by
    refine ⟨i.byp, ?_, ?_, ?_⟩
    · exact lastN_length _ _
    · rw [push_eq]
      refine List.Sublist.trans ((List.Sublist.refl h.sent).append (lastN_sub cap (h.buf ++ [r]))) ?_
      rw [← List.append_assoc]
      exact i.sub.append (List.Sublist.refl _)
    · rw [push_eq, lastN_append', ← List.append_assoc, ← lastN_append, i.last, lastN_append]
  unfold H.emit
  split
  · rename_i hb; rw [i.byp] at hb; cases hb
  · dsimp only
    split
    · exact inv_flush key
    · exact key

theorem inv_runs {R : Type} (cap : Nat) (urgent : R → Bool) (ops : List (Op R)) (hn : Normal ops) (h : H R)
    (d : List R) (i : Inv cap h d) : Inv cap (ops.foldl (H.step cap urgent) h) (d ++ logged ops) := by
  induction ops generalizing h d with
  | nil => simpa [logged] using i
  | cons o ops ih =>
    have hn' : Normal ops := fun b hb => hn b (by simp [hb])
    cases o with
    | emit r =>
      have := ih hn' _ _ (inv_emit urgent i r)
      rw [List.append_assoc] at this
      exact this
    | flush => exact ih hn' _ _ (inv_flush i)
    | bypass b => exact absurd (by simp) (hn b)

theorem inv_start {R : Type} (cap : Nat) : Inv cap (start : H R) [] := ⟨rfl, Nat.zero_le _, .slnil, rfl⟩

/-- **Order and number (C128).**  Whatever the history of records and flushes,
what the target was given is a part of what was logged, in order and nothing
twice; and what was given together with what is kept ends with the last
records logged, as many as the handler has room for. -/
theorem memory_order {R : Type} (cap : Nat) (urgent : R → Bool) (ops : List (Op R)) (hn : Normal ops) :
    let h := runs cap urgent ops
    h.buf.length ≤ cap ∧ (h.sent ++ h.buf).Sublist (logged ops) ∧
      lastN cap (h.sent ++ h.buf) = lastN cap (logged ops) := by
  have := inv_runs cap urgent ops hn start [] (inv_start cap)
  rw [List.nil_append] at this
  exact ⟨this.room, this.sub, this.last⟩

/-- **History up to the occurrence (C128).**  Right after a flush, or after a record
that asks for it, the target has got, as its last ones, the last records
logged, as many as the handler has room for. -/
theorem memory_history {R : Type} (cap : Nat) (urgent : R → Bool) (ops : List (Op R)) (hn : Normal ops)
    (o : Op R) (ho : o = .flush ∨ ∃ r, o = .emit r ∧ urgent r = true) :
    let h := runs cap urgent (ops ++ [o])
    h.buf = [] ∧ lastN cap h.sent = lastN cap (logged (ops ++ [o])) := by
  have hn' : Normal (ops ++ [o]) := by
    intro b hb
    rcases List.mem_append.mp hb with hb | hb
    · exact hn b hb
    · simp only [List.mem_singleton] at hb
      rcases ho with h | ⟨r, h, _⟩ <;> rw [h] at hb <;> cases hb
  have hb : (runs cap urgent (ops ++ [o])).buf = [] := by
    have i := inv_runs cap urgent ops hn start [] (inv_start cap)
    unfold runs
    rw [List.foldl_append]
    generalize List.foldl (H.step cap urgent) start ops = h at i
    rcases ho with rfl | ⟨r, rfl, hu⟩
    · rfl
    · simp only [List.foldl_cons, List.foldl_nil, H.step, H.emit, i.byp, hu, if_true]
      rfl
  have := (memory_order cap urgent _ hn').2.2
  dsimp only at this ⊢
  rw [hb, List.append_nil] at this
  exact ⟨hb, this⟩

/-- **Nothing is lost while there is room (C128).** -/
theorem memory_all {R : Type} (cap : Nat) (urgent : R → Bool) (ops : List (Op R)) (hn : Normal ops)
    (hl : (logged ops).length ≤ cap) :
    (runs cap urgent ops).sent ++ (runs cap urgent ops).buf = logged ops := by
  obtain ⟨_, h2, h3⟩ := memory_order cap urgent ops hn
  have e : ∀ l : List R, l.length ≤ cap → lastN cap l = l := by
    intro l h; unfold lastN
    have : l.length - cap = 0 := by omega
    rw [this]; rfl
  rw [e _ hl, e _ (Nat.le_trans h2.length_le hl)] at h3
  exact h3

/-- Four records, room for two, the last one urgent. -/
example : runs 2 (· == 9) [.emit 1, .emit 2, .emit 3, .emit 9] = ⟨[], false, [3, 9]⟩ := by decide

/-- **The bypass drops the history (C128, negation).**  Turning the bypass on,
as the end of the program does before it logs why it ends, throws away
all records that are kept: none of them is ever written, not even when the
record that follows has an exception. -/
theorem bypass_drops {R : Type} (cap : Nat) (urgent : R → Bool) (h : H R) (l : List R) :
    (((.bypass true :: l.map .emit) : List (Op R)).foldl (H.step cap urgent) h).sent = h.sent ++ l := by
  have : ∀ (l : List R) (h : H R), h.byp = true →
      ((l.map Op.emit).foldl (H.step cap urgent) h).sent = h.sent ++ l := by
    intro l
    induction l with
    | nil => simp
    | cons r l ih =>
      intro h hb
      simp only [List.map_cons, List.foldl_cons, H.step, H.emit, hb, if_true]
      rw [ih _ (by simp)]
      simp
  simp only [List.foldl_cons, H.step]
  exact this l _ rfl

/-- **A span of bypass (C128).**  What is logged with the bypass on is written at once and once:
it is not kept as well, a flush during the span or after it writes nothing again, and with the
bypass off again the handler goes on as one that starts with an empty memory. -/
theorem bypass_span {R : Type} (cap : Nat) (urgent : R → Bool) (h : H R) (l : List R)
    (rest : List (Op R)) :
    ((.bypass true :: l.map .emit ++ [.flush] : List (Op R)).foldl (H.step cap urgent) h).sent
        = h.sent ++ l ∧
      ((.bypass true :: l.map .emit ++ .bypass false :: rest : List (Op R)).foldl
        (H.step cap urgent) h).sent = h.sent ++ l ++ (runs cap urgent rest).sent ∧
      ((.bypass true :: l.map .emit ++ .bypass false :: rest : List (Op R)).foldl
        (H.step cap urgent) h).buf = (runs cap urgent rest).buf := by
  have on : ∀ (l : List R) (s : List R),
      (l.map Op.emit).foldl (H.step cap urgent) ⟨[], true, s⟩ = ⟨[], true, s ++ l⟩ := by
    intro l
    induction l with
    | nil => simp
    | cons r l ih =>
      intro s
      simp only [List.map_cons, List.foldl_cons, H.step, H.emit, if_true]
      rw [ih]; simp
  have shift : ∀ (ops : List (Op R)) (b : List R) (y : Bool) (p s : List R),
      ops.foldl (H.step cap urgent) ⟨b, y, p ++ s⟩ =
        { ops.foldl (H.step cap urgent) ⟨b, y, s⟩ with
          sent := p ++ (ops.foldl (H.step cap urgent) ⟨b, y, s⟩).sent } := by
    intro ops
    induction ops with
    | nil => intros; rfl
    | cons o ops ih =>
      intro b y p s
      have e : H.step cap urgent ⟨b, y, p ++ s⟩ o =
          ⟨(H.step cap urgent ⟨b, y, s⟩ o).buf, (H.step cap urgent ⟨b, y, s⟩ o).byp,
            p ++ (H.step cap urgent ⟨b, y, s⟩ o).sent⟩ := by
        cases o with
        | emit r =>
          cases y <;> simp only [H.step, H.emit, if_true, Bool.false_eq_true, if_false]
          · by_cases u : urgent r = true <;> simp [u, H.flush]
          · simp
        | flush => simp [H.step, H.flush]
        | bypass b => simp [H.step, H.bypass]
      rw [List.foldl_cons, e, ih]
      rfl
  have first : H.step cap urgent h (.bypass true) = ⟨[], true, h.sent⟩ := rfl
  have sh := shift rest [] false (h.sent ++ l) []
  rw [List.append_nil] at sh
  refine ⟨?_, ?_, ?_⟩
  · rw [List.cons_append, List.foldl_cons, first, List.foldl_append, on]
    simp [H.step, H.flush]
  · rw [List.cons_append, List.foldl_cons, first, List.foldl_append, on, List.foldl_cons]
    show (rest.foldl (H.step cap urgent) ⟨[], false, h.sent ++ l⟩).sent = _
    rw [sh]; rfl
  · rw [List.cons_append, List.foldl_cons, first, List.foldl_append, on, List.foldl_cons]
    show (rest.foldl (H.step cap urgent) ⟨[], false, h.sent ++ l⟩).buf = _
    rw [sh]; rfl

example : runs 2 (· == 9) [.emit 1, .bypass true, .emit 2, .bypass false, .emit 3, .emit 9]
    = ⟨[], false, [2, 3, 9]⟩ := by decide

/-! ## Threads -/

/-- What was appended. -/
def appended {R : Type} : List (TStep R) → List R
  | [] => []
  | .append r :: l => r :: appended l
  | _ :: l => appended l

theorem find_erase {R : Type} (l : List (Nat × R)) (t : Nat) (x : Nat × R)
    (h : l.find? (·.1 = t) = some x) : (x.2 :: (l.eraseP (·.1 = t)).map (·.2)).Perm (l.map (·.2)) := by
  induction l with
  | nil => simp at h
  | cons y l ih =>
    by_cases hy : y.1 = t
    · simp [List.find?, hy] at h; subst h
      simp [hy]
    · simp [List.find?, hy] at h
      simp only [List.eraseP_cons, hy, decide_false, cond_false, List.map_cons]
      exact (List.Perm.swap _ _ _).trans ((ih (by simpa using h)).cons _)

/-- **Once (C128).**  However threads log and flush, every record logged is
exactly one of: written, in the hand of a thread that is about to write it,
kept, or gone for want of room. -/
theorem threads_once {R : Type} (cap : Nat) (l : List (TStep R)) :
    ((trun cap l).sent ++ ((trun cap l).hand.map (·.2) ++ ((trun cap l).buf ++ (trun cap l).lost))).Perm
      (appended l) := by
  have : ∀ (l : List (TStep R)) (s : T R) (d : List R),
      (s.sent ++ (s.hand.map (·.2) ++ (s.buf ++ s.lost))).Perm d →
      ((l.foldl (T.step cap) s).sent ++ ((l.foldl (T.step cap) s).hand.map (·.2) ++
        ((l.foldl (T.step cap) s).buf ++ (l.foldl (T.step cap) s).lost))).Perm (d ++ appended l) := by
    intro l
    induction l with
    | nil => intro s d h; simpa [appended] using h
    | cons o l ih =>
      intro s d h
      rw [List.foldl_cons]
      cases o with
      | append r =>
        have := ih (T.step cap s (.append r)) (d ++ [r]) (by
          refine List.Perm.trans ?_ (h.append_right [r])
          simp only [T.step, push, List.append_assoc]
          refine List.Perm.append_left _ (List.Perm.append_left _ ?_)
          have e : ((s.buf ++ [r]).drop ((s.buf ++ [r]).length - cap) ++
              (s.buf ++ [r]).take ((s.buf ++ [r]).length - cap)).Perm (s.buf ++ [r]) := by
            refine List.perm_append_comm.trans ?_
            rw [List.take_append_drop]
          generalize (s.buf ++ [r]).drop ((s.buf ++ [r]).length - cap) = x at *
          generalize (s.buf ++ [r]).take ((s.buf ++ [r]).length - cap) = y at *
          refine (List.Perm.append_left x (List.perm_append_comm (l₁ := s.lost) (l₂ := y))).trans ?_
          rw [← List.append_assoc]
          refine (e.append_right s.lost).trans ?_
          rw [List.append_assoc]
          exact List.Perm.append_left _ List.perm_append_comm)
        rw [List.append_assoc] at this
        exact this
      | take t =>
        refine ih _ d ?_
        simp only [T.step]
        split
        · exact h
        · rename_i r b hb
          split
          · exact h
          · rw [hb] at h
            simp only [List.map_append, List.map_cons, List.map_nil]
            simpa using h
      | give t =>
        refine ih _ d ?_
        simp only [T.step]
        split
        · exact h
        · rename_i x hx
          refine List.Perm.trans ?_ h
          have := find_erase s.hand t x hx
          rw [List.append_assoc]
          refine List.Perm.append_left _ ?_
          rw [← List.append_assoc]
          exact this.append_right _
  exact this l _ [] (by simp)

/-- **Order with threads (C128, negation).**  Two threads that flush at the same
time can write records in the wrong order. -/
theorem threads_disorder :
    (trun 100 [.append 1, .append 2, .take 0, .take 1, .give 1, .give 0] : T Nat).sent = [2, 1] := by decide

/-! ## The dump -/

/-- The value of a hexadecimal digit. -/
def unhexd (c : Char) : Option Nat :=
  if '0' ≤ c ∧ c ≤ '9' then some (c.toNat - 48)
  else if 'a' ≤ c ∧ c ≤ 'f' then some (c.toNat - 87) else none

/-- The bytes of a line after the slash: `k` pairs of digits, a blank after each, two after the eighth. -/
def readCells : Nat → Str → List UInt8
  | 0, _ => []
  | k + 1, a :: b :: r =>
    match unhexd a, unhexd b with
    | some x, some y => UInt8.ofNat (16 * x + y) :: readCells k (r.drop (if k = 8 then 2 else 1))
    | _, _ => []
  | _, _ => []

/-- A reader of dumps. -/
def readLine (l : Str) : List UInt8 := readCells 16 ((l.dropWhile (· ≠ '/')).drop 2)

theorem hexd_ok : ∀ n, n < 16 → unhexd (hexd n) = some n ∧ hexd n ≠ '/' := by decide

theorem hexAll_slash (f n : Nat) : '/' ∉ hexAll f n := by
  induction f generalizing n with
  | zero => simp [hexAll]
  | succ f ih =>
    rw [hexAll]
    split
    · simp
    · intro h
      rcases List.mem_append.mp h with h | h
      · exact ih _ h
      · simp only [List.mem_singleton] at h
        exact (hexd_ok (n % 16) (Nat.mod_lt _ (by decide))).2 h.symm

theorem hex4_slash (n : Nat) : '/' ∉ hex4 n := by
  unfold hex4
  intro h
  rcases List.mem_append.mp h with h | h
  · exact absurd (List.eq_of_mem_replicate h) (by decide)
  · exact hexAll_slash _ _ h

/-- The number that digits stand for, the highest first. -/
def unhex (acc : Nat) : Str → Option Nat
  | [] => some acc
  | c :: r => (unhexd c).bind fun d => unhex (16 * acc + d) r

theorem unhex_append (acc : Nat) (a b : Str) : unhex acc (a ++ b) = (unhex acc a).bind fun x => unhex x b := by
  induction a generalizing acc with
  | nil => rfl
  | cons c r ih =>
    simp only [List.cons_append, unhex]
    cases unhexd c with
    | none => rfl
    | some d => exact ih _

theorem unhex_hexAll (f n : Nat) (h : n ≤ f) : unhex 0 (hexAll f n) = some n := by
  induction f generalizing n with
  | zero => obtain rfl : n = 0 := by omega
            rfl
  | succ f ih =>
    rw [hexAll]
    split
    · next e => rw [e]; rfl
    · rw [unhex_append, ih _ (by omega)]
      simp only [Option.bind_some, unhex, (hexd_ok (n % 16) (Nat.mod_lt _ (by decide))).1]
      congr 1; omega

theorem unhex_zeros (k : Nat) (s : Str) : unhex 0 (List.replicate k '0' ++ s) = unhex 0 s := by
  induction k with
  | zero => rfl
  | succ k ih =>
    have h0 : unhexd '0' = some 0 := by decide
    rw [List.replicate_succ, List.cons_append, unhex, h0]
    exact ih

theorem hexAll_head (f n : Nat) (h : n ≤ f) (h0 : n ≠ 0) : ∃ c r, hexAll f n = c :: r ∧ c ≠ '0' := by
  induction f generalizing n with
  | zero => omega
  | succ f ih =>
    rw [hexAll, if_neg h0]
    by_cases hd : n / 16 = 0
    · have hz : ∀ m, m < 16 → m ≠ 0 → hexd m ≠ '0' := by decide
      refine ⟨hexd (n % 16), [], ?_, hz _ (Nat.mod_lt _ (by decide)) (by omega)⟩
      rw [hd]; cases f <;> rfl
    · obtain ⟨c, r, h1, h2⟩ := ih (n / 16) (by omega) hd
      exact ⟨c, r ++ [hexd (n % 16)], by rw [h1]; rfl, h2⟩

theorem readCells_cells (k o : Nat) (h : k + o = 16) (bs : List UInt8) (t : Str) :
    readCells k (cells k o bs ++ t) = bs.take k := by
  induction k generalizing o bs with
  | zero => simp [readCells]
  | succ k ih =>
    cases bs with
    | nil =>
      have hb : unhexd ' ' = none := by decide
      simp [cells, cellOf, readCells, hb]
    | cons b bs =>
      have h1 := (hexd_ok (b.toNat / 16) (by have := b.toNat_lt; omega)).1
      have h2 := (hexd_ok (b.toNat % 16) (Nat.mod_lt _ (by decide))).1
      have hb : UInt8.ofNat (16 * (b.toNat / 16) + b.toNat % 16) = b := by
        rw [Nat.div_add_mod]; exact UInt8.ofNat_toNat
      have ih' := ih (o + 1) (by omega) bs
      simp only [cells, cellOf, List.head?_cons, hex2, List.cons_append, List.nil_append, readCells, h1, h2, hb,
        List.tail_cons, List.take_succ_cons, List.cons.injEq, true_and]
      by_cases ho : o = 7
      · have hk : k = 8 := by omega
        subst hk; subst ho
        simpa using ih'
      · have hk : k ≠ 8 := by omega
        simp only [ho, hk, if_false]
        simpa using ih'

theorem readLine_dumpLine (ln : Nat) (bs : List UInt8) : readLine (dumpLine ln bs) = bs.take 16 := by
  have hd : ∀ (a r : Str), '/' ∉ a → (a ++ '/' :: r).dropWhile (· ≠ '/') = '/' :: r := by
    intro a r ha
    induction a with
    | nil => simp
    | cons c a ih =>
      have hc : c ≠ '/' := fun e => ha (by simp [e])
      rw [List.cons_append, List.dropWhile_cons_of_pos (by simpa using hc)]
      exact ih fun e => ha (by simp [e])
  unfold readLine dumpLine
  have e : hex4 ln ++ ['/', ' '] ++ cells 16 0 bs ++ (bs.take 16).map charOf =
      hex4 ln ++ '/' :: ' ' :: (cells 16 0 bs ++ (bs.take 16).map charOf) := by simp
  rw [e, hd (hex4 ln) _ (hex4_slash _)]
  exact readCells_cells 16 0 rfl bs _

/-- **The dump shows the packet (C129).**  Whoever reads the two digits of every
column gets all bytes of the packet in order, of any packet; there are
sixteen in a line. -/
theorem dump_reads (pkt : List UInt8) :
    (dump pkt).flatMap readLine = pkt ∧ (dump pkt).length = (pkt.length + 15) / 16 := by
  have key : ∀ n ln (bs : List UInt8), (bs.length + 15) / 16 = n →
      (dumpFrom n ln bs).flatMap readLine = bs ∧ (dumpFrom n ln bs).length = n := by
    intro n
    induction n with
    | zero =>
      intro ln bs h
      have : bs = [] := by
        cases bs with
        | nil => rfl
        | cons b t => rw [List.length_cons] at h; omega
      subst this; exact ⟨rfl, rfl⟩
    | succ n ih =>
      intro ln bs h
      have := ih (ln + 16) (bs.drop 16) (by rw [List.length_drop]; omega)
      rw [dumpFrom, List.flatMap_cons, this.1, readLine_dumpLine, List.take_append_drop, List.length_cons, this.2]
      exact ⟨rfl, rfl⟩
  exact key _ 0 pkt rfl

theorem dump_line (pkt : List UInt8) (k : Nat) (hk : k < (dump pkt).length) :
    (dump pkt)[k] = dumpLine (16 * k) (pkt.drop (16 * k)) := by
  have key : ∀ n ln (bs : List UInt8) k (hk : k < (dumpFrom n ln bs).length),
      (dumpFrom n ln bs)[k] = dumpLine (ln + 16 * k) (bs.drop (16 * k)) := by
    intro n
    induction n with
    | zero => intro ln bs k hk; simp [dumpFrom] at hk
    | succ n ih =>
      intro ln bs k hk
      cases k with
      | zero => rfl
      | succ k =>
        simp only [dumpFrom, List.getElem_cons_succ]
        have hk' : k < (dumpFrom n (ln + 16) (bs.drop 16)).length := by
          simp only [dumpFrom, List.length_cons] at hk; omega
        rw [ih (ln + 16) (bs.drop 16) k hk', List.drop_drop]
        congr 1
        · omega
        · congr 1; omega
  have := key _ 0 pkt k hk
  rwa [Nat.zero_add] at this

/-- The line of an offset (C129): line `k` starts by `16 k` in hexadecimal, with four digits or, if that
is not enough, as many as needed, and a slash. -/
theorem dump_offset (pkt : List UInt8) (k : Nat) (hk : k < (dump pkt).length) :
    ∃ d rest, (dump pkt)[k] = d ++ '/' :: ' ' :: rest ∧ unhex 0 d = some (16 * k) ∧
      (d.length = 4 ∨ 4 < d.length ∧ d.head? ≠ some '0') := by
  refine ⟨hex4 (16 * k), cells 16 0 (pkt.drop (16 * k)) ++ ((pkt.drop (16 * k)).take 16).map charOf, ?_, ?_, ?_⟩
  · rw [dump_line]; simp [dumpLine]
  · unfold hex4; rw [unhex_zeros]; exact unhex_hexAll _ _ (Nat.le_refl _)
  · unfold hex4
    generalize 16 * k = n
    by_cases hl : (hexAll n n).length ≤ 4
    · left; simp only [List.length_append, List.length_replicate]; omega
    · right
      rw [show 4 - (hexAll n n).length = 0 by omega, List.replicate_zero, List.nil_append]
      refine ⟨by omega, ?_⟩
      have h0 : n ≠ 0 := by rintro rfl; exact hl (by decide)
      obtain ⟨c, r, h1, h2⟩ := hexAll_head n n (Nat.le_refl _) h0
      rw [h1]; simpa using h2

/-- The text of a line (C129): the line ends by one character for each of its bytes, the character of
that code if it is one of ASCII or Latin-1 that can be printed, otherwise a dot. -/
theorem dump_text (pkt : List UInt8) (k : Nat) (hk : k < (dump pkt).length) :
    ∃ front text, (dump pkt)[k] = front ++ text ∧ text.length = min 16 (pkt.length - 16 * k) ∧
      ∀ j (b : UInt8), j < 16 → pkt[16 * k + j]? = some b → text[j]? = some
        (if (32 ≤ b.toNat ∧ b.toNat < 127) ∨ (160 < b.toNat ∧ b.toNat ≠ 173) then Char.ofNat b.toNat else '.') := by
  refine ⟨hex4 (16 * k) ++ ['/', ' '] ++ cells 16 0 (pkt.drop (16 * k)),
    ((pkt.drop (16 * k)).take 16).map charOf, ?_, ?_, ?_⟩
  · rw [dump_line]; rfl
  · simp
  · intro j b hj hb
    rw [List.getElem?_map, List.getElem?_take_of_lt hj, List.getElem?_drop, hb]
    simp only [Option.map_some, charOf, Option.some.injEq]
    have : printable b = true ↔
        ((32 ≤ b.toNat ∧ b.toNat < 127) ∨ (160 < b.toNat ∧ b.toNat ≠ 173)) := by
      simp only [printable, Bool.or_eq_true, Bool.and_eq_true, decide_eq_true_eq]; omega
    by_cases h : (32 ≤ b.toNat ∧ b.toNat < 127) ∨ (160 < b.toNat ∧ b.toNat ≠ 173)
    · rw [if_pos h, if_pos (this.mpr h)]
    · rw [if_neg h, if_neg (fun x => h (this.mp x))]

example : (dump (List.replicate 17 65)).map String.ofList =
    ["0000/ 41 41 41 41 41 41 41 41  41 41 41 41 41 41 41 41 AAAAAAAAAAAAAAAA",
     "0010/ 41                                               A"] := by decide +kernel

/-! ## Events -/

theorem format0_length (t u : Str) (h : format0 t = some u) : u.length ≤ t.length := by
  fun_induction format0 t generalizing u with
  | case1 => cases h; simp
  | case2 r ih =>
    obtain ⟨v, hv, rfl⟩ := Option.map_eq_some_iff.mp h
    have := ih v hv; simp; omega
  | case3 r ih =>
    obtain ⟨v, hv, rfl⟩ := Option.map_eq_some_iff.mp h
    have := ih v hv; simp; omega
  | case4 => cases h
  | case5 c r _ _ _ ih =>
    obtain ⟨v, hv, rfl⟩ := Option.map_eq_some_iff.mp h
    have := ih v hv; simp; omega

/-- **Texts of events (C129, partial).**  The text of an event is written as it is
exactly if it has no braces. -/
theorem event_shown_partial (t : Str) : eventLine t = some t ↔ '{' ∉ t ∧ '}' ∉ t := by
  unfold eventLine
  fun_induction format0 t with
  | case1 => simp
  | case2 r ih =>
    refine ⟨fun h => ?_, fun h => absurd (by simp) h.1⟩
    obtain ⟨v, hv, e⟩ := Option.map_eq_some_iff.mp h
    have := format0_length _ _ hv
    have := congrArg List.length e
    simp at this; omega
  | case3 r ih =>
    refine ⟨fun h => ?_, fun h => absurd (by simp) h.2⟩
    obtain ⟨v, hv, e⟩ := Option.map_eq_some_iff.mp h
    have := format0_length _ _ hv
    have := congrArg List.length e
    simp at this; omega
  | case4 c r _ _ hc =>
    refine ⟨fun h => absurd h (by simp), fun h => ?_⟩
    rcases hc with e | e
    · exact absurd (by simp [e]) h.1
    · exact absurd (by simp [e]) h.2
  | case5 c r _ _ hc ih =>
    have hc1 : c ≠ '{' := fun e => hc (.inl e)
    have hc2 : c ≠ '}' := fun e => hc (.inr e)
    constructor
    · intro h
      obtain ⟨v, hv, e⟩ := Option.map_eq_some_iff.mp h
      have := (List.cons.inj e).2; subst this
      have := ih.mp hv
      simp [this.1, this.2, Ne.symm hc1, Ne.symm hc2]
    · intro h
      have h1 : '{' ∉ r := fun e => h.1 (by simp [e])
      have h2 : '}' ∉ r := fun e => h.2 (by simp [e])
      rw [ih.mpr ⟨h1, h2⟩]; rfl

/-- **Events that are not written (C129, negation).**  An event with a single brace,
as in the name of a circuit of another node that sends its events here, is
not written at all; doubled ones are changed. -/
theorem event_lost (a b : Str) (ha : '{' ∉ a ∧ '}' ∉ a) (hb : '{' ∉ b ∧ '}' ∉ b) :
    eventLine (a ++ '{' :: b) = none ∧ eventLine (a ++ '{' :: '{' :: b) = some (a ++ '{' :: b) := by
  have pre : ∀ (a t : Str), '{' ∉ a ∧ '}' ∉ a → format0 (a ++ t) = (format0 t).map (a ++ ·) := by
    intro a t ha
    induction a with
    | nil => simp
    | cons c a ih =>
      have h1 : c ≠ '{' := fun e => ha.1 (by simp [e])
      have h2 : c ≠ '}' := fun e => ha.2 (by simp [e])
      have ih' := ih ⟨fun e => ha.1 (by simp [e]), fun e => ha.2 (by simp [e])⟩
      have e : format0 (c :: (a ++ t)) = (format0 (a ++ t)).map (c :: ·) := by
        conv => lhs; unfold format0
        split
        · rename_i h; simp at h
        · rename_i h; exact absurd (List.cons.inj h).1 h1
        · rename_i h; exact absurd (List.cons.inj h).1 h2
        · rename_i h; obtain ⟨rfl, rfl⟩ := List.cons.inj h
          rw [if_neg (by simp [h1, h2])]
      rw [List.cons_append, e, ih']
      cases format0 t <;> rfl
  have hbok : format0 b = some b := (event_shown_partial b).mpr hb
  unfold eventLine
  rw [pre a _ ha, pre a _ ha]
  constructor
  · have : format0 ('{' :: b) = none := by
      unfold format0
      split
      · rename_i h; simp at h
      · rename_i h; have := (List.cons.inj h).2; subst this; exact absurd (by simp) hb.1
      · rename_i h; exact absurd (List.cons.inj h).1 (by decide)
      · rename_i h; rw [if_pos]; exact .inl (List.cons.inj h).1.symm
    rw [this]; rfl
  · rw [format0, hbok]; rfl

example : eventLine "Event type 4.7, Circuit down\n  Circuit = DMC-{0".toList = none := by decide +kernel

end Verif.Log
