import Verif.Fal.GetProps

/-!
# The dialogue with the file access listener

Data only when asked for, an answer to every request, and nothing held back while waiting.
-/

namespace Verif.Fal

/-! ## Data only on request -/

/-- The client connected to a file and asked for it, in sequence and as a whole. -/
def Asked : List In → Prop
  | .control c _ :: .control d r :: ins => (c = 2 ∧ d = 1 ∧ r = some 3) ∨ Asked (.control d r :: ins)
  | _ :: ins => Asked ins
  | [] => False

theorem Asked.cons {ins : List In} (m : In) (h : Asked ins) : Asked (m :: ins) := by
  cases m with
  | control c r =>
    cases ins with
    | nil => exact h
    | cons x ins => cases x <;> first | exact h | exact Or.inr h
  | _ => exact h

/-- There is data among what is sent. -/
def HasData (l : List Act) : Prop := ∃ d, Act.send (.data d) ∈ l

theorem HasData.append {a b : List Act} : HasData (a ++ b) ↔ HasData a ∨ HasData b := by
  simp only [HasData, List.mem_append]
  constructor
  · rintro ⟨d, h | h⟩
    · exact Or.inl ⟨d, h⟩
    · exact Or.inr ⟨d, h⟩
  · rintro (⟨d, h⟩ | ⟨d, h⟩)
    · exact ⟨d, Or.inl h⟩
    · exact ⟨d, Or.inr h⟩

theorem noData_say (m : Out) (h : ∀ d, m ≠ .data d) : ¬ HasData (say m) := by
  rintro ⟨d, hd⟩
  simp only [say, List.mem_cons, Act.send.injEq, reduceCtorEq, List.not_mem_nil, or_false] at hd
  exact h d hd.symm

theorem noData_nil : ¬ HasData [] := by rintro ⟨d, hd⟩; simp at hd

theorem noData_recv : ¬ HasData [.recv] := by rintro ⟨d, hd⟩; simp at hd

theorem noData_about (f : File) : ¬ HasData [.send (about f), .send .ack, .flush, .recv] := by
  rintro ⟨d, hd⟩; simp [about] at hd

theorem closing_data {k : List In → Res} (hk : ∀ i, HasData (k i).acts → Asked i) (ins : List In)
    (h : HasData (closing k ins).acts) : Asked ins := by
  unfold closing at h
  split at h
  · exact absurd h noData_nil
  · split at h
    · exact (hk _ h).cons _
    · exact absurd h (noData_say _ (by simp))
  · exact absurd h (noData_say _ (by simp))

theorem ended_data {k : List In → Res} (hk : ∀ i, HasData (k i).acts → Asked i) (ins : List In)
    (h : HasData (ended k ins).acts) : Asked ins := by
  unfold ended at h
  split at h
  · exact absurd h noData_nil
  · split at h
    · simp only [Res.after, HasData.append] at h
      rcases h with (h | h) | h
      · exact absurd h (noData_say _ (by simp))
      · exact absurd h noData_recv
      · exact (closing_data hk _ h).cons _
    · split at h
      · exact (hk _ h).cons _
      · exact absurd h (noData_say _ (by simp))
  · exact absurd h (noData_say _ (by simp))

theorem reading_data (a : Option Attr) (f : File) {k : List In → Res} (c : Option Nat) (ins : List In)
    (h : HasData (reading a f k ins).acts) : Asked (.control 2 c :: ins) := by
  unfold reading at h
  split at h
  · exact absurd h noData_nil
  · split at h
    · exact absurd h (noData_say _ (by simp))
    · split at h
      · exact absurd h (noData_say _ (by simp))
      · rename_i h1 h2
        exact Or.inl ⟨rfl, Classical.not_not.1 h1, Classical.not_not.1 h2⟩
  · exact absurd h (noData_say _ (by simp))

theorem offered_data (a : Option Attr) (f : File) {k : List In → Res}
    (hk : ∀ i, HasData (k i).acts → Asked i) (ins : List In)
    (h : HasData (offered a f k ins).acts) : Asked ins := by
  unfold offered at h
  split at h
  · exact absurd h noData_nil
  · split at h
    · exact (hk _ h).cons _
    · exact absurd h (noData_say _ (by simp))
  · split at h
    · exact absurd h (noData_say _ (by simp))
    · rename_i hc
      simp only [Res.after, HasData.append] at h
      rcases h with (h | h) | h
      · exact absurd h (noData_say _ (by simp))
      · exact absurd h noData_recv
      · rw [Classical.not_not.1 hc]
        exact reading_data a f _ _ h
  · exact absurd h (noData_say _ (by simp))

/-- **Data only on request.**  Whatever the client says, the listener sends data only if the client has
connected to a file and then asked for all of it. -/
theorem data_only_asked (a : Option Attr) (w : Found) (ins : List In)
    (h : HasData (doget a w ins).acts) : Asked ins := by
  unfold doget at h
  split at h
  · exact absurd h noData_nil
  · split at h
    · obtain ⟨d, hd⟩ := h; simp at hd
    · rename_i l
      revert h
      induction l generalizing ins with
      | nil => intro h; exact absurd h (noData_say _ (by simp))
      | cons f fs ih =>
        intro h
        simp only [serve, Res.after, HasData.append] at h
        rcases h with h | h
        · exact absurd h (noData_about f)
        · exact offered_data a f (fun i => ih i) ins h

/-- It does happen. -/
example : HasData (doget (some ⟨some 2, true, none⟩) (.files [⟨[102], [], [65]⟩])
    [.control 2 none, .control 1 (some 3)]).acts := ⟨[65], by decide⟩

/-! ## Answers -/

/-- Ends with an answer that has been sent off. -/
def EndsAnswered (l : List Act) : Prop :=
  ∃ pre, l = pre ++ say .response ∨ ∃ mac mic, l = pre ++ say (.status mac mic)

theorem EndsAnswered.after {l : List Act} (pre : List Act) (h : EndsAnswered l) : EndsAnswered (pre ++ l) := by
  obtain ⟨p, h | ⟨x, y, h⟩⟩ := h
  · exact ⟨pre ++ p, Or.inl (by rw [h, List.append_assoc])⟩
  · exact ⟨pre ++ p, Or.inr ⟨x, y, by rw [h, List.append_assoc]⟩⟩

theorem ends_status (mac mic : Nat) : EndsAnswered (say (.status mac mic)) :=
  ⟨[], Or.inr ⟨mac, mic, rfl⟩⟩

theorem closing_ends {k : List In → Res} (hk : ∀ i, (k i).fin = .done → EndsAnswered (k i).acts) (ins : List In)
    (h : (closing k ins).fin = .done) : EndsAnswered (closing k ins).acts := by
  unfold closing at h ⊢
  split
  · simp at h
  · simp only [] at h
    split
    · rename_i hc; rw [if_pos hc] at h; exact hk _ h
    · exact ends_status _ _
  · exact ends_status _ _

theorem ended_ends {k : List In → Res} (hk : ∀ i, (k i).fin = .done → EndsAnswered (k i).acts) (ins : List In)
    (h : (ended k ins).fin = .done) : EndsAnswered (ended k ins).acts := by
  unfold ended at h ⊢
  split
  · simp at h
  · simp only [] at h
    split
    · rename_i hc
      rw [if_pos hc] at h
      exact (closing_ends hk _ h).after _
    · rename_i hc
      rw [if_neg hc] at h
      split
      · rename_i hd; rw [if_pos hd] at h; exact hk _ h
      · exact ends_status _ _
  · exact ends_status _ _

theorem reading_ends (a : Option Attr) (f : File) {k : List In → Res}
    (hk : ∀ i, (k i).fin = .done → EndsAnswered (k i).acts) (ins : List In)
    (h : (reading a f k ins).fin = .done) : EndsAnswered (reading a f k ins).acts := by
  unfold reading at h ⊢
  split
  · simp at h
  · simp only [] at h
    split
    · exact ends_status _ _
    · rename_i hc
      rw [if_neg hc] at h
      split
      · exact ends_status _ _
      · rename_i hd
        rw [if_neg hd] at h
        refine EndsAnswered.after _ ?_
        simp only [Res.after] at h
        split
        · rename_i he; rw [if_pos he] at h; simp at h
        · rename_i he
          rw [if_neg he] at h
          exact (ended_ends hk _ h).after _
  · exact ends_status _ _

theorem offered_ends (a : Option Attr) (f : File) {k : List In → Res}
    (hk : ∀ i, (k i).fin = .done → EndsAnswered (k i).acts) (ins : List In)
    (h : (offered a f k ins).fin = .done) : EndsAnswered (offered a f k ins).acts := by
  unfold offered at h ⊢
  split
  · simp at h
  · simp only [] at h
    split
    · rename_i hc; rw [if_pos hc] at h; exact hk _ h
    · exact ends_status _ _
  · simp only [] at h
    split
    · exact ends_status _ _
    · rename_i hc
      rw [if_neg hc] at h
      exact (reading_ends a f hk _ h).after _
  · exact ends_status _ _

/-- **Every request for files that were found ends with an answer**: a completion or an error, sent off at
once.  For errors in finding them see `error_held_back`. -/
theorem answered_partial (a : Option Attr) (l : List File) (ins : List In)
    (h : (doget a (.files l) ins).fin = .done) : EndsAnswered (doget a (.files l) ins).acts := by
  unfold doget at h ⊢
  split
  · rename_i ho; rw [if_pos ho] at h; simp at h
  · rename_i ho
    rw [if_neg ho] at h
    simp only [] at h ⊢
    revert h
    induction l generalizing ins with
    | nil => intro _; exact ⟨[], Or.inl rfl⟩
    | cons f fs ih =>
      intro h
      exact (offered_ends a f (fun i => ih i) ins h).after _

/-- A client that asks for a block size other than 512 ends the listener: it is to be refused, but the code
that does so names a function that does not exist. -/
theorem odd_blocks_die (a : Attr) (n : Nat) (ha : a.bls = some n) (hn : n ≠ 512) (w : Found) (ins : List In) :
    doget (some a) w ins = ⟨[], .died, ins⟩ := by
  have : oddBlocks (some a) = true := by
    obtain ⟨r, c, b⟩ := a
    simp only at ha
    subst ha
    simp [oddBlocks, hn]
  unfold doget
  rw [if_pos this]

/-! ## Nothing is held back while waiting -/

/-- No `recv` while there are messages that have not been flushed; `p` says that there are some at the
beginning. -/
def Flushed : Bool → List Act → Prop
  | _, [] => True
  | _, .send _ :: r => Flushed true r
  | _, .flush :: r => Flushed false r
  | p, .recv :: r => p = false ∧ Flushed false r

theorem flushed_say (p : Bool) (m : Out) (r : List Act) : Flushed p (say m ++ r) ↔ Flushed false r := by
  simp [say, Flushed]

theorem flushed_data (l : List Bytes) (p : Bool) (r : List Act) (h : ∀ q, Flushed q r) :
    Flushed p ((l.map fun d => Act.send (.data d)) ++ r) := by
  induction l generalizing p with
  | nil => exact h p
  | cons d l ih => exact ih true

/-- Fine whatever comes before and, if it ends in the main loop, whatever comes after. -/
def Good (r : Res) : Prop :=
  Flushed false r.acts ∧ (r.fin ≠ .died → ∀ more, Flushed false more → Flushed false (r.acts ++ more))

theorem good_say (m : Out) (e : End) (ins : List In) : Good ⟨say m, e, ins⟩ :=
  ⟨by simp [say, Flushed], fun _ more h => by rw [flushed_say]; exact h⟩

theorem good_nil (e : End) (ins : List In) : Good ⟨[], e, ins⟩ := ⟨trivial, fun _ _ h => h⟩

theorem Good.after {r : Res} {pre : List Act} (hp : ∀ x, Flushed false x → Flushed false (pre ++ x))
    (h : Good r) : Good (r.after pre) :=
  ⟨hp _ h.1, fun hf more hm => by
    simp only [Res.after, List.append_assoc]
    exact hp _ (h.2 hf more hm)⟩

theorem say_recv (m : Out) (x : List Act) (h : Flushed false x) :
    Flushed false (say m ++ [.recv] ++ x) := by
  rw [List.append_assoc, flushed_say]
  exact ⟨rfl, h⟩

theorem closing_good {k : List In → Res} (hk : ∀ i, Good (k i)) (ins : List In) : Good (closing k ins) := by
  unfold closing
  split
  · exact good_nil _ _
  · split
    · exact hk _
    · exact good_say _ _ _
  · exact good_say _ _ _

theorem ended_good {k : List In → Res} (hk : ∀ i, Good (k i)) (ins : List In) : Good (ended k ins) := by
  unfold ended
  split
  · exact good_nil _ _
  · split
    · exact (closing_good hk _).after (say_recv _)
    · split
      · exact hk _
      · exact good_say _ _ _
  · exact good_say _ _ _

theorem reading_good (a : Option Attr) (f : File) {k : List In → Res} (hk : ∀ i, Good (k i)) (ins : List In) :
    Good (reading a f k ins) := by
  unfold reading
  split
  · exact good_nil _ _
  · rename_i c r ins
    split
    · exact good_say _ _ _
    · split
      · exact good_say _ _ _
      · split
        · refine ⟨flushed_data _ _ _ (fun q => trivial), fun h => absurd rfl h⟩
        · have h := ended_good hk ins
          have hq : ∀ q x, Flushed false x → Flushed q (say (.status 5 39) ++ [.recv] ++ x) := by
            intro q x hx
            rw [List.append_assoc, flushed_say]; exact ⟨rfl, hx⟩
          constructor
          · exact flushed_data _ _ _ (fun q => hq q _ h.1)
          · intro hf more hm
            simp only [Res.after, List.append_assoc]
            refine flushed_data _ _ _ (fun q => ?_)
            have := hq q _ (h.2 hf more hm)
            simpa [List.append_assoc] using this
  · exact good_say _ _ _

theorem offered_good (a : Option Attr) (f : File) {k : List In → Res} (hk : ∀ i, Good (k i)) (ins : List In) :
    Good (offered a f k ins) := by
  unfold offered
  split
  · exact good_nil _ _
  · split
    · exact hk _
    · exact good_say _ _ _
  · split
    · exact good_say _ _ _
    · exact (reading_good a f hk _).after (say_recv _)
  · exact good_say _ _ _

theorem serve_good (a : Option Attr) (fs : List File) (ins : List In) : Good (serve a fs ins) := by
  induction fs generalizing ins with
  | nil => exact good_say _ _ _
  | cons f fs ih =>
    exact (offered_good a f ih ins).after (fun x hx => ⟨rfl, hx⟩)

theorem dodir_flushed (v7 : Bool) (w : Found) (more : List Act) (h : Flushed false more) :
    Flushed false (dodir v7 w ++ more) := by
  have hx : ∀ p, Flushed p (say .response ++ more) := fun p => (flushed_say p _ _).2 h
  unfold dodir
  rw [List.append_assoc]
  cases w with
  | error mac mic => cases v7 <;> exact hx true
  | files l =>
    simp only []
    suffices H : ∀ (l : List File) p, Flushed p ((l.flatMap fun f =>
        Act.send (about f) :: (if v7 then [Act.send .ack] else [])) ++ (say .response ++ more)) from H l false
    intro l
    induction l with
    | nil => intro p; exact hx p
    | cons f l ih =>
      intro p
      rw [List.flatMap_cons, List.append_assoc]
      cases v7 <;> exact ih true

/-- **Nothing is held back** if every file asked for is found: whenever the listener waits for the client, all it
has said has been handed to the connection.  Missing from the full claim: files that are not found, see
`error_held_back`. -/
theorem flushed_partial (v7 : Bool) (disk : Nat → List Nat → Found)
    (hdisk : ∀ spec, ∃ l, disk 1 spec = .files l) (a : Option Attr) (ins : List In) :
    Flushed false (serveAll v7 disk a ins).1 := by
  induction h : ins.length using Nat.strongRecOn generalizing ins a with
  | _ n ih =>
    unfold serveAll
    split
    · exact ⟨rfl, trivial⟩
    · exact ⟨rfl, ih _ (by rw [← h]; simp) _ _ rfl⟩
    · exact ⟨rfl, ih _ (by rw [← h]; simp) _ _ rfl⟩
    · exact ⟨rfl, ih _ (by rw [← h]; simp) _ _ rfl⟩
    · exact ⟨rfl, dodir_flushed _ _ _ (ih _ (by rw [← h]; simp) _ _ rfl)⟩
    · rename_i spec ins
      obtain ⟨l, hl⟩ := hdisk spec
      have hg : Good (doget a (disk 1 spec) ins) := by
        rw [hl]
        unfold doget
        split
        · exact good_nil _ _
        · exact serve_good _ _ _
      split
      · exact ⟨rfl, hg.1⟩
      · rename_i hd
        have hr := doget_rest a (disk 1 spec) ins
        exact ⟨rfl, hg.2 hd _ (ih _ (by rw [← h]; simp only [List.length_cons]; omega) _ _ rfl)⟩
    · exact ⟨rfl, (flushed_say _ _ _).2 (ih _ (by rw [← h]; simp) _ _ rfl)⟩
    · exact ⟨rfl, (flushed_say _ _ _).2 (ih _ (by rw [← h]; simp) _ _ rfl)⟩

/-- What the listener hands to the connection, for the messages of the witness below. -/
def ops : List Act → List Op
  | .send (.status mac mic) :: r =>
    .send ⟨9, [UInt8.ofNat (mic % 256), UInt8.ofNat (mic / 256 + mac * 16)]⟩ :: ops r
  | .send _ :: r => .send ⟨6, []⟩ :: ops r
  | .flush :: r => .flush :: ops r
  | .recv :: r => ops r
  | [] => []

/-- **An error that is held back.**  The client, which takes blocked messages, asks for a file that does not exist.
The listener says so to itself, does not flush, and waits for the next request: the client has been sent
nothing, and the two wait for each other. -/
theorem error_held_back :
    serveAll true (fun _ _ => .error 4 50) none [.access 1 [102]] =
      ([.recv, .send (.status 4 50), .recv], .gone) ∧
    (exec ⟨1000, true, true⟩ {} (ops [.recv, .send (.status 4 50), .recv])).map Prod.snd = some [] ∧
    ¬ Flushed false [.recv, .send (.status 4 50), .recv] := by
  refine ⟨?_, by decide, ?_⟩
  · simp [serveAll, doget, oddBlocks]
  · simp [Flushed]

/-! ## Listings -/

/-- **A listing describes every file**, once, in order, and ends with a completion. -/
theorem listing (v7 : Bool) (l : List File) :
    (outs (dodir v7 (.files l))).filter (fun m => m ≠ .ack) = l.map about ++ [.response] ∧
    ∃ pre, dodir v7 (.files l) = pre ++ say .response := by
  refine ⟨?_, _, rfl⟩
  unfold dodir
  rw [outs_append]
  simp only []
  rw [List.filter_append]
  congr 1
  induction l with
  | nil => rfl
  | cons f l ih =>
    rw [List.flatMap_cons, outs_append, List.filter_append, ih]
    cases v7 <;> simp [outs, about]

/-! ## Requests that are not served -/

/-- **Other requests are refused**, one answer each, and the listener goes on. -/
theorem refused (v7 : Bool) (disk : Nat → List Nat → Found) (a : Option Attr) (ins : List In) :
    (∀ func spec, func ≠ 1 → func ≠ 6 → serveAll v7 disk a (.access func spec :: ins) =
      (.recv :: say (.status 2 208) ++ (serveAll v7 disk a ins).1, (serveAll v7 disk a ins).2)) ∧
    (∀ m, (∀ b, m ≠ .attrib b) → m ≠ .date → m ≠ .prot → (∀ f s, m ≠ .access f s) →
      serveAll v7 disk a (m :: ins) =
        (.recv :: say (.status 10 m.typ) ++ (serveAll v7 disk a ins).1, (serveAll v7 disk a ins).2)) := by
  constructor
  · intro func spec h1 h6
    rw [serveAll]
    · exact fun e => h6 e
    · exact fun e => h1 e
  · intro m ha hd hp hx
    rw [serveAll]
    · exact ha
    · exact hd
    · exact hp
    · exact fun s => hx 6 s
    · exact fun s => hx 1 s
    · exact hx

end Verif.Fal
