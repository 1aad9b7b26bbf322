import Verif.Nml.Props

/-!
# Loop tests with another node (C85)
-/

namespace Verif.Nml

/-- A sequence of events. -/
def exec : St → List (Env × Ev) → List Rec × St
  | st, [] => ([], st)
  | st, (env, ev) :: l =>
    let s := step env st ev
    let r := exec s.1 l
    (⟨env, ev, s.2⟩ :: r.1, r.2)

/-- Not a loop request. -/
def Quiet : Ev → Prop
  | .item _ (.data b) => b.head? ≠ some 18
  | .item _ _ => True
  | .done _ => True

/-- How often the data came back. -/
def goods (n : Nat) (d : Bytes) (l : List Rec) : Nat :=
  (l.filter fun r => r.ev = .item (.loop n) (.data (1 :: d))).length

/-- Nothing wrong: the data came back, or the other side takes messages of that length. -/
def Fine (d : Bytes) (i : Item) : Prop :=
  i = .data (1 :: d) ∨ ∃ b, i = .accept b ∧ d.length + 1 ≤ Fields.fromLe (b.take 2)

/-- What is done and said at the end of a test that ended with `i`, when `k` messages had not come back
yet. -/
def verdict (n : Nat) (d : Bytes) (k : Nat) : Item → List Out
  | .data b =>
    if b = 1 :: d then [.disconnect n, .reply (.loopOk none)]
    else [.abort n, .reply (.loopErr (-28) 0 k)]
  | .accept _ => [.abort n, .reply (.loopErr (-16) 151 k)]
  | .reject r => [.reply (.loopErr (-21) (reason r) k)]
  | _ => [.abort n, .reply (.loopErr (-19) 0 k)]

/-- So far so good: to each message of the mirror the data was sent once more. -/
def Going (n : Nat) (d : Bytes) (l : List Rec) : Prop :=
  ∀ r ∈ l, ∀ i, r.ev = .item (.loop n) i → Fine d i ∧ r.outs = [.send n (0 :: d)]

/-- Outputs that have to do with other requests. -/
def Other (o : Out) : Prop := (∃ r, o = .reply r ∧ r ≠ .loopOk none) ∨ ∃ b, o = .accept b

/-! ## Lemmas -/

theorem niceWork_quiet {env : Env} {st : St} {c : Conn} {i : Item} (hq : Quiet (.item c i)) :
    (niceWork env st c i).1.loopConn = st.loopConn ∧ (niceWork env st c i).1.count = st.count ∧
      (niceWork env st c i).1.data = st.data := by
  cases i with
  | data b =>
    have h : ∀ x, b ≠ 18 :: x := by
      intro x hx
      rw [hx] at hq
      exact hq rfl
    have := request_keeps (env := env) (st := st) b h
    simp only [act, niceWork] at this ⊢
    rw [this]
    exact ⟨rfl, rfl, rfl⟩
  | connectInit b => simp only [niceWork]; split <;> exact ⟨rfl, rfl, rfl⟩
  | disconnect => simp only [niceWork]; split <;> exact ⟨rfl, rfl, rfl⟩
  | _ => exact ⟨rfl, rfl, rfl⟩

theorem fine_step {st : St} {n : Nat} {i : Item} (h : Fine st.data i)
    (h1 : i = .data (1 :: st.data) → 1 < st.count) :
    loopWork st n i = ({ st with count := if i = .data (1 :: st.data) then st.count - 1 else st.count },
      [.send n (0 :: st.data)]) := by
  rcases h with rfl | ⟨b, rfl, hb⟩
  · have := h1 rfl
    have h2 : ¬ st.count - 1 < 1 := by omega
    simp [loopWork, h2]
  · have : ¬ Fields.fromLe (b.take 2) < st.data.length + 1 := by omega
    simp [loopWork, this]

theorem last_step {st : St} {n : Nat} {i : Item} (hn : Out.crash ∉ (loopWork st n i).2)
    (h : ¬ Fine st.data i ∨ (i = .data (1 :: st.data) ∧ st.count = 1)) :
    (loopWork st n i).1.loopConn = none ∧ (loopWork st n i).2 = verdict n st.data st.count i := by
  have hr : ∀ (s : St) (r : Reply) (l : List Out), Out.crash ∉ l ++ replies s [r] →
      replies s [r] = [.reply r] := by
    intro s r l hh
    unfold replies at hh ⊢
    split
    · rfl
    · rename_i hx
      simp [hx] at hh
  cases i with
  | data b =>
    cases b with
    | nil => simp [loopWork] at hn
    | cons f b =>
      by_cases hg : f = 1 ∧ b = st.data
      · obtain ⟨rfl, hb⟩ := hg
        subst hb
        have hc : st.count = 1 := by
          rcases h with h | h
          · exact absurd (.inl rfl) h
          · exact h.2
        have h1 : st.count - 1 < 1 := by omega
        simp only [loopWork, and_self, if_true, h1] at hn ⊢
        simp only [verdict, if_true, true_and]
        rw [hr _ _ [_] hn]
      · simp only [loopWork, hg, if_false] at hn ⊢
        have hne : ¬ f :: b = 1 :: st.data := by simpa using hg
        simp only [verdict, hne, if_false, true_and]
        rw [hr _ _ [_] hn]
  | accept b =>
    have hlt : Fields.fromLe (b.take 2) < st.data.length + 1 := by
      rcases h with h | h
      · exact Nat.lt_of_not_le fun hh => h (.inr ⟨b, rfl, hh⟩)
      · simp at h
    simp only [loopWork, hlt, if_true] at hn ⊢
    simp only [verdict, true_and]
    rw [hr _ _ [_] hn]
  | reject r =>
    simp only [loopWork] at hn ⊢
    simp only [verdict, true_and]
    rw [hr _ _ [] hn]
  | connectInit b => simp only [loopWork] at hn ⊢; simp only [verdict, true_and]; rw [hr _ _ [_] hn]
  | disconnect => simp only [loopWork] at hn ⊢; simp only [verdict, true_and]; rw [hr _ _ [_] hn]
  | interrupt b => simp only [loopWork] at hn ⊢; simp only [verdict, true_and]; rw [hr _ _ [_] hn]

theorem replies_other {st : St} {rs : List Reply} (h : Reply.loopOk none ∉ rs) {o : Out}
    (ho : o ∈ replies st rs) : Other o ∨ o = .crash := by
  unfold replies at ho
  split at ho
  · obtain ⟨r, hr, rfl⟩ := List.mem_map.1 ho
    exact .inl (.inl ⟨r, rfl, fun hh => h (hh ▸ hr)⟩)
  · split at ho
    · simp at ho
    · simp only [List.mem_singleton] at ho; exact .inr ho

theorem list_other (b : Bool) (l : List Entry) : Reply.loopOk none ∉ listReplies b l := by
  have he : ∀ x, Reply.loopOk none ∉ entryReplies x := by
    intro x
    cases x with
    | one e => simp [entryReplies]
    | many es =>
      cases es with
      | nil => simp [entryReplies]
      | cons e es =>
        simp only [entryReplies, List.mem_append, List.mem_map, reduceCtorEq, and_false, exists_false,
          List.mem_singleton, or_self, not_false_eq_true]
  unfold listReplies
  split
  · simp only [List.mem_cons, reduceCtorEq, false_or, List.mem_map, not_exists, not_and]
    intro x _
    cases x <;> simp [oldReply]
  · split
    · simp
    · simp
    · simp only [List.mem_cons, List.mem_append, reduceCtorEq, false_or, List.not_mem_nil, or_false,
        List.mem_flatMap, not_exists, not_and]
      exact fun x _ => he x

theorem request_other {env : Env} {st : St} {b : Bytes} (h : ∀ x, b ≠ 18 :: x) {o : Out}
    (ho : o ∈ (request env st b).2) : Other o ∨ o = .crash := by
  unfold request at ho
  split at ho
  · simp only [List.mem_singleton] at ho; exact .inr ho
  · exact replies_other (by simp) ho
  · exact replies_other (by simp) ho
  · exact replies_other (by simp) ho
  · split at ho
    · unfold readOldReplies at ho
      split at ho
      · simp only [answer, List.mem_singleton] at ho; exact .inr ho
      · exact replies_other (by simp [codeReply]; split <;> simp) ho
      · split at ho
        · simp only [answer, List.mem_singleton] at ho; exact .inr ho
        · exact replies_other (list_other _ _) ho
    · exact replies_other (by simp) ho
  · split at ho
    · exact replies_other (by simp) ho
    · split at ho
      · exact replies_other (by simp [codeReply]; split <;> simp) ho
      · unfold readReplies at ho
        split at ho
        · simp only [answer, List.mem_singleton] at ho; exact .inr ho
        · exact replies_other (by simp [codeReply]; split <;> simp) ho
        · split at ho
          · exact replies_other (by simp [codeReply]; split <;> simp) ho
          · exact replies_other (list_other _ _) ho
  · rename_i e u p a ps hp
    exact absurd hp (parse_loop h e u p a ps).1
  · split at ho <;> exact replies_other (by simp) ho
  · rename_i e ps hp
    exact absurd hp (parse_loop h e [] [] [] ps).2

theorem niceWork_other {env : Env} {st : St} {c : Conn} {i : Item} (hq : Quiet (.item c i)) {o : Out}
    (ho : o ∈ (niceWork env st c i).2) : Other o ∨ o = .crash := by
  cases i with
  | data b => exact request_other (fun x hx => by rw [hx] at hq; exact hq rfl) ho
  | connectInit b =>
    simp only [niceWork] at ho
    split at ho <;> (simp only [List.mem_singleton] at ho; exact .inl (.inr ⟨_, ho⟩))
  | disconnect => simp [niceWork] at ho
  | accept b => simp [niceWork] at ho
  | reject b => simp [niceWork] at ho
  | interrupt b => simp [niceWork] at ho

theorem step_nocrash {env : Env} {st : St} {ev : Ev} (hd : st.dead = false)
    (hn : Out.crash ∉ (step env st ev).2) :
    (step env st ev).1 = { (act env st ev).1 with dead := false } ∧ (step env st ev).2 = (act env st ev).2 := by
  unfold step at hn ⊢
  simp only [hd, Bool.false_eq_true, if_false] at hn ⊢
  simp [hn]

/-- An event that has nothing to do with the test. -/
theorem act_quiet {env : Env} {st : St} {ev : Ev} (hq : Quiet ev)
    (h : ∀ n i, ev = .item (.loop n) i → st.loopConn ≠ some n) :
    ((act env st ev).1.loopConn = st.loopConn ∧ (act env st ev).1.count = st.count ∧
      (act env st ev).1.data = st.data) ∧ ∀ o ∈ (act env st ev).2, Other o ∨ o = .crash := by
  cases ev with
  | item c i =>
    cases c with
    | nice => exact ⟨niceWork_quiet hq, fun o ho => niceWork_other hq ho⟩
    | loop m =>
      have := h m i rfl
      simp only [act, this, if_false]
      exact ⟨niceWork_quiet hq, fun o ho => niceWork_other hq ho⟩
  | done r =>
    refine ⟨⟨rfl, rfl, rfl⟩, fun o ho => ?_⟩
    simp only [act] at ho
    split at ho
    · simp only [List.mem_singleton] at ho
      cases r <;> exact .inl (.inl ⟨_, ho, by simp⟩)
    · simp at ho

theorem after_quiet (evs : List (Env × Ev)) {st : St} (hc : st.loopConn = none) (hd : st.dead = false)
    (hq : ∀ x ∈ evs, Quiet x.2) (hn : ∀ r ∈ (exec st evs).1, Out.crash ∉ r.outs) :
    (exec st evs).2.loopConn = none ∧ ∀ r ∈ (exec st evs).1, ∀ o ∈ r.outs, Other o := by
  induction evs generalizing st with
  | nil => exact ⟨hc, by simp [exec]⟩
  | cons x evs ih =>
    obtain ⟨env, ev⟩ := x
    have hs := step_nocrash hd (hn _ (by simp only [exec]; exact List.mem_cons_self))
    have ha := act_quiet (env := env) (st := st) (hq (env, ev) List.mem_cons_self)
      (fun n i _ => by simp [hc])
    have := ih (st := (step env st ev).1) (by rw [hs.1]; exact ha.1.1.trans hc) (by rw [hs.1])
      (fun y hy => hq y (List.mem_cons_of_mem _ hy))
      (fun r hr => hn r (by simp only [exec]; exact List.mem_cons_of_mem _ hr))
    refine ⟨this.1, fun r hr o ho => ?_⟩
    simp only [exec, List.mem_cons] at hr
    rcases hr with rfl | hr
    · rcases ha.2 o (by rw [← hs.2]; exact ho) with h | h
      · exact h
      · subst h
        exact absurd ho (hn _ (by simp only [exec]; exact List.mem_cons_self))
    · exact this.2 r hr o ho

/-! ## The course of a test -/

/-- C85: a loop test with `c` messages, during which no other loop request comes in, goes on until the data has
come back `c` times or something is wrong; each time the data comes back before, it is sent again.  At the end
there is one verdict: success after exactly `c` times, or else the reason and how many did not come back.
After that the connection is not used. -/
theorem loop_course (evs : List (Env × Ev)) {st : St} {n : Nat} (hc : st.loopConn = some n)
    (hd : st.dead = false) (h1 : 1 ≤ st.count) (hq : ∀ x ∈ evs, Quiet x.2)
    (hn : ∀ r ∈ (exec st evs).1, Out.crash ∉ r.outs) :
    let recs := (exec st evs).1
    (Going n st.data recs ∧ goods n st.data recs < st.count ∧ (exec st evs).2.loopConn = some n ∧
      (exec st evs).2.data = st.data ∧ (exec st evs).2.count = st.count - goods n st.data recs) ∨
    (∃ pre r post i, recs = pre ++ r :: post ∧ r.ev = .item (.loop n) i ∧ Going n st.data pre ∧
      goods n st.data pre < st.count ∧
      (¬ Fine st.data i ∨ (i = .data (1 :: st.data) ∧ goods n st.data pre + 1 = st.count)) ∧
      r.outs = verdict n st.data (st.count - goods n st.data pre) i ∧
      ∀ x ∈ post, ∀ o ∈ x.outs, Other o) := by
  induction evs generalizing st with
  | nil => exact .inl ⟨by simp [Going, exec], by simp [exec, goods]; omega, hc, rfl, by simp [exec, goods]⟩
  | cons x evs ih =>
    obtain ⟨env, ev⟩ := x
    have hx := hn _ (by simp only [exec]; exact List.mem_cons_self)
    have hs := step_nocrash hd hx
    have hn' : ∀ r ∈ (exec (step env st ev).1 evs).1, Out.crash ∉ r.outs :=
      fun r hr => hn r (by simp only [exec]; exact List.mem_cons_of_mem _ hr)
    have hq' : ∀ y ∈ evs, Quiet y.2 := fun y hy => hq y (List.mem_cons_of_mem _ hy)
    have hdead : (step env st ev).1.dead = false := by rw [hs.1]
    simp only [exec]
    by_cases hon : ∃ i, ev = .item (.loop n) i
    · obtain ⟨i, rfl⟩ := hon
      have hact : act env st (.item (.loop n) i) = loopWork st n i := by simp [act, hc]
      rw [hact] at hs
      by_cases hend : ¬ Fine st.data i ∨ (i = .data (1 :: st.data) ∧ st.count = 1)
      · right
        have hl := last_step (n := n) (by rw [← hs.2]; exact hx) hend
        have hpost := after_quiet evs (by rw [hs.1]; exact hl.1) hdead hq' hn'
        refine ⟨[], _, _, i, rfl, rfl, by simp [Going], by simp [goods]; omega, ?_, ?_, hpost.2⟩
        · rcases hend with h | h
          · exact .inl h
          · exact .inr ⟨h.1, by simp [goods, h.2]⟩
        · simp only [goods, List.filter_nil, List.length_nil, Nat.sub_zero]
          rw [hs.2, hl.2]
      · have hf : Fine st.data i := Classical.byContradiction fun h => hend (.inl h)
        have hgt : i = .data (1 :: st.data) → 1 < st.count := by
          intro h
          have : st.count ≠ 1 := fun hh => hend (.inr ⟨h, hh⟩)
          omega
        have hw := fine_step (n := n) hf hgt
        rw [hw] at hs
        simp only at hs
        have hstate : (step env st (.item (.loop n) i)).1.loopConn = some n ∧
            (step env st (.item (.loop n) i)).1.data = st.data ∧
            (step env st (.item (.loop n) i)).1.count =
              if i = .data (1 :: st.data) then st.count - 1 else st.count := by
          rw [hs.1]; exact ⟨hc, rfl, rfl⟩
        obtain ⟨e1, e2, e3⟩ := hstate
        have hge : 1 ≤ (step env st (.item (.loop n) i)).1.count := by
          rw [e3]; split
          · rename_i h; have := hgt h; omega
          · exact h1
        have hI := ih e1 hdead hge hq' hn'
        simp only [e2] at hI
        have hhead : Going n st.data [⟨env, .item (.loop n) i, (step env st (.item (.loop n) i)).2⟩] := by
          intro r hr j hj
          simp only [List.mem_singleton] at hr
          subst hr
          simp only [Ev.item.injEq, true_and] at hj
          subst hj
          exact ⟨hf, hs.2⟩
        have hgoing : ∀ l, Going n st.data l →
            Going n st.data (⟨env, .item (.loop n) i, (step env st (.item (.loop n) i)).2⟩ :: l) := by
          intro l hl r hr
          rcases List.mem_cons.1 hr with hr | hr
          · exact hhead r (by simp [hr])
          · exact hl r hr
        have hcount : ∀ l, goods n st.data
              (⟨env, .item (.loop n) i, (step env st (.item (.loop n) i)).2⟩ :: l) =
            goods n st.data l + if i = .data (1 :: st.data) then 1 else 0 := by
          intro l
          unfold goods
          rw [List.filter_cons]
          by_cases hi : i = .data (1 :: st.data)
          · simp [hi]
          · simp [hi]
        rcases hI with ⟨a, b, c, d, e⟩ | ⟨pre, r, post, j, a, b, c, d, e, f, g⟩
        · left
          rw [hcount]
          refine ⟨hgoing _ a, ?_, c, d, ?_⟩
          · rw [e3] at b; revert b hgt; split <;> intro hgt b
            · have := hgt (by assumption); omega
            · omega
          · rw [e, e3]; split <;> omega
        · right
          refine ⟨_ :: pre, r, post, j, by rw [a]; rfl, b, hgoing _ c, ?_, ?_, ?_, g⟩
          · rw [hcount]; rw [e3] at d; revert d hgt; split <;> intro hgt d
            · have := hgt (by assumption); omega
            · omega
          · rcases e with e | e
            · exact .inl e
            · refine .inr ⟨e.1, ?_⟩
              rw [hcount]
              have e' := e.2
              rw [e3] at e'; revert e' hgt; split <;> intro hgt e'
              · have := hgt (by assumption); omega
              · omega
          · rw [f, hcount, e3]
            congr 1
            split <;> omega
    · have ha := act_quiet (env := env) (st := st) (hq (env, ev) List.mem_cons_self) (by
        intro m i hm hmm
        rw [hc] at hmm
        simp only [Option.some.injEq] at hmm
        simp only at hm
        exact hon ⟨i, by rw [hm, hmm]⟩)
      obtain ⟨⟨a1, a2, a3⟩, a4⟩ := ha
      have e1 : (step env st ev).1.loopConn = some n := by rw [hs.1]; exact a1.trans hc
      have e2 : (step env st ev).1.data = st.data := by rw [hs.1]; exact a3
      have e3 : (step env st ev).1.count = st.count := by rw [hs.1]; exact a2
      have hI := ih e1 hdead (by rw [e3]; exact h1) hq' hn'
      simp only [e2, e3] at hI
      have hgoing : ∀ l, Going n st.data l → Going n st.data (⟨env, ev, (step env st ev).2⟩ :: l) := by
        intro l hl r hr i hi
        rcases List.mem_cons.1 hr with hr | hr
        · subst hr; exact absurd ⟨i, hi⟩ hon
        · exact hl r hr i hi
      have hcount : ∀ l, goods n st.data (⟨env, ev, (step env st ev).2⟩ :: l) = goods n st.data l := by
        intro l
        unfold goods
        rw [List.filter_cons, if_neg]
        simp only [decide_eq_true_eq]
        exact fun h => hon ⟨_, h⟩
      rcases hI with ⟨a, b, c, d, e⟩ | ⟨pre, r, post, j, a, b, c, d, e, f, g⟩
      · left
        rw [hcount]
        exact ⟨hgoing _ a, b, c, d, e⟩
      · right
        refine ⟨_ :: pre, r, post, j, by rw [a]; rfl, b, hgoing _ c, ?_, ?_, ?_, g⟩
        · rw [hcount]; exact d
        · rw [hcount]; exact e
        · rw [hcount]; exact f

end Verif.Nml
