import Verif.Nsp.Limits

/-! Flow control: what the link service messages received so far allow. -/
namespace Verif.Nsp

variable {inp : Inp}

/-- Credit given for the data subchannel by the link service messages acted on. -/
def dataCr : List Out → Int
  | [] => 0
  | .ls _ 0 v true :: l => v + dataCr l
  | _ :: l => dataCr l

/-- Credit given for interrupts. -/
def intCr : List Out → Int
  | [] => 0
  | .ls _ (_ + 1) v true :: l => v + intCr l
  | _ :: l => intCr l

/-- Whether sending is on, starting from `b`: the last on/off request counts (2 is "send",
1 is "do not send"). -/
def xonF : Bool → List Out → Bool
  | b, [] => b
  | b, .ls fm 0 _ true :: l => xonF (if fm = 0 then b else fm == 2) l
  | b, _ :: l => xonF b l

/-- The entry is a link service message for the data subchannel. -/
def Out.isLs : Out → Bool
  | .ls .. => true
  | _ => false

theorem dataCr_append (a b : List Out) : dataCr (a ++ b) = dataCr a + dataCr b := by
  induction a with
  | nil => simp [dataCr]
  | cons o l ih =>
    rw [List.cons_append]
    cases o with
    | ls fm fi v ok =>
      cases fi with
      | zero =>
        cases ok
        · exact ih
        · show v + dataCr (l ++ b) = v + dataCr l + dataCr b
          rw [ih]; omega
      | succ n => cases ok <;> exact ih
    | _ => exact ih

theorem intCr_append (a b : List Out) : intCr (a ++ b) = intCr a + intCr b := by
  induction a with
  | nil => simp [intCr]
  | cons o l ih =>
    rw [List.cons_append]
    cases o with
    | ls fm fi v ok =>
      cases fi with
      | zero => cases ok <;> exact ih
      | succ n =>
        cases ok
        · exact ih
        · show v + intCr (l ++ b) = v + intCr l + intCr b
          rw [ih]; omega
    | _ => exact ih

theorem xonF_append (x : Bool) (a b : List Out) : xonF x (a ++ b) = xonF (xonF x a) b := by
  induction a generalizing x with
  | nil => rfl
  | cons o l ih =>
    rw [List.cons_append]
    cases o with
    | ls fm fi v ok =>
      cases fi with
      | zero => cases ok <;> exact ih _
      | succ n => cases ok <;> exact ih _
    | _ => exact ih x

/-- Nothing about flow control in these entries. -/
structure NoLs (l : List Out) : Prop where
  d : dataCr l = 0
  i : intCr l = 0
  x : ∀ b, xonF b l = b
  n : ∀ o ∈ l, o.isLs = false

theorem NoLs.one {o : Out} (h : o.isLs = false) : NoLs [o] := by
  refine ⟨?_, ?_, ?_, by simpa using h⟩ <;> (cases o <;> first | (intro b; rfl) | rfl | cases h)

theorem NoLs.nil : NoLs [] := ⟨rfl, rfl, fun _ => rfl, by simp⟩

/-- What passing an item up does to the flow control variables. -/
theorem deliver_flow (c : Conn) (m : Msg) : ∃ l, (deliver c m).log = c.log ++ l ∧ OnlySc l ∧
    (deliver c m).data.flow = c.data.flow ∧
    (c.data.flow = 1 → (deliver c m).data.maxseg = c.data.maxseg + dataCr l) ∧
    (c.data.flow = 2 → (deliver c m).data.maxmsg = c.data.maxmsg + dataCr l) ∧
    (deliver c m).data.xon = xonF c.data.xon l ∧
    (deliver c m).other.maxmsg = c.other.maxmsg + intCr l ∧ 0 ≤ intCr l := by
  have quiet : ∀ (c' : Conn) (l : List Out), c'.log = c.log ++ l → OnlySc l → NoLs l →
      c'.data.flow = c.data.flow → c'.data.maxseg = c.data.maxseg → c'.data.maxmsg = c.data.maxmsg →
      c'.data.xon = c.data.xon → c'.other.maxmsg = c.other.maxmsg →
      ∃ l, c'.log = c.log ++ l ∧ OnlySc l ∧ c'.data.flow = c.data.flow ∧
        (c.data.flow = 1 → c'.data.maxseg = c.data.maxseg + dataCr l) ∧
        (c.data.flow = 2 → c'.data.maxmsg = c.data.maxmsg + dataCr l) ∧
        c'.data.xon = xonF c.data.xon l ∧
        c'.other.maxmsg = c.other.maxmsg + intCr l ∧ 0 ≤ intCr l := by
    intro c' l e1 e2 e3 e4 e5 e6 e7 e8
    exact ⟨l, e1, e2, e4, fun _ => by rw [e3.d, e5]; omega, fun _ => by rw [e3.d, e6]; omega,
      by rw [e3.x, e7], by rw [e3.i, e8]; omega, by rw [e3.i]; exact Int.le_refl _⟩
  have onlyLs : ∀ a b v ok, OnlySc [Out.ls a b v ok] := fun a b v ok o ho => by
    rw [List.mem_singleton] at ho; subst ho; exact Or.inr (Or.inr ⟨_, _, _, _, rfl⟩)
  unfold deliver
  split
  · rename_i bom eom p _
    have hd : ∀ p, OnlySc [Out.scData p] := fun p => by simp [OnlySc]
    have hn : ∀ p, NoLs [Out.scData p] := fun p => NoLs.one rfl
    have e3 : ∀ b : Bool, ∃ l, (if b = true then c.emit (.scData p) else { c with asm := [p] }).log =
        c.log ++ l ∧ OnlySc l ∧
        (if b = true then c.emit (.scData p) else { c with asm := [p] }).data.flow = c.data.flow ∧
        (c.data.flow = 1 → (if b = true then c.emit (.scData p) else { c with asm := [p] }).data.maxseg =
          c.data.maxseg + dataCr l) ∧
        (c.data.flow = 2 → (if b = true then c.emit (.scData p) else { c with asm := [p] }).data.maxmsg =
          c.data.maxmsg + dataCr l) ∧
        (if b = true then c.emit (.scData p) else { c with asm := [p] }).data.xon = xonF c.data.xon l ∧
        (if b = true then c.emit (.scData p) else { c with asm := [p] }).other.maxmsg =
          c.other.maxmsg + intCr l ∧ 0 ≤ intCr l := by
      intro b
      cases b
      · exact quiet _ [] (List.append_nil _).symm (by simp [OnlySc]) NoLs.nil rfl rfl rfl rfl rfl
      · exact quiet _ [.scData p] rfl (hd p) (hn p) rfl rfl rfl rfl rfl
    unfold toScData
    split_ifs
    · exact quiet _ _ rfl (hd _) (hn _) rfl rfl rfl rfl rfl
    · exact quiet _ [] (List.append_nil _).symm (by simp [OnlySc]) NoLs.nil rfl rfl rfl rfl rfl
    · exact e3 true
    · exact e3 eom
  · exact quiet _ _ rfl (by simp [OnlySc]) (NoLs.one rfl) rfl rfl rfl rfl rfl
  · rename_i fm fi fv _
    unfold lsEff
    cases fi with
    | zero =>
      rw [if_pos rfl]
      split_ifs with hok
      · refine ⟨[.ls fm 0 fv true], ?_, onlyLs _ _ _ _, ?_, ?_, ?_, ?_, ?_, ?_⟩
        · unfold lsFin lsCredit; split_ifs <;> rfl
        · unfold lsFin lsCredit; split_ifs <;> rfl
        · intro hf
          have : dataCr [.ls fm 0 fv true] = fv := by simp [dataCr]
          rw [this]
          unfold lsFin lsCredit
          split_ifs <;> first | rfl | (exfalso; omega)
        · intro hf
          have : dataCr [.ls fm 0 fv true] = fv := by simp [dataCr]
          rw [this]
          unfold lsFin lsCredit
          split_ifs <;> first | rfl | (exfalso; omega)
        · unfold lsFin lsCredit
          simp only [xonF]
          split_ifs <;> first | rfl | contradiction
        · have : intCr [.ls fm 0 fv true] = 0 := by simp [intCr]
          rw [this, Int.add_zero]
          unfold lsFin lsCredit; split_ifs <;> rfl
        · exact Int.le_refl _
      · refine ⟨[.ls fm 0 fv false], rfl, onlyLs _ _ _ _, rfl, fun _ => (Int.add_zero _).symm,
          fun _ => (Int.add_zero _).symm, rfl, (Int.add_zero _).symm, Int.le_refl _⟩
    | succ n =>
      rw [if_neg (by omega)]
      unfold otherLs
      split_ifs with h0
      · refine ⟨[.ls fm (n + 1) fv true], rfl, onlyLs _ _ _ _, rfl, fun _ => ?_, fun _ => ?_, rfl, ?_, ?_⟩
        · exact (Int.add_zero _).symm
        · exact (Int.add_zero _).symm
        · show c.other.maxmsg + fv = c.other.maxmsg + (fv + 0); omega
        · show 0 ≤ fv + 0; omega
      · refine ⟨[.ls fm (n + 1) fv false], rfl, onlyLs _ _ _ _, rfl, fun _ => ?_, fun _ => ?_, rfl, ?_, ?_⟩
        · exact (Int.add_zero _).symm
        · exact (Int.add_zero _).symm
        · exact (Int.add_zero _).symm
        · exact Int.le_refl _
  · exact quiet _ [] (List.append_nil _).symm (by simp [OnlySc]) NoLs.nil rfl rfl rfl rfl rfl

/-- The number of the message the segment numbered `k` belongs to. -/
def msgOf (segs : List Sg) (k : Nat) : Nat := 1 + (segs.take (k - 1)).countP (·.2.1)

/-- What the credits in `log` allow for the segment numbered `k`. -/
def Allowed (flow : Nat) (segs : List Sg) (log : List Out) (k : Nat) : Prop :=
  xonF true log = true ∧
  (flow = 0 ∨ flow = 1 ∧ (k : Int) ≤ dataCr log ∨ flow = 2 ∧ (msgOf segs k : Int) ≤ dataCr log)

/-- Invariant of the flow control of the data subchannel. -/
structure FlowI (segs : List Sg) (c : Conn) : Prop where
  nx : c.data.nextseg = segs.length + 1
  nm : c.data.nextmsg = 1 + segs.countP (·.2.1)
  q : ∀ x ∈ c.data.pending, ∀ k dly b e p, x.msg.body = .dataSeg k dly b e p →
    1 ≤ k ∧ segs[k - 1]? = some (b, e, p) ∧ x.segnum = k ∧ x.msgnum = msgOf segs k
  cr1 : c.data.flow = 1 → c.data.maxseg = dataCr c.log
  cr2 : c.data.flow = 2 → c.data.maxmsg = dataCr c.log
  xon : c.data.xon = xonF true c.log
  ini : c.state.rank ≤ 1 → (∀ o ∈ c.log, o.isLs = false) ∧ c.data.maxseg = 0 ∧ c.data.maxmsg = 0 ∧
    (∀ m, Out.tx m ∈ c.log → m.body.isData = false) ∧ ∀ x ∈ c.data.pending, x.msg.body.isData = false
  tx : ∀ l1 m l2, c.log = l1 ++ .tx m :: l2 → ∀ k dly b e p, m.body = .dataSeg k dly b e p →
    1 ≤ k ∧ segs[k - 1]? = some (b, e, p) ∧ Allowed c.data.flow segs l1 k

theorem NoLs.of_all {l : List Out} (h : ∀ o ∈ l, o.isLs = false) : NoLs l := by
  induction l with
  | nil => exact NoLs.nil
  | cons o l ih =>
    have h1 := NoLs.one (h o (by simp))
    have h2 := ih (fun o ho => h o (by simp [ho]))
    have e : o :: l = [o] ++ l := rfl
    refine ⟨?_, ?_, ?_, h⟩
    · rw [e, dataCr_append, h1.d, h2.d]; rfl
    · rw [e, intCr_append, h1.i, h2.i]; rfl
    · intro b; rw [e, xonF_append, h1.x, h2.x]

theorem msgOf_append (segs : List Sg) (s : Sg) {k : Nat} (h : k - 1 ≤ segs.length) :
    msgOf (segs ++ [s]) k = msgOf segs k := by
  unfold msgOf
  rw [List.take_append_of_le_length h]

theorem Allowed.app {flow : Nat} {segs : List Sg} {s : Sg} {l : List Out} {k : Nat}
    (h : Allowed flow segs l k) (hk : k - 1 ≤ segs.length) : Allowed flow (segs ++ [s]) l k := by
  refine ⟨h.1, ?_⟩
  rw [msgOf_append segs s hk]; exact h.2

/-- A split of a list with one more entry. -/
theorem split_snoc {α : Type} {l l1 l2 : List α} {a b : α} (h : l ++ [a] = l1 ++ b :: l2) :
    (l2 = [] ∧ a = b ∧ l = l1) ∨ ∃ l3, l2 = l3 ++ [a] ∧ l = l1 ++ b :: l3 := by
  rcases List.eq_nil_or_concat l2 with rfl | ⟨l3, x, rfl⟩
  · left
    obtain ⟨e1, e2⟩ := List.append_inj' h rfl
    refine ⟨rfl, by simpa using e2, e1⟩
  · right
    rw [List.concat_eq_append] at h ⊢
    have h' : l ++ [a] = (l1 ++ b :: l3) ++ [x] := by rw [h]; simp
    obtain ⟨e1, e2⟩ := List.append_inj' h' rfl
    have : a = x := by simpa using e2
    exact ⟨l3, by rw [this], e1⟩

theorem split_ext {l l' l1 l2 : List Out} {m : Msg} (h : l ++ l' = l1 ++ .tx m :: l2)
    (hn : ∀ o ∈ l', ∀ m, o ≠ .tx m) : ∃ l3, l = l1 ++ .tx m :: l3 := by
  rcases List.append_eq_append_iff.1 h with ⟨a, -, h2⟩ | ⟨a, h1, h2⟩
  · exact absurd rfl (hn (.tx m) (by rw [h2]; simp) m)
  · cases a with
    | nil => exact absurd rfl (hn (.tx m) (by rw [List.nil_append] at h2; rw [← h2]; simp) m)
    | cons o a =>
      rw [List.cons_append, List.cons.injEq] at h2
      exact ⟨a, by rw [h1, h2.1]⟩

theorem FlowI.keep {segs : List Sg} {c c' : Conn} (h : FlowI segs c) (l : List Out)
    (hl : c'.log = c.log ++ l) (hn : NoLs l) (ht : ∀ o ∈ l, ∀ m, o ≠ .tx m)
    (hp : ∀ x ∈ c'.data.pending, ∃ y ∈ c.data.pending, x.msg.body = y.msg.body ∧ x.segnum = y.segnum ∧
      x.msgnum = y.msgnum)
    (e1 : c'.data.nextseg = c.data.nextseg) (e2 : c'.data.nextmsg = c.data.nextmsg)
    (e3 : c'.data.flow = c.data.flow) (e4 : c'.data.maxseg = c.data.maxseg)
    (e5 : c'.data.maxmsg = c.data.maxmsg) (e6 : c'.data.xon = c.data.xon)
    (e7 : c.state.rank ≤ c'.state.rank) : FlowI segs c' := by
  refine ⟨by rw [e1]; exact h.nx, by rw [e2]; exact h.nm, ?_, ?_, ?_, ?_, ?_, ?_⟩
  · intro x hx k dly b e p hb
    obtain ⟨y, hy, h1, h2, h3⟩ := hp x hx
    rw [h2, h3]; rw [h1] at hb
    exact h.q y hy k dly b e p hb
  · rw [e3, e4, hl, dataCr_append, hn.d, Int.add_zero]; exact h.cr1
  · rw [e3, e5, hl, dataCr_append, hn.d, Int.add_zero]; exact h.cr2
  · rw [e6, hl, xonF_append, hn.x]; exact h.xon
  · intro hr
    obtain ⟨g1, g2, g3, g4, g5⟩ := h.ini (Nat.le_trans e7 hr)
    rw [hl, e4, e5]
    refine ⟨?_, g2, g3, ?_, ?_⟩
    · intro o ho
      rcases List.mem_append.1 ho with ho | ho
      · exact g1 o ho
      · exact hn.n o ho
    · intro m hm
      rcases List.mem_append.1 hm with hm | hm
      · exact g4 m hm
      · exact absurd rfl (ht _ hm m)
    · intro x hx
      obtain ⟨y, hy, h1, -⟩ := hp x hx
      rw [h1]; exact g5 y hy
  · intro l1 m l2 hs k dly b e p hb
    rw [hl] at hs
    obtain ⟨l3, h3⟩ := split_ext hs ht
    rw [e3]
    exact h.tx l1 m l3 h3 k dly b e p hb

theorem Mi.flow {segs : List Sg} {c c' : Conn} (h : Mi inp c c') (ha : AckI c) (hi : FlowI segs c) :
    ∃ segs', segs <+: segs' ∧ FlowI segs' c' := by
  have idq : ∀ x ∈ c.data.pending, ∃ y ∈ c.data.pending, x.msg.body = y.msg.body ∧ x.segnum = y.segnum ∧
      x.msgnum = y.msgnum := fun x hx => ⟨x, hx, rfl, rfl, rfl⟩
  have hrank := h.rank
  -- a transmission
  have tx : ∀ {c1 : Conn} (m : Msg), FlowI segs c1 → (∀ k dly b e p, m.body = .dataSeg k dly b e p →
      1 ≤ k ∧ segs[k - 1]? = some (b, e, p) ∧ Allowed c1.data.flow segs c1.log k) →
      (m.body.isData = true → 1 < c1.state.rank) → FlowI segs (c1.emit (.tx m)) := by
    intro c1 m h1 h2 h3
    have hn : NoLs [Out.tx m] := NoLs.one rfl
    refine ⟨h1.nx, h1.nm, h1.q, ?_, ?_, ?_, ?_, ?_⟩
    · show _ → c1.data.maxseg = dataCr (c1.log ++ [.tx m])
      rw [dataCr_append, hn.d, Int.add_zero]; exact h1.cr1
    · show _ → c1.data.maxmsg = dataCr (c1.log ++ [.tx m])
      rw [dataCr_append, hn.d, Int.add_zero]; exact h1.cr2
    · show c1.data.xon = xonF true (c1.log ++ [.tx m])
      rw [xonF_append, hn.x]; exact h1.xon
    · intro hr
      obtain ⟨g1, g2, g3, g4, g5⟩ := h1.ini hr
      refine ⟨?_, g2, g3, ?_, g5⟩
      · intro o ho
        rcases List.mem_append.1 ho with ho | ho
        · exact g1 o ho
        · exact hn.n o ho
      · intro m' hm'
        rcases List.mem_append.1 hm' with hm' | hm'
        · exact g4 m' hm'
        · obtain rfl : m' = m := by simpa using hm'
          cases hd : m'.body.isData with
          | false => rfl
          | true => have hr' : c1.state.rank ≤ 1 := hr
                    have := h3 hd
                    omega
    · intro l1 m' l2 hs k dly b e p hb
      have hs' : c1.log ++ [.tx m] = l1 ++ .tx m' :: l2 := hs
      rcases split_snoc hs' with ⟨-, h4, rfl⟩ | ⟨l3, -, h4⟩
      · obtain rfl : m = m' := by simpa using h4
        exact h2 k dly b e p hb
      · exact h1.tx l1 m' l3 h4 k dly b e p hb
  have up : ∀ (c1 : Conn) (ch : Chan) (m : Msg), c1.log = c.log → c1.state = c.state →
      (∀ x ∈ c1.data.pending, x ∈ c.data.pending) → c1.data.nextseg = c.data.nextseg →
      c1.data.nextmsg = c.data.nextmsg → c1.data.flow = c.data.flow → c1.data.maxseg = c.data.maxseg →
      c1.data.maxmsg = c.data.maxmsg → c1.data.xon = c.data.xon → (c.state = .run ∨ c.state = .di) →
      FlowI segs (deliver (book c1 ch m) m) := by
    intro c1 ch m e1 e2 e3 e4 e5 e6 e7 e8 e9 hs
    have h0 : FlowI segs (book c1 ch m) := by
      refine hi.keep [.up ch m] ?_ (NoLs.one rfl) (by simp) ?_ ?_ ?_ ?_ ?_ ?_ ?_ ?_
      · rw [← e1]; cases ch <;> rfl
      · intro x hx
        have : x ∈ c1.data.pending := by cases ch <;> exact hx
        exact idq x (e3 x this)
      · rw [← e4]; cases ch <;> rfl
      · rw [← e5]; cases ch <;> rfl
      · rw [← e6]; cases ch <;> rfl
      · rw [← e7]; cases ch <;> rfl
      · rw [← e8]; cases ch <;> rfl
      · rw [← e9]; cases ch <;> rfl
      · rw [book_state, e2]; exact Nat.le_refl _
    obtain ⟨l, hl, ho, f1, f2, f3, f4, -⟩ := deliver_flow (book c1 ch m) m
    have hst : (deliver (book c1 ch m) m).state = c.state := by
      rw [(sameRecv_deliver _ m).state, book_state, e2]
    have hd := deliver_sub (book c1 ch m) m .data
    refine ⟨?_, ?_, ?_, ?_, ?_, ?_, ?_, ?_⟩
    · rw [show (deliver (book c1 ch m) m).data.nextseg = _ from hd.2.2.2.2]; exact h0.nx
    · rw [show (deliver (book c1 ch m) m).data.nextmsg = _ from hd.2.2.2.1]; exact h0.nm
    · rw [show (deliver (book c1 ch m) m).data.pending = _ from hd.1]; exact h0.q
    · intro hf
      rw [f1] at hf
      rw [f2 hf, hl, dataCr_append, h0.cr1 hf]
    · intro hf
      rw [f1] at hf
      rw [f3 hf, hl, dataCr_append, h0.cr2 hf]
    · rw [f4, hl, xonF_append, h0.xon]
    · intro hr
      rw [hst] at hr
      rcases hs with hs | hs <;> rw [hs] at hr <;> exact absurd hr (by decide)
    · intro l1 m' l2 hs' k dly b e p hb
      rw [hl] at hs'
      obtain ⟨l3, h3⟩ := split_ext hs' (by
        intro o ho' m h
        rcases ho o ho' with ⟨_, h'⟩ | ⟨_, h'⟩ | ⟨_, _, _, _, h'⟩ <;> rw [h'] at h <;> cases h)
      rw [f1]
      exact h0.tx l1 m' l3 h3 k dly b e p hb
  have nolog : (∀ x ∈ c'.data.pending, ∃ y ∈ c.data.pending, x.msg.body = y.msg.body ∧ x.segnum = y.segnum ∧
      x.msgnum = y.msgnum) → c'.log = c.log → c'.data.nextseg = c.data.nextseg →
      c'.data.nextmsg = c.data.nextmsg → c'.data.flow = c.data.flow → c'.data.maxseg = c.data.maxseg →
      c'.data.maxmsg = c.data.maxmsg → c'.data.xon = c.data.xon → ∃ segs', segs <+: segs' ∧ FlowI segs' c' :=
    fun g1 g2 g3 g4 g5 g6 g7 g8 =>
      ⟨segs, List.prefix_rfl, hi.keep [] (by rw [g2, List.append_nil]) NoLs.nil (by simp) g1 g3 g4 g5 g6 g7 g8 hrank⟩
  cases h with
  | flags hs a h a' h' => exact nolog idq rfl rfl rfl rfl rfl rfl rfl
  | timer hs b => exact nolog idq rfl rfl rfl rfl rfl rfl rfl
  | opt b => exact ⟨segs, List.prefix_rfl, hi.keep [.opt b] rfl (NoLs.one rfl) (by simp) idq rfl rfl rfl rfl rfl rfl hrank⟩
  | send hs ch' m hb ha' hch =>
    refine ⟨segs, List.prefix_rfl, tx m hi ?_ ?_⟩
    · intro k dly b e p hb'; rw [hb'] at hb; cases hb
    · intro hd
      obtain ⟨k, dly, bo, eo, p, e⟩ := isData_iff.1 hd
      rw [e] at hb; cases hb
  | fire hs ch' i x m hx ht hr hf =>
    have hxm := List.mem_of_getElem? hx
    have hc := (ha.q ch' x hxm).2
    cases ch' with
    | other =>
      have h1 : FlowI segs (setPending c .other (c.other.pending.set i (fired x m))) :=
        hi.keep [] (List.append_nil _).symm NoLs.nil (by simp) idq rfl rfl rfl rfl rfl rfl (Nat.le_refl _)
      have hnd : m.body.isData = false := by
        rw [hr.isData]
        rcases hc with hc | hc
        · revert hc; cases x.msg.body <;> intro hc <;> first | rfl | cases hc
        · revert hc; cases x.msg.body <;> intro hc <;> first | rfl | cases hc
      refine ⟨segs, List.prefix_rfl, tx m h1 ?_ ?_⟩
      · intro k dly b e p hb; rw [hb] at hnd; cases hnd
      · intro hd; rw [hd] at hnd; cases hnd
    | data =>
      have h1 : FlowI segs (setPending c .data (c.data.pending.set i { x with tries := x.tries + 1, sent := true, timer := true })) := by
        refine hi.keep [] (List.append_nil _).symm NoLs.nil (by simp) ?_ rfl rfl rfl rfl rfl rfl (Nat.le_refl _)
        intro y hy
        rcases List.mem_or_eq_of_mem_set hy with hy | rfl
        · exact idq y hy
        · exact ⟨x, hxm, rfl, rfl, rfl⟩
      have h1' : FlowI segs (setPending c .data (c.data.pending.set i (fired x m))) := by
        by_cases hd : x.msg.body.isData = true
        · refine hi.keep [] (List.append_nil _).symm NoLs.nil (by simp) ?_ rfl rfl rfl rfl rfl rfl (Nat.le_refl _)
          intro y hy
          rcases List.mem_or_eq_of_mem_set hy with hy | rfl
          · exact idq y hy
          · refine ⟨x, hxm, ?_, rfl, rfl⟩
            obtain ⟨k, dly, bo, eo, p, e⟩ := isData_iff.1 hd
            exact hr.data (by rw [e]; rfl)
        · have hnd : x.msg.body.isData = false := by simpa using hd
          refine ⟨hi.nx, hi.nm, ?_, hi.cr1, hi.cr2, hi.xon, ?_, hi.tx⟩
          · intro y hy k dly b e p hb
            rcases List.mem_or_eq_of_mem_set hy with hy | rfl
            · exact hi.q y hy k dly b e p hb
            · have : m.body.isData = true := by
                rw [show m.body = _ from hb]; rfl
              rw [hr.isData, hnd] at this; cases this
          · intro hrk
            obtain ⟨g1, g2, g3, g4, g5⟩ := hi.ini hrk
            refine ⟨g1, g2, g3, g4, ?_⟩
            intro y hy
            rcases List.mem_or_eq_of_mem_set hy with hy | rfl
            · exact g5 y hy
            · show m.body.isData = false
              rw [hr.isData, hnd]
      refine ⟨segs, List.prefix_rfl, tx m h1' ?_ ?_⟩
      · intro k dly b e p hb
        have hd : x.msg.body.isData = true := by rw [← hr.isData, hb]; rfl
        have hb' : x.msg.body = .dataSeg k dly b e p := by
          rw [← hb]
          obtain ⟨k, dly, bo, eo, p, e⟩ := isData_iff.1 hd
          exact (hr.data (by rw [e]; rfl)).symm
        obtain ⟨q1, q2, q3, q4⟩ := hi.q x hxm k dly b e p hb'
        refine ⟨q1, q2, ?_⟩
        have hf' := hf hd
        unfold flowOk at hf'
        rw [q3, q4] at hf'
        simp only [Bool.and_eq_true, Bool.or_eq_true, decide_eq_true_eq, beq_iff_eq] at hf'
        obtain ⟨⟨-, hx'⟩, hfl⟩ := hf'
        refine ⟨hi.xon.symm.trans hx', ?_⟩
        show c.data.flow = 0 ∨ c.data.flow = 1 ∧ (k : Int) ≤ dataCr c.log ∨
          c.data.flow = 2 ∧ (msgOf segs k : Int) ≤ dataCr c.log
        rcases hfl with (h0 | ⟨h1, h2⟩) | ⟨h1, h2⟩
        · exact Or.inl h0
        · rw [hi.cr1 h1] at h2; exact Or.inr (Or.inl ⟨h1, h2⟩)
        · rw [hi.cr2 h1] at h2; exact Or.inr (Or.inr ⟨h1, h2⟩)
      · intro hd
        rw [hr.isData] at hd
        rcases Nat.lt_or_ge 1 c.state.rank with h | h
        · exact h
        · have := (hi.ini h).2.2.2.2 x hxm
          rw [hd] at this; cases this
  | block hs ch' i x hx ht =>
    cases ch' with
    | other => exact nolog idq rfl rfl rfl rfl rfl rfl rfl
    | data =>
      refine nolog ?_ rfl rfl rfl rfl rfl rfl rfl
      intro y hy
      rcases List.mem_or_eq_of_mem_set hy with hy | rfl
      · exact idq y hy
      · exact ⟨x, List.mem_of_getElem? hx, rfl, rfl, rfl⟩
  | idle hs ch' i x hx =>
    cases ch' with
    | other => exact nolog idq rfl rfl rfl rfl rfl rfl rfl
    | data =>
      refine nolog ?_ rfl rfl rfl rfl rfl rfl rfl
      intro y hy
      rcases List.mem_or_eq_of_mem_set hy with hy | rfl
      · exact idq y hy
      · exact ⟨x, List.mem_of_getElem? hx, rfl, rfl, rfl⟩
  | enqCtl hs b hb =>
    have hnd : b.isData = false := by cases b <;> first | rfl | cases hb
    refine ⟨segs, List.prefix_rfl, hi.nx, hi.nm, ?_, hi.cr1, hi.cr2, hi.xon, ?_, hi.tx⟩
    · intro y hy k dly bo e p hb'
      have hy' : y ∈ c.data.pending ++ [{ msg := mk c b }] := hy
      rw [List.mem_append, List.mem_singleton] at hy'
      rcases hy' with hy' | rfl
      · exact hi.q y hy' k dly bo e p hb'
      · have : b = .dataSeg k dly bo e p := hb'
        rw [this] at hnd; cases hnd
    · intro hrk
      obtain ⟨g1, g2, g3, g4, g5⟩ := hi.ini hrk
      refine ⟨g1, g2, g3, g4, ?_⟩
      intro y hy
      have hy' : y ∈ c.data.pending ++ [{ msg := mk c b }] := hy
      rw [List.mem_append, List.mem_singleton] at hy'
      rcases hy' with hy' | rfl
      · exact g5 y hy'
      · exact hnd
  | enqData hs hd bom eom p =>
    refine ⟨segs ++ [(bom, eom, p)], List.prefix_append _ _, ?_, ?_, ?_, hi.cr1, hi.cr2, hi.xon, ?_, ?_⟩
    · show c.data.nextseg + 1 = _
      rw [hi.nx, List.length_append]; rfl
    · show (if eom = true then c.data.nextmsg + 1 else c.data.nextmsg) = _
      rw [hi.nm, List.countP_append, List.countP_cons, List.countP_nil]
      cases eom
      · rfl
      · rfl
    · intro y hy k dly b e p' hb
      have hy' : y ∈ c.data.pending ++ [dataEnt c bom eom p] := hy
      rw [List.mem_append, List.mem_singleton] at hy'
      rcases hy' with hy' | rfl
      · obtain ⟨q1, q2, q3, q4⟩ := hi.q y hy' k dly b e p' hb
        obtain ⟨hlt, -⟩ := List.getElem?_eq_some_iff.1 q2
        exact ⟨q1, by rw [List.getElem?_append_left hlt]; exact q2, q3,
          by rw [msgOf_append segs _ (Nat.le_of_lt hlt)]; exact q4⟩
      · have hb' : Body.dataSeg c.data.nextseg
            (decide (c.cphase ≥ 4 ∧ c.data.pending.length ≤ c.cfg.qmax / 2)) bom eom p =
            .dataSeg k dly b e p' := hb
        cases hb'
        rw [hi.nx]
        refine ⟨Nat.le_add_left _ _, by simp, ?_, ?_⟩
        · exact hi.nx
        · show c.data.nextmsg = _
          rw [hi.nm, msgOf_append segs _ (by simp)]
          unfold msgOf
          rw [Nat.add_sub_cancel, List.take_length]
    · intro hrk
      have hrk' : c.state.rank ≤ 1 := hrk
      rw [hs] at hrk'; exact absurd hrk' (by decide)
    · intro l1 m l2 hsp k dly b e p' hb
      obtain ⟨q1, q2, q3⟩ := hi.tx l1 m l2 hsp k dly b e p' hb
      obtain ⟨hlt, -⟩ := List.getElem?_eq_some_iff.1 q2
      exact ⟨q1, by rw [List.getElem?_append_left hlt]; exact q2, q3.app (Nat.le_of_lt hlt)⟩
  | enqInt hs hd p hp hc => exact nolog idq rfl rfl rfl rfl rfl rfl rfl
  | enqLs hs => exact nolog idq rfl rfl rfl rfl rfl rfl rfl
  | setMax hs ch' k => cases ch' <;> exact nolog idq rfl rfl rfl rfl rfl rfl rfl
  | drop hs ch' n k =>
    cases ch' with
    | other => exact nolog idq rfl rfl rfl rfl rfl rfl rfl
    | data => exact nolog (fun x hx => idq x (List.mem_of_mem_drop hx)) rfl rfl rfl rfl rfl rfl rfl
  | upNew hs ch' m k hi' hm hk ho =>
    exact ⟨segs, List.prefix_rfl, up c ch' m rfl rfl (fun _ h => h) rfl rfl rfl rfl rfl rfl hs⟩
  | upOld hs ch' m hi' hm =>
    refine ⟨segs, List.prefix_rfl, up _ ch' m ?_ ?_ ?_ ?_ ?_ ?_ ?_ ?_ ?_ hs⟩
    · cases ch' <;> rfl
    · cases ch' <;> rfl
    · intro x hx; cases ch' <;> exact hx
    all_goals (cases ch' <;> rfl)
  | oooAdd hs ch' m k hi' hm h1 h2 => cases ch' <;> exact nolog idq rfl rfl rfl rfl rfl rfl rfl
  | confirm hs m n hi' f i s b hb =>
    have hrk : c.state.rank ≤ 1 := by rcases hs with hs | hs <;> rw [hs] <;> decide
    obtain ⟨g1, g2, g3, g4, g5⟩ := hi.ini hrk
    have hn := NoLs.of_all g1
    refine ⟨segs, List.prefix_rfl, hi.nx, hi.nm, hi.q, ?_, ?_, hi.xon, fun _ => ⟨g1, g2, g3, g4, g5⟩, ?_⟩
    · intro _; show c.data.maxseg = dataCr c.log; rw [g2, hn.d]
    · intro _; show c.data.maxmsg = dataCr c.log; rw [g3, hn.d]
    · intro l1 m' l2 hsp k dly b e p hb'
      have hsp' : c.log = l1 ++ .tx m' :: l2 := hsp
      have := g4 m' (by rw [hsp']; simp)
      rw [hb'] at this; cases this
  | setDst hs a => exact nolog idq rfl rfl rfl rfl rfl rfl rfl
  | accepted hs b =>
    exact ⟨segs, List.prefix_rfl, hi.keep [.scAccept b] rfl (NoLs.one rfl) (by simp) idq rfl rfl rfl rfl rfl rfl hrank⟩
  | toCd hs => exact nolog idq rfl rfl rfl rfl rfl rfl rfl
  | toCc hs => exact nolog idq rfl rfl rfl rfl rfl rfl rfl
  | crRun hs => exact nolog idq rfl rfl rfl rfl rfl rfl rfl
  | ccRun hs =>
    exact ⟨segs, List.prefix_rfl, hi.keep [.scRun] rfl (NoLs.one rfl) (by simp) idq rfl rfl rfl rfl rfl rfl hrank⟩
  | clear hs => exact nolog (by intro x hx; cases hx) rfl rfl rfl rfl rfl rfl rfl
  | toDi hs => exact nolog idq rfl rfl rfl rfl rfl rfl rfl
  | shut hs r p => exact nolog idq rfl rfl rfl rfl rfl rfl rfl
  | tell hs r b rej =>
    exact ⟨segs, List.prefix_rfl, hi.keep [.scDisc r b rej] rfl (NoLs.one rfl) (by simp) idq rfl rfl rfl rfl rfl rfl hrank⟩
  | close hs =>
    exact ⟨segs, List.prefix_rfl, hi.keep [.released c.srcaddr] rfl (NoLs.one rfl) (by simp) (by intro x hx; cases hx)
      rfl rfl rfl rfl rfl rfl hrank⟩

theorem start_flow {c : Conn} (h : Start c) : FlowI [] c := by
  cases h with
  | out cfg id p =>
    rw [newOut_form]
    refine ⟨rfl, rfl, ?_, (fun h => by cases h), (fun h => by cases h), rfl, ?_, ?_⟩
    · intro x hx k dly b e p hb
      obtain rfl := List.mem_singleton.1 hx
      cases hb
    · intro _
      refine ⟨by simp [Out.isLs], rfl, rfl, by simp [Body.isData], ?_⟩
      intro x hx
      obtain rfl := List.mem_singleton.1 hx
      rfl
    · intro l1 m l2 hs k dly b e p' hb
      have : Out.tx m ∈ [Out.tx { dst := 0, src := id, body := .connInit false 0 (nspVer cfg.phase) MSS p }] := by
        have hs' : [Out.tx _] = l1 ++ .tx m :: l2 := hs
        rw [hs']; simp
      simp at this
      rw [this] at hb; cases hb
  | inc cfg id r f i s p =>
    rw [newIn_form]
    have hn : NoLs ((if min (nspPhase i) cfg.phase > 2 then
        [Out.tx { dst := r, src := 0, body := .ackConn }] else []) ++ [.scConn p]) := by
      apply NoLs.of_all
      split_ifs <;> simp [Out.isLs]
    refine ⟨rfl, rfl, ?_, ?_, ?_, ?_, ?_, ?_⟩
    · intro x hx; cases hx
    · intro _; dsimp only; rw [hn.d]
    · intro _; dsimp only; rw [hn.d]
    · dsimp only; rw [hn.x]
    · intro h; exact absurd (show (2 : Nat) ≤ 1 from h) (by decide)
    · intro l1 m l2 hs k dly b e p' hb
      have : Out.tx m ∈ (if min (nspPhase i) cfg.phase > 2 then
        [Out.tx { dst := r, src := 0, body := .ackConn }] else []) ++ [.scConn p] := by
        dsimp only at hs; rw [hs]; simp
      split_ifs at this <;> simp at this
      rw [this] at hb; cases hb

theorem Run.flow {c0 c : Conn} {es : List Ev} (h : Run c0 es c) (h0 : Start c0) : ∃ segs, FlowI segs c := by
  have := h.inv (P := fun c => AckI c ∧ ∃ segs, FlowI segs c)
    (fun _ _ _ hm hp => ⟨hm.ackI hp.1, by
      obtain ⟨s, hs⟩ := hp.2
      obtain ⟨s', -, h'⟩ := hm.flow hp.1 hs
      exact ⟨s', h'⟩⟩)
    (start_base h0) ⟨start_ackI h0, _, start_flow h0⟩
  exact this.2

/-! ### Interrupts -/

/-- `ints` are the interrupts accepted so far, with their numbers. -/
structure IntI (ints : List (Nat × Bytes)) (c : Conn) : Prop where
  len : ints.length + 1 ≤ c.other.nextmsg
  cr : c.other.maxmsg = 1 + intCr c.log
  lim : (ints.length : Int) ≤ 1 + intCr c.log
  lab : (ints.map (·.1)).Nodup
  bnd : ∀ x ∈ ints, x.1 < c.other.seqnum ∧ x.2.length ≤ 16
  q : ∀ x ∈ c.other.pending, ∀ k p, x.msg.body = .intMsg k p → (k, p) ∈ ints
  tx : ∀ m, Out.tx m ∈ c.log → ∀ k p, m.body = .intMsg k p → (k, p) ∈ ints

theorem Mi.ints {ints : List (Nat × Bytes)} {c c' : Conn} (h : Mi inp c c') (ha : AckI c)
    (hi : IntI ints c) : ∃ ints', IntI ints' c' := by
  -- the queue, unless an interrupt is added
  have hq : (∀ p, c'.other.pending ≠ c.other.pending ++
      [{ msg := mk c (.intMsg c.other.seqnum p), msgnum := c.other.nextmsg }]) →
      ∀ x ∈ c'.other.pending, ∀ k p, x.msg.body = .intMsg k p → (k, p) ∈ ints := by
    intro hne x hx k p hb
    have hqq : QCh inp c .other c.other.pending c'.other.pending := h.queue .other
    generalize c'.other.pending = q' at hqq hx hne
    generalize hqe : c.other.pending = q at hqq hne
    have hold : ∀ y ∈ q, y.msg.body = .intMsg k p → (k, p) ∈ ints := by
      rw [← hqe]; exact fun y hy => hi.q y hy k p
    have hset : ∀ (i : Nat) (y z : QEnt), q[i]? = some y → x ∈ q.set i z →
        (z.msg.body = .intMsg k p → y.msg.body = .intMsg k p) → (k, p) ∈ ints := by
      intro i y z hy hx hz
      rcases List.mem_or_eq_of_mem_set hx with hx | rfl
      · exact hold x hx hb
      · exact hold y (List.mem_of_getElem? hy) (hz hb)
    cases hqq with
    | same => exact hold x hx hb
    | fire i y m hy ht hr hf =>
      refine hset i y _ hy hx (fun hz => ?_)
      have hz' : m.body = .intMsg k p := hz
      rcases hr.body with h | ⟨_, _, _, _, _, _, h1, h2⟩
      · rw [← h]; exact hz'
      · rw [h2] at hz'; cases hz'
    | block i y hy ht => exact hset i y _ hy hx (fun hz => hz)
    | idle i y hy => exact hset i y _ hy hx (fun hz => hz)
    | ctl b hb' hc => cases hc
    | data bom eom p hs hc => cases hc
    | int p' hp hs hm hc => exact absurd rfl (hne p')
    | ls hc =>
      rw [List.mem_append, List.mem_singleton] at hx
      rcases hx with hx | rfl
      · exact hold x hx hb
      · cases hb
    | drop n => exact hold x (List.mem_of_mem_drop hx) hb
    | clear => cases hx
  have htx : ∀ m, Out.tx m ∈ c'.log → ∀ k p, m.body = .intMsg k p → (k, p) ∈ ints := by
    intro m hm k p hb
    rcases h.txs m hm with hm | ⟨ch', hb', -⟩ | ⟨ch', i, x, hx, ht, hr, hf⟩
    · exact hi.tx m hm k p hb
    · rw [hb] at hb'; cases hb'
    · have hb' : x.msg.body = .intMsg k p := by
        rcases hr.body with h | ⟨_, _, _, _, _, _, h1, h2⟩
        · rw [← h]; exact hb
        · rw [h2] at hb; cases hb
      have hc := (ha.q ch' x (List.mem_of_getElem? hx)).2
      rw [hb'] at hc
      cases ch' with
      | data => rcases hc with hc | hc <;> cases hc
      | other => exact hi.q x (List.mem_of_getElem? hx) k p hb'
  -- everything but a new interrupt
  have keep : ∀ l, c'.log = c.log ++ l → 0 ≤ intCr l → c.other.nextmsg ≤ c'.other.nextmsg →
      c'.other.maxmsg = c.other.maxmsg + intCr l → c.other.seqnum ≤ c'.other.seqnum →
      (∀ p, c'.other.pending ≠ c.other.pending ++
        [{ msg := mk c (.intMsg c.other.seqnum p), msgnum := c.other.nextmsg }]) →
      ∃ ints', IntI ints' c' := by
    intro l e1 e2 e3 e4 e5 e6
    refine ⟨ints, ?_, ?_, ?_, hi.lab, ?_, hq e6, htx⟩
    · have := hi.len; omega
    · rw [e4, e1, intCr_append, hi.cr]; omega
    · rw [e1, intCr_append]; have := hi.lim; omega
    · intro x hx; have := hi.bnd x hx; exact ⟨by omega, this.2⟩
  have ne : ∀ {q : List QEnt}, q.length ≤ c.other.pending.length → ∀ p, q ≠ c.other.pending ++
        [{ msg := mk c (.intMsg c.other.seqnum p), msgnum := c.other.nextmsg }] := by
    intro q hq p he
    rw [he, List.length_append] at hq
    simp only [List.length_cons, List.length_nil] at hq
    omega
  have plain : ∀ l, NoLs l → c'.log = c.log ++ l → c.other.nextmsg ≤ c'.other.nextmsg →
      c'.other.maxmsg = c.other.maxmsg → c.other.seqnum ≤ c'.other.seqnum →
      (∀ p, c'.other.pending ≠ c.other.pending ++
        [{ msg := mk c (.intMsg c.other.seqnum p), msgnum := c.other.nextmsg }]) →
      ∃ ints', IntI ints' c' := fun l hl e1 e2 e3 e4 e5 =>
    keep l e1 (by rw [hl.i]; exact Int.le_refl _) e2 (by rw [hl.i, e3]; omega) e4 e5
  have quiet : c'.log = c.log → c'.other.nextmsg = c.other.nextmsg →
      c'.other.maxmsg = c.other.maxmsg → c'.other.seqnum = c.other.seqnum →
      c'.other.pending.length ≤ c.other.pending.length → ∃ ints', IntI ints' c' :=
    fun e1 e2 e3 e4 e5 => plain [] NoLs.nil (by rw [e1, List.append_nil]) (by omega) e3 (by omega) (ne e5)
  have up : ∀ (c1 : Conn) (ch : Chan) (m : Msg), c' = deliver (book c1 ch m) m → c1.log = c.log →
      c1.other.nextmsg = c.other.nextmsg → c1.other.maxmsg = c.other.maxmsg →
      c1.other.seqnum = c.other.seqnum → c1.other.pending = c.other.pending → ∃ ints', IntI ints' c' := by
    intro c1 ch m e0 e1 e2 e3 e4 e5
    obtain ⟨l, hl, ho, -, -, -, -, f5, f6⟩ := deliver_flow (book c1 ch m) m
    have hd := deliver_sub (book c1 ch m) m .other
    have hb := book_sub c1 m ch .other
    have hbm : (book c1 ch m).other.maxmsg = c1.other.maxmsg := by cases ch <;> rfl
    have hbl : (book c1 ch m).log = c1.log ++ [.up ch m] := by cases ch <;> rfl
    refine keep ([.up ch m] ++ l) ?_ ?_ ?_ ?_ ?_ ?_
    · rw [e0, hl, hbl, e1, List.append_assoc]
    · rw [intCr_append]
      have : intCr [.up ch m] = 0 := rfl
      omega
    · rw [e0]
      have h1 : (deliver (book c1 ch m) m).other.nextmsg = c1.other.nextmsg := hd.2.2.2.1.trans hb.2.2.2.1
      omega
    · rw [e0, f5, hbm, e3, intCr_append]
      have : intCr [.up ch m] = 0 := rfl
      omega
    · rw [e0, (deliver_seqnum _ m).1]
      have : (book c1 ch m).other.seqnum = c1.other.seqnum := by cases ch <;> rfl
      omega
    · apply ne
      have h1 : (deliver (book c1 ch m) m).other.pending = c1.other.pending := hd.1.trans hb.1
      rw [e0, h1, e5]; exact Nat.le_refl _
  cases h with
  | opt b => exact plain [.opt b] (NoLs.one rfl) rfl (Nat.le_refl _) rfl (Nat.le_refl _) (ne (Nat.le_refl _))
  | send hs ch' m hb ha' hch =>
    exact plain [.tx m] (NoLs.one rfl) rfl (Nat.le_refl _) rfl (Nat.le_refl _) (ne (Nat.le_refl _))
  | fire hs ch' i x m hx ht hr hf =>
    cases ch' with
    | data => exact plain [.tx m] (NoLs.one rfl) rfl (Nat.le_refl _) rfl (Nat.le_refl _) (ne (Nat.le_refl _))
    | other =>
      exact plain [.tx m] (NoLs.one rfl) rfl (Nat.le_refl _) rfl (Nat.le_refl _)
        (ne (by show (c.other.pending.set i _).length ≤ _; rw [List.length_set]; exact Nat.le_refl _))
  | block hs ch' i x hx ht =>
    cases ch' with
    | data => exact quiet rfl rfl rfl rfl (Nat.le_refl _)
    | other => exact quiet rfl rfl rfl rfl (by show (c.other.pending.set i _).length ≤ _; rw [List.length_set]; exact Nat.le_refl _)
  | idle hs ch' i x hx =>
    cases ch' with
    | data => exact quiet rfl rfl rfl rfl (Nat.le_refl _)
    | other => exact quiet rfl rfl rfl rfl (by show (c.other.pending.set i _).length ≤ _; rw [List.length_set]; exact Nat.le_refl _)
  | enqInt hs hd p hp hc =>
    have hlen := hi.len
    have hcr := hi.cr
    refine ⟨ints ++ [(c.other.seqnum, p)], ?_, hi.cr, ?_, ?_, ?_, ?_, ?_⟩
    · show (ints ++ [(c.other.seqnum, p)]).length + 1 ≤ c.other.nextmsg + 1
      rw [List.length_append]; simp; omega
    · show ((ints ++ [(c.other.seqnum, p)]).length : Int) ≤ 1 + intCr c.log
      rw [List.length_append]
      simp only [List.length_cons, List.length_nil]
      omega
    · rw [List.map_append, List.nodup_append]
      refine ⟨hi.lab, by simp, ?_⟩
      intro a ha b hb
      obtain ⟨x, hx, rfl⟩ := List.mem_map.1 ha
      have := (hi.bnd x hx).1
      have : b = c.other.seqnum := by simpa using hb
      omega
    · intro x hx
      show x.1 < c.other.seqnum + 1 ∧ _
      rw [List.mem_append, List.mem_singleton] at hx
      rcases hx with hx | rfl
      · have := hi.bnd x hx; exact ⟨by omega, this.2⟩
      · exact ⟨Nat.lt_succ_self _, hp⟩
    · intro x hx k p' hb
      have hx' : x ∈ c.other.pending ++
        [{ msg := mk c (.intMsg c.other.seqnum p), msgnum := c.other.nextmsg }] := hx
      rw [List.mem_append, List.mem_singleton] at hx'
      rw [List.mem_append]
      rcases hx' with hx' | rfl
      · exact Or.inl (hi.q x hx' k p' hb)
      · right
        have hb' : Body.intMsg c.other.seqnum p = .intMsg k p' := hb
        cases hb'; simp
    · intro m hm k p' hb
      exact List.mem_append.2 (Or.inl (hi.tx m hm k p' hb))
  | enqLs hs =>
    refine plain [] NoLs.nil (List.append_nil _).symm (Nat.le_succ _) rfl (Nat.le_succ _) ?_
    intro p he
    have he' : c.other.pending ++ [{ msg := mk c (.linkSvc c.other.seqnum 0 0 0), msgnum := c.other.nextmsg }] =
      c.other.pending ++ [{ msg := mk c (.intMsg c.other.seqnum p), msgnum := c.other.nextmsg }] := he
    have := List.append_cancel_left he'
    simp [mk] at this
  | setMax hs ch' k => cases ch' <;> exact quiet rfl rfl rfl rfl (Nat.le_refl _)
  | drop hs ch' n k =>
    cases ch' with
    | data => exact quiet rfl rfl rfl rfl (Nat.le_refl _)
    | other => exact quiet rfl rfl rfl rfl (by show (c.other.pending.drop n).length ≤ _; rw [List.length_drop]; omega)
  | upNew hs ch' m k hi' hm hk ho => exact up c ch' m rfl rfl rfl rfl rfl rfl
  | upOld hs ch' m hi' hm =>
    refine up _ ch' m rfl ?_ ?_ ?_ ?_ ?_ <;> cases ch' <;> rfl
  | oooAdd hs ch' m k hi' hm h1 h2 => cases ch' <;> exact quiet rfl rfl rfl rfl (Nat.le_refl _)
  | accepted hs b => exact plain [.scAccept b] (NoLs.one rfl) rfl (Nat.le_refl _) rfl (Nat.le_refl _) (ne (Nat.le_refl _))
  | ccRun hs => exact plain [.scRun] (NoLs.one rfl) rfl (Nat.le_refl _) rfl (Nat.le_refl _) (ne (Nat.le_refl _))
  | tell hs r b rej =>
    exact plain [.scDisc r b rej] (NoLs.one rfl) rfl (Nat.le_refl _) rfl (Nat.le_refl _) (ne (Nat.le_refl _))
  | clear hs => exact quiet rfl rfl rfl rfl (Nat.zero_le _)
  | close hs =>
    exact plain [.released c.srcaddr] (NoLs.one rfl) rfl (Nat.le_refl _) rfl (Nat.le_refl _) (ne (Nat.zero_le _))
  | _ => exact quiet rfl rfl rfl rfl (Nat.le_refl _)

theorem start_ints {c : Conn} (h : Start c) : IntI [] c := by
  have hlog : (∀ m, Out.tx m ∈ c.log → ∀ k p, m.body ≠ .intMsg k p) ∧ (∀ o ∈ c.log, o.isLs = false) := by
    cases h with
    | out cfg id p =>
      rw [newOut_form]
      refine ⟨?_, by simp [Out.isLs]⟩
      intro m hm k p'
      simp at hm
      rw [hm]; simp
    | inc cfg id r f i s p =>
      rw [newIn_form]
      refine ⟨?_, ?_⟩
      · intro m hm k p'
        dsimp only at hm
        split_ifs at hm <;> simp at hm
        rw [hm]; simp
      · dsimp only; split_ifs <;> simp [Out.isLs]
  have hn := NoLs.of_all hlog.2
  have hs : c.other = { maxmsg := 1, flow := 2 } := by
    cases h with
    | out cfg id p => rw [newOut_form]
    | inc cfg id r f i s p => rw [newIn_form]
  refine ⟨by rw [hs]; decide, by rw [hs, hn.i]; rfl, by rw [hn.i]; decide, by simp, by simp, ?_, ?_⟩
  · rw [hs]; intro x hx; cases hx
  · intro m hm k p hb; exact absurd hb (hlog.1 m hm k p)

theorem Run.ints {c0 c : Conn} {es : List Ev} (h : Run c0 es c) (h0 : Start c0) : ∃ ints, IntI ints c := by
  have := h.inv (P := fun c => AckI c ∧ ∃ ints, IntI ints c)
    (fun _ _ _ hm hp => ⟨hm.ackI hp.1, by obtain ⟨s, hs⟩ := hp.2; exact hm.ints hp.1 hs⟩)
    (start_base h0) ⟨start_ackI h0, _, start_ints h0⟩
  exact this.2

end Verif.Nsp
