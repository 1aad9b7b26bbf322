import Verif.Nsp.Recv

/-! Reassembly of data messages. -/
namespace Verif.Nsp

variable {inp : Inp}

/-- `Connection.to_sc` seen as a specification of reassembly: the parts collected so far and the
messages completed, when the data segments `l` (flags and payload) arrive in that order. -/
def reasm : List Bytes → List Sg → List Bytes × List Bytes
  | asm, [] => (asm, [])
  | asm, (_, eom, p) :: l =>
    if eom then ((reasm [] l).1, (asm ++ [p]).flatten :: (reasm [] l).2)
    else reasm (asm ++ [p]) l

theorem reasm_cons_false (a : List Bytes) (b : Bool) (p : Bytes) (l : List Sg) :
    reasm a ((b, false, p) :: l) = reasm (a ++ [p]) l := rfl

theorem reasm_cons_true (a : List Bytes) (b : Bool) (p : Bytes) (l : List Sg) :
    reasm a ((b, true, p) :: l) = ((reasm [] l).1, (a ++ [p]).flatten :: (reasm [] l).2) := rfl

theorem reasm_append (a : List Bytes) (l l' : List Sg) : reasm a (l ++ l') =
    ((reasm (reasm a l).1 l').1, (reasm a l).2 ++ (reasm (reasm a l).1 l').2) := by
  induction l generalizing a with
  | nil => rfl
  | cons x l ih =>
    obtain ⟨b, e, p⟩ := x
    rw [List.cons_append]
    cases e
    · rw [reasm_cons_false, reasm_cons_false]; exact ih _
    · rw [reasm_cons_true, reasm_cons_true, ih]
      rfl

theorem reasm_prefix (a : List Bytes) (l l' : List Sg) : (reasm a l).2 <+: (reasm a (l ++ l')).2 := by
  rw [reasm_append]
  exact List.prefix_append _ _

/-- The data messages given to session control, oldest first. -/
def scDatas : List Out → List Bytes
  | [] => []
  | .scData b :: l => b :: scDatas l
  | _ :: l => scDatas l

theorem scDatas_append (a b : List Out) : scDatas (a ++ b) = scDatas a ++ scDatas b := by
  induction a with
  | nil => rfl
  | cons o l ih =>
    rw [List.cons_append]
    cases o <;> simp only [scDatas, ih]
    rfl

/-- Flags and payload of a data segment. -/
def Msg.sg (m : Msg) : Option Sg :=
  match m.body with
  | .dataSeg _ _ b e p => some (b, e, p)
  | _ => none

/-- The data segments the data subchannel passed up, in order. -/
def upSegs (log : List Out) : List Sg := (ups .data log).filterMap Msg.sg

theorem upSegs_append (a b : List Out) : upSegs (a ++ b) = upSegs a ++ upSegs b := by
  unfold upSegs; rw [ups_append, List.filterMap_append]

/-- An entry that has nothing to do with received data or the RSTS option. -/
def Out.plain : Out → Bool
  | .up .. | .scData _ | .opt _ => false
  | _ => true

/-- What a small change does as far as reassembly is concerned. -/
inductive RCh (c : Conn) : Conn → Prop
  | same (c' : Conn) (l : List Out) (ha : c'.asm = c.asm) (hr : c'.rsts = c.rsts)
      (hl : c'.log = c.log ++ l) (hp : ∀ o ∈ l, o.plain = true) : RCh c c'
  | opt (b : Bool) : RCh c ({ c with rsts := b }.emit (.opt b))
  | up (c1 : Conn) (ha : c1.asm = c.asm) (hr : c1.rsts = c.rsts) (hl : c1.log = c.log)
      (ch : Chan) (m : Msg) (k : Nat) (hm : m.body.seq = some (ch, k)) :
      RCh c (deliver (book c1 ch m) m)

theorem Mi.rch {c c' : Conn} (h : Mi inp c c') (hr : Rcv c) : RCh c c' := by
  have nil : ∀ c' : Conn, c'.asm = c.asm → c'.rsts = c.rsts → c'.log = c.log → RCh c c' :=
    fun c' h1 h2 h3 => .same c' [] h1 h2 (by rw [h3]; simp) (by simp)
  have one : ∀ (c' : Conn) (o : Out), c'.asm = c.asm → c'.rsts = c.rsts → c'.log = c.log ++ [o] →
      o.plain = true → RCh c c' :=
    fun c' o h1 h2 h3 h4 => .same c' [o] h1 h2 h3 (fun o' ho' => by
      rw [List.mem_singleton] at ho'; rw [ho']; exact h4)
  cases h with
  | flags hs a h a' h' => exact nil _ rfl rfl rfl
  | timer hs b => exact nil _ rfl rfl rfl
  | opt b => exact .opt b
  | send hs ch' m hb ha hch => exact one _ _ rfl rfl rfl rfl
  | fire hs ch' i x m hx ht hr' hf =>
    exact one _ (.tx m) (by cases ch' <;> rfl) (by cases ch' <;> rfl) (by cases ch' <;> rfl) rfl
  | block hs ch' i x hx ht =>
    exact nil _ (by cases ch' <;> rfl) (by cases ch' <;> rfl) (by cases ch' <;> rfl)
  | idle hs ch' i x hx =>
    exact nil _ (by cases ch' <;> rfl) (by cases ch' <;> rfl) (by cases ch' <;> rfl)
  | enqCtl hs b hb => exact nil _ rfl rfl rfl
  | enqData hs hd bom eom p => exact nil _ rfl rfl rfl
  | enqInt hs hd p hp hc => exact nil _ rfl rfl rfl
  | enqLs hs => exact nil _ rfl rfl rfl
  | setMax hs ch' k =>
    exact nil _ (by cases ch' <;> rfl) (by cases ch' <;> rfl) (by cases ch' <;> rfl)
  | drop hs ch' n k =>
    exact nil _ (by cases ch' <;> rfl) (by cases ch' <;> rfl) (by cases ch' <;> rfl)
  | upNew hs ch' m k hi hm hk ho => exact .up c rfl rfl rfl ch' m k hm
  | upOld hs ch' m hi hm =>
    obtain ⟨k, h1, h2⟩ := hr.ooo ch' _ (oooFind_mem hm)
    exact .up _ (by cases ch' <;> rfl) (by cases ch' <;> rfl) (by cases ch' <;> rfl) ch' m k h1
  | oooAdd hs ch' m k hi hm h1 h2 =>
    exact nil _ (by cases ch' <;> rfl) (by cases ch' <;> rfl) (by cases ch' <;> rfl)
  | confirm hs m n hi f i s b hb => exact nil _ rfl rfl rfl
  | setDst hs a => exact nil _ rfl rfl rfl
  | accepted hs b => exact one _ (.scAccept b) rfl rfl rfl rfl
  | toCd hs => exact nil _ rfl rfl rfl
  | toCc hs => exact nil _ rfl rfl rfl
  | crRun hs => exact nil _ rfl rfl rfl
  | ccRun hs => exact one _ .scRun rfl rfl rfl rfl
  | clear hs => exact nil _ rfl rfl rfl
  | toDi hs => exact nil _ rfl rfl rfl
  | shut hs r p => exact nil _ rfl rfl rfl
  | tell hs r b rej => exact one _ (.scDisc r b rej) rfl rfl rfl rfl
  | close hs => exact one _ (.released c.srcaddr) rfl rfl rfl rfl

theorem plain_scDatas {l : List Out} (h : ∀ o ∈ l, o.plain = true) : scDatas l = [] := by
  induction l with
  | nil => rfl
  | cons o l ih =>
    have h1 := h o (by simp)
    have h2 := ih (fun o ho => h o (by simp [ho]))
    cases o <;> first | exact h2 | cases h1

theorem plain_ups {l : List Out} (h : ∀ o ∈ l, o.plain = true) (ch : Chan) : ups ch l = [] := by
  induction l with
  | nil => rfl
  | cons o l ih =>
    have h1 := h o (by simp)
    have h2 := ih (fun o ho => h o (by simp [ho]))
    cases o <;> first | exact h2 | cases h1

/-- Without the RSTS option, what session control got is the reassembly of what was passed up. -/
def Asm (c : Conn) : Prop :=
  Out.opt true ∉ c.log → c.rsts = false ∧ reasm [] (upSegs c.log) = (c.asm, scDatas c.log)

theorem toScData_noRsts {c : Conn} (h : c.rsts = false) (bom eom : Bool) (p : Bytes) :
    toScData c bom eom p = if eom then { c with asm := [] }.emit (.scData (c.asm ++ [p]).flatten)
      else { c with asm := c.asm ++ [p] } := by
  unfold toScData
  by_cases ha : c.asm = []
  · have h1 : (if (!bom && c.rsts) = true then true else eom) = eom := by rw [h]; cases bom <;> rfl
    rw [if_neg (by simpa using ha)]
    dsimp only
    rw [h1]
    cases eom
    · simp [ha]
    · simp [ha, Conn.emit]
  · rw [if_pos ha]

theorem RCh.asm {c c' : Conn} (h : RCh c c') (ha : Asm c) : Asm c' := by
  cases h with
  | same l =>
    rename_i h4 h1 h2 h3
    intro hn
    rw [h3] at hn
    obtain ⟨a1, a2⟩ := ha (fun h => hn (by simp [h]))
    rw [h1, h2, h3, upSegs_append, scDatas_append, plain_scDatas h4]
    unfold upSegs at a2 ⊢
    rw [plain_ups h4]
    simp [a1, a2]
  | opt b =>
    intro hn
    have hl : ({ c with rsts := b }.emit (.opt b)).log = c.log ++ [.opt b] := rfl
    rw [hl] at hn
    obtain ⟨a1, a2⟩ := ha (fun h => hn (by simp [h]))
    have hb : b = false := by
      cases b
      · rfl
      · exact absurd (by simp) hn
    subst hb
    refine ⟨rfl, ?_⟩
    rw [hl, upSegs_append, scDatas_append]
    have : upSegs [Out.opt false] = [] := rfl
    simp [this, scDatas, a2]
    rfl
  | up c1 e1 e2 e3 ch m k hm =>
    have hb : (book c1 ch m).log = c.log ++ [.up ch m] := by rw [← e3]; cases ch <;> rfl
    have hba : (book c1 ch m).asm = c.asm := by rw [← e1]; cases ch <;> rfl
    have hbr : (book c1 ch m).rsts = c.rsts := by rw [← e2]; cases ch <;> rfl
    generalize hg : book c1 ch m = g at *
    clear hg e1 e2 e3
    -- entries that are not data do nothing
    have other : ∀ g' : Conn, m.sg = none → (∃ l, g'.log = g.log ++ l ∧ (∀ o ∈ l, o.plain = true)) →
        g'.asm = g.asm → g'.rsts = g.rsts → Asm g' := by
      rintro g' hsg ⟨l, h1, h2⟩ h3 h4 hn
      rw [h1, hb] at hn
      obtain ⟨a1, a2⟩ := ha (fun h => hn (by simp [h]))
      have hu : upSegs [Out.up ch m] = [] := by
        unfold upSegs ups
        split_ifs
        · simp [ups, hsg]
        · rfl
      rw [h4, hbr, h3, hba, h1, hb, upSegs_append, upSegs_append, hu, scDatas_append, scDatas_append,
        plain_scDatas h2]
      have : upSegs l = [] := by unfold upSegs; rw [plain_ups h2]; rfl
      rw [this]
      simp [a1, a2, scDatas]
    unfold deliver
    cases hmb : m.body with
    | dataSeg k' dly bom eom p =>
      rw [hmb] at hm
      have hch : ch = .data := by
        have := Option.some.inj hm
        exact (Prod.mk.inj this).1.symm
      subst hch
      dsimp only
      intro hn
      have hno : Out.opt true ∉ c.log := by
        intro hmem
        apply hn
        have : ∃ l, (toScData g bom eom p).log = g.log ++ l := by
          have := (deliver_log g m)
          obtain ⟨l, hl, _⟩ := this
          unfold deliver at hl
          rw [hmb] at hl
          exact ⟨l, hl⟩
        obtain ⟨l, hl⟩ := this
        rw [hl, hb]
        simp [hmem]
      obtain ⟨a1, a2⟩ := ha hno
      rw [toScData_noRsts (hbr.trans a1)]
      have hsg : m.sg = some (bom, eom, p) := by unfold Msg.sg; rw [hmb]
      have hu : upSegs [Out.up .data m] = [(bom, eom, p)] := by
        unfold upSegs
        simp [ups, hsg]
      cases eom
      · rw [if_neg (by decide)]
        refine ⟨hbr.trans a1, ?_⟩
        show reasm [] (upSegs g.log) = (g.asm ++ [p], scDatas g.log)
        rw [hb, upSegs_append, scDatas_append, hu, reasm_append, a2, hba]
        simp [reasm, scDatas]
      · rw [if_pos rfl]
        refine ⟨hbr.trans a1, ?_⟩
        show reasm [] (upSegs (g.log ++ [.scData (g.asm ++ [p]).flatten])) =
          ([], scDatas (g.log ++ [.scData (g.asm ++ [p]).flatten]))
        rw [hb, upSegs_append, upSegs_append, scDatas_append, scDatas_append, hu, hba]
        have : upSegs [Out.scData (c.asm ++ [p]).flatten] = [] := rfl
        rw [this, List.append_nil, reasm_append, a2]
        simp [reasm, scDatas]
    | intMsg k' p =>
      exact other _ (by unfold Msg.sg; rw [hmb]) ⟨[.scInt p], rfl, by simp [Out.plain]⟩ rfl rfl
    | linkSvc k' fm fi fv =>
      have : ∃ l, (lsEff g fm fi fv).log = g.log ++ l ∧ (∀ o ∈ l, o.plain = true) := by
        have hls : ∀ fm fi fv ok, ∃ l, g.log ++ [Out.ls fm fi fv ok] = g.log ++ l ∧
            ∀ o ∈ l, o.plain = true := fun fm fi fv ok => ⟨_, rfl, fun o ho => by
              rw [List.mem_singleton] at ho; rw [ho]; rfl⟩
        unfold lsEff lsFin lsCredit otherLs
        split_ifs <;> exact hls _ _ _ _
      show Asm (lsEff g fm fi fv)
      refine other _ (by unfold Msg.sg; rw [hmb]) this ?_ ?_
      · unfold lsEff lsFin lsCredit otherLs
        split_ifs <;> rfl
      · unfold lsEff lsFin lsCredit otherLs
        split_ifs <;> rfl
    | _ => rw [hmb] at hm; cases hm

theorem start_asm {c : Conn} (h : Start c) : Asm c := by
  cases h with
  | out cfg id p =>
    rw [newOut_form]
    intro _
    exact ⟨rfl, rfl⟩
  | inc cfg id r f i s p =>
    rw [newIn_form]
    intro _
    refine ⟨rfl, ?_⟩
    dsimp only
    split_ifs <;> rfl

theorem Run.asm {c0 c : Conn} {es : List Ev} (h : Run c0 es c) (h0 : Start c0) : Asm c :=
  (h.inv (P := fun c => Rcv c ∧ Asm c) (fun _ _ _ hm hp => ⟨hm.rcv hp.1, (hm.rch hp.1).asm hp.2⟩)
    (start_base h0) ⟨start_rcv h0, start_asm h0⟩).2

/-- Cutting a message up and putting it together. -/
theorem slices_zero (n : Nat) : slices n [] = [] := by
  unfold slices
  rcases Nat.eq_zero_or_pos n with rfl | hn
  · rfl
  · have : (([] : Bytes).length + n - 1) / n = 0 := Nat.div_eq_of_lt (by simp; omega)
    rw [this]; rfl

theorem slices_cons (n : Nat) (hn : 0 < n) (d : Bytes) (hd : d ≠ []) :
    slices n d = (true, decide (d.length ≤ n), d.take n) ::
      (slices n (d.drop n)).map (fun x => (false, x.2.1, x.2.2)) := by
  have hl : 0 < d.length := List.length_pos_iff.2 hd
  have h1 : (d.length + n - 1) / n = (d.length - n + n - 1) / n + 1 := by
    rcases Nat.lt_or_ge d.length n with h | h
    · have e1 : (d.length + n - 1) / n = 1 := by
        rw [show d.length + n - 1 = (d.length - 1) + n by omega, Nat.add_div_right _ hn,
          Nat.div_eq_of_lt (by omega)]
      have e2 : (d.length - n + n - 1) / n = 0 := Nat.div_eq_of_lt (by omega)
      rw [e1, e2]
    · rw [← Nat.add_div_right _ hn]
      congr 1
      omega
  unfold slices
  rw [h1, List.range_succ_eq_map, List.map_cons, List.map_map, List.map_map, List.length_drop]
  congr 1
  · simp
  · apply List.map_congr_left
    intro j _
    have hj : Nat.succ j * n = n + j * n := by rw [Nat.succ_mul, Nat.add_comm]
    simp only [Function.comp, List.drop_drop, hj]
    have : d.length - (n + j * n) = d.length - n - j * n := by omega
    rw [this]
    simp

theorem reasm_map (a : List Bytes) (l : List Sg) :
    reasm a (l.map (fun x => (false, x.2.1, x.2.2))) = reasm a l := by
  induction l generalizing a with
  | nil => rfl
  | cons x l ih =>
    obtain ⟨b, e, p⟩ := x
    rw [List.map_cons]
    unfold reasm
    rw [ih, ih]

theorem reasm_slices_aux (n : Nat) (hn : 0 < n) (k : Nat) : ∀ (d : Bytes), d.length ≤ k → d ≠ [] →
    ∀ a, reasm a (slices n d) = ([], [a.flatten ++ d]) := by
  induction k with
  | zero =>
    intro d hd hne
    exact absurd (List.length_eq_zero_iff.1 (by omega)) hne
  | succ k ih =>
    intro d hd hne a
    have hl : 0 < d.length := List.length_pos_iff.2 hne
    rw [slices_cons n hn d hne]
    unfold reasm
    rcases Nat.lt_or_ge n d.length with h | h
    · rw [if_neg (by simp; omega), reasm_map, ih (d.drop n) (by rw [List.length_drop]; omega)
        (fun h0 => by have := congrArg List.length h0; rw [List.length_drop] at this; simp at this; omega)]
      simp
    · rw [if_pos (by simpa using h), List.drop_eq_nil_of_le h, slices_zero]
      simp [reasm, List.take_of_length_le h]

/-- A non-empty message is restored exactly. -/
theorem reasm_slices (n : Nat) (hn : 0 < n) (d : Bytes) (hne : d ≠ []) :
    reasm [] (slices n d) = ([], [d]) := by
  have := reasm_slices_aux n hn d.length d (Nat.le_refl _) hne []
  simpa using this

end Verif.Nsp
