import Verif.Nsp.Flow

/-! Runs together with the data segments queued so far. -/
namespace Verif.Nsp

variable {inp : Inp}

/-- A run together with the segments the accepted messages were cut into, oldest first. -/
inductive RunS (c0 : Conn) : List Ev → List Sg → Conn → Prop
  | nil : RunS c0 [] [] c0
  | snoc {es : List Ev} {segs : List Sg} {c : Conn} {e : Ev} : RunS c0 es segs c → Enabled c e →
      ((step c e).2 = none ∨ e.isCall = true) → RunS c0 (es ++ [e]) (segs ++ newSegs c e) (step c e).1

theorem RunS.run {c0 c : Conn} {es : List Ev} {segs : List Sg} (h : RunS c0 es segs c) : Run c0 es c := by
  induction h with
  | nil => exact .nil
  | snoc _ h1 h2 ih => exact .snoc ih h1 h2

theorem Run.segs {c0 c : Conn} {es : List Ev} (h : Run c0 es c) : ∃ segs, RunS c0 es segs c := by
  induction h with
  | nil => exact ⟨[], .nil⟩
  | snoc _ h1 h2 ih =>
    obtain ⟨segs, ih⟩ := ih
    exact ⟨_, .snoc ih h1 h2⟩

theorem RunS.wf {c0 c : Conn} {es : List Ev} {segs : List Sg} (h : RunS c0 es segs c) (h0 : Start c0)
    (hq : c0.cfg.qmax ≤ 2047) : ∃ f, WF segs f c := by
  induction h with
  | nil => exact ⟨1, start_wf h0 hq⟩
  | snoc hr h1 h2 ih =>
    obtain ⟨f, ih⟩ := ih
    obtain ⟨f', hw, -⟩ := step_wf ih (hr.run.base (start_base h0)) h1
    exact ⟨f', hw⟩

theorem newSegs_alive {segs : List Sg} {f : Nat} {c : Conn} {e : Ev} (h : WF segs f c)
    (hn : newSegs c e ≠ []) : (step c e).1.state.dead = false ∧ ∀ m, e ≠ .recv m := by
  cases e with
  | sendData d =>
    refine ⟨?_, by simp⟩
    have hr : (step c (.sendData d)).2 = none := by
      by_cases hr : (step c (.sendData d)).2 = none
      · exact hr
      · exact absurd (if_neg hr) hn
    dsimp only [step] at hr ⊢
    unfold sendData at hr ⊢
    by_cases hc : c.state ≠ .run ∨ c.shutdown = true
    · rw [if_pos hc] at hr; cases hr
    · rw [if_neg hc] at hr ⊢
      by_cases h0 : c.segsize = 0
      · rw [if_pos h0] at hr; cases hr
      · rw [if_neg h0]
        have hs : c.state = .run := by
          by_cases hs : c.state = .run
          · exact hs
          · exact absurd (Or.inl hs) hc
        obtain ⟨c', e1, -, hf⟩ := sendAll_si (slices c.segsize d) segs c h.core.q
          (h.live (by rw [hs]; rfl))
        rw [e1]
        show c'.state.dead = false
        rw [hf.state, hs]; rfl
  | _ => exact absurd rfl hn

/-- Flow control relative to the segments queued. -/
structure FlowW (segs : List Sg) (c : Conn) : Prop where
  ex : ∃ segsF, segs <+: segsF ∧ FlowI segsF c ∧ (c.state.dead = false → segsF = segs)

theorem Mis.flow {segs : List Sg} {c c' : Conn} (h : Mis inp c c') (ha : AckI c) (hi : FlowI segs c) :
    ∃ segs', segs <+: segs' ∧ FlowI segs' c' := by
  have : AckI c' ∧ ∃ segs', segs <+: segs' ∧ FlowI segs' c' := by
    induction h with
    | refl => exact ⟨ha, segs, List.prefix_rfl, hi⟩
    | tail _ h2 ih =>
      obtain ⟨i1, s, i2, i3⟩ := ih
      obtain ⟨s', j1, j2⟩ := h2.flow i1 i3
      exact ⟨h2.ackI i1, s', i2.trans j1, j2⟩
  exact this.2

theorem State.dead_iff (s : State) : s.dead = true ↔ 5 ≤ s.rank := by cases s <;> decide

theorem RunS.flow {c0 c : Conn} {es : List Ev} {segs : List Sg} (h : RunS c0 es segs c) (h0 : Start c0)
    (hq : c0.cfg.qmax ≤ 2047) : FlowW segs c := by
  have key : FlowW segs c ∧ ∃ f, WF segs f c := by
    induction h with
    | nil => exact ⟨⟨[], List.prefix_rfl, start_flow h0, fun _ => rfl⟩, 1, start_wf h0 hq⟩
    | @snoc es segs c e hr h1 h2 ih =>
      obtain ⟨⟨segsF, g1, g2, g3⟩, f, hw⟩ := ih
      have hb := hr.run.base (start_base h0)
      have ha := hr.run.ackI h0
      obtain ⟨f', hw', hadv⟩ := step_wf hw hb h1
      have hm := (step_base hb h1).2
      obtain ⟨segsF', j1, j2⟩ := hm.flow ha g2
      refine ⟨⟨segsF', ?_⟩, f', hw'⟩
      have hal : (step c e).1.state.dead = false → segsF' = segs ++ newSegs c e := by
        intro hd
        have hd0 : c.state.dead = false := by
          rcases Bool.eq_false_or_eq_true c.state.dead with h | h
          · have h5 := (State.dead_iff _).1 h
            have := hm.rank
            have h6 : 5 ≤ (step c e).1.state.rank := by omega
            rw [(State.dead_iff _).2 h6] at hd; cases hd
          · exact h
        have e1 := g3 hd0
        obtain ⟨ctl, dat, hx⟩ := hw'.live hd
        have hlen : segsF'.length = (segs ++ newSegs c e).length := by
          have := j2.nx; have := hx.len; omega
        rw [e1] at j1
        by_cases hn : newSegs c e = []
        · rw [hn, List.append_nil] at hlen ⊢
          exact (List.IsPrefix.eq_of_length j1 hlen.symm).symm
        · have hf : f' ≤ segs.length + 1 := by
            refine hadv.2 segs.length hw.core.fle ?_
            intro m hm; exact absurd hm ((newSegs_alive hw hn).2 m)
          apply List.ext_getElem? 
          intro i
          rcases Nat.lt_or_ge i segs.length with hi | hi
          · obtain ⟨t, ht⟩ := j1
            rw [← ht, List.getElem?_append_left hi, List.getElem?_append_left hi]
          · rcases Nat.lt_or_ge i (segs ++ newSegs c e).length with hi2 | hi2
            · have hlt : i + 1 - f' < dat.length := by
                have := hx.next; have := hx.len; omega
              have hd := List.getElem?_eq_getElem hlt
              have hk := hx.datOk _ _ hd
              obtain ⟨dly, s, b1, b2⟩ := hk.body
              have hmem : dat[i + 1 - f'] ∈ (step c e).1.data.pending := by
                rw [hx.pend]; exact List.mem_append_right _ (List.getElem_mem hlt)
              have := (j2.q _ hmem _ _ _ _ _ b2).2.1
              have he : f' + (i + 1 - f') - 1 = i := by omega
              rw [he] at this b1
              rw [this, b1]
            · rw [List.getElem?_eq_none (by omega), List.getElem?_eq_none hi2]
      refine ⟨?_, j2, hal⟩
      by_cases hn : newSegs c e = []
      · rw [hn, List.append_nil]; exact g1.trans j1
      · rw [hal (newSegs_alive hw hn).1]; exact List.prefix_rfl
  exact key.1

theorem prefix_get {α : Type} {l l' : List α} (h : l <+: l') {i : Nat} (hi : i < l.length) :
    l'[i]? = l[i]? := by
  obtain ⟨t, rfl⟩ := h
  rw [List.getElem?_append_left hi]

/-- What every transmission of a data segment satisfies. -/
theorem RunS.tx {c0 c : Conn} {es : List Ev} {segs : List Sg} (h : RunS c0 es segs c) (h0 : Start c0)
    (hq : c0.cfg.qmax ≤ 2047) {l1 l2 : List Out} {m : Msg} (hl : c.log = l1 ++ .tx m :: l2)
    {k : Nat} {dly b e : Bool} {p : Bytes} (hm : m.body = .dataSeg k dly b e p) :
    1 ≤ k ∧ segs[k - 1]? = some (b, e, p) ∧ Allowed c.data.flow segs l1 k := by
  obtain ⟨f, hw⟩ := h.wf h0 hq
  obtain ⟨segsF, g1, g2, -⟩ := (h.flow h0 hq).ex
  obtain ⟨a1, a2, a3⟩ := hw.core.txok m (by rw [hl]; simp) k dly b e p hm
  obtain ⟨-, -, b3⟩ := g2.tx l1 m l2 hl k dly b e p hm
  refine ⟨a1, a3, ?_⟩
  obtain ⟨hlt, -⟩ := List.getElem?_eq_some_iff.1 a3
  refine ⟨b3.1, ?_⟩
  have : msgOf segs k = msgOf segsF k := by
    obtain ⟨t, rfl⟩ := g1
    unfold msgOf
    rw [List.take_append_of_le_length (Nat.le_of_lt hlt)]
  rw [this]; exact b3.2

end Verif.Nsp
