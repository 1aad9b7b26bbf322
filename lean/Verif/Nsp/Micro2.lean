import Verif.Nsp.Micro

/-! Decomposition of the events of a connection into small changes, continued. -/
namespace Verif.Nsp

variable {inp : Inp}

/-- The receiving half, the state and the configuration agree. -/
structure SameRecv (c c' : Conn) : Prop where
  state : c'.state = c.state
  cfg : c'.cfg = c.cfg
  acknum : ∀ ch, (c'.sub ch).acknum = (c.sub ch).acknum
  ooo : ∀ ch, (c'.sub ch).ooo = (c.sub ch).ooo

theorem SameRecv.refl (c : Conn) : SameRecv c c := ⟨rfl, rfl, fun _ => rfl, fun _ => rfl⟩

theorem SameRecv.trans {a b c : Conn} (h : SameRecv a b) (h' : SameRecv b c) : SameRecv a c :=
  ⟨h'.state.trans h.state, h'.cfg.trans h.cfg, fun ch => (h'.acknum ch).trans (h.acknum ch),
    fun ch => (h'.ooo ch).trans (h.ooo ch)⟩

theorem Fr.sameRecv {c c' : Conn} (h : Fr c c') : SameRecv c c' := ⟨h.state, h.cfg, h.acknum, h.ooo⟩

theorem sameRecv_emit (c : Conn) (o : Out) : SameRecv c (c.emit o) :=
  ⟨rfl, rfl, fun ch => by cases ch <;> rfl, fun ch => by cases ch <;> rfl⟩

theorem sameRecv_toScData (c : Conn) (b e : Bool) (p : Bytes) : SameRecv c (toScData c b e p) := by
  have e1 : ∀ (c : Conn) (l : List Bytes), SameRecv c { c with asm := l } := fun c l =>
    ⟨rfl, rfl, fun ch => by cases ch <;> rfl, fun ch => by cases ch <;> rfl⟩
  have e3 : ∀ b : Bool, SameRecv c (if b = true then c.emit (.scData p) else { c with asm := [p] }) := by
    intro b; cases b
    · exact e1 c _
    · exact sameRecv_emit c _
  unfold toScData
  split_ifs
  · exact (e1 c []).trans (sameRecv_emit _ _)
  · exact e1 c _
  · exact e3 true
  · exact e3 e

theorem sameRecv_lsEff (c : Conn) (fm fi : Nat) (fv : Int) : SameRecv c (lsEff c fm fi fv) := by
  have h1 : ∀ c0, SameRecv c0 (lsFin fm fv c0) := by
    intro c0
    unfold lsFin
    split_ifs
    · exact ⟨rfl, rfl, fun ch => by cases ch <;> rfl, fun ch => by cases ch <;> rfl⟩
    · exact sameRecv_emit _ _
  have h2 : SameRecv c (lsCredit c fv) := by
    unfold lsCredit
    split_ifs
    · exact ⟨rfl, rfl, fun ch => by cases ch <;> rfl, fun ch => by cases ch <;> rfl⟩
    · exact ⟨rfl, rfl, fun ch => by cases ch <;> rfl, fun ch => by cases ch <;> rfl⟩
    · exact SameRecv.refl c
  unfold lsEff
  split_ifs
  · exact h2.trans (h1 _)
  · exact sameRecv_emit _ _
  · unfold otherLs
    split_ifs
    · exact ⟨rfl, rfl, fun ch => by cases ch <;> rfl, fun ch => by cases ch <;> rfl⟩
    · exact sameRecv_emit _ _

theorem sameRecv_deliver (c : Conn) (m : Msg) : SameRecv c (deliver c m) := by
  unfold deliver
  split
  · exact sameRecv_toScData c _ _ _
  · exact sameRecv_emit c _
  · exact sameRecv_lsEff c _ _ _
  · exact SameRecv.refl c

/-- `process_data` is `deliver`, possibly followed by `send_blocked`. -/
theorem procData_deliver {c c' : Conn} {m : Msg} (h : procData c m = .ok c') :
    c' = deliver c m ∨ sendBlocked (deliver c m) = .ok c' := by
  unfold procData at h
  unfold deliver
  split at h
  · rename_i hb; simp only [hb]; cases h; exact Or.inl rfl
  · rename_i hb; simp only [hb]; cases h; exact Or.inl rfl
  · rename_i fm fi fv hb
    simp only [hb]
    unfold lsEff
    by_cases hi : fi = 0
    · rw [if_pos hi] at h ⊢
      unfold dataLs dataLs.finish at h
      unfold lsOk lsCredit
      by_cases h2 : c.data.flow = 2
      · simp only [if_pos h2] at h ⊢
        by_cases h3 : 0 ≤ fv ∧ c.data.maxmsg + fv < c.data.maxackseg + 128
        · rw [if_pos h3] at h
          rw [decide_eq_true h3, if_pos rfl]
          exact Or.inr h
        · rw [if_neg h3] at h
          rw [decide_eq_false h3, if_neg (by decide)]
          cases h; exact Or.inl rfl
      · simp only [if_neg h2] at h ⊢
        by_cases h1 : c.data.flow = 1
        · simp only [if_pos h1] at h ⊢
          by_cases h3 : (c.data.maxackseg : Int) ≤ c.data.maxseg + fv ∧
              c.data.maxseg + fv < c.data.maxackseg + 128
          · rw [if_pos h3] at h
            rw [decide_eq_true h3, if_pos rfl]
            exact Or.inr h
          · rw [if_neg h3] at h
            rw [decide_eq_false h3, if_neg (by decide)]
            cases h; exact Or.inl rfl
        · simp only [if_neg h1] at h ⊢
          exact Or.inr h
    · rw [if_neg hi] at h ⊢
      cases h; exact Or.inl rfl
  · rename_i h1 h2 h3
    cases h
    left
    split
    · exact absurd ‹_› (h1 _ _ _ _ _)
    · exact absurd ‹_› (h2 _ _)
    · exact absurd ‹_› (h3 _ _ _ _)
    · rfl

theorem accept1_deliver {c c' : Conn} {ch : Chan} {m : Msg} (h : accept1 c ch m = .ok c') :
    c' = deliver (book c ch m) m ∨ sendBlocked (deliver (book c ch m) m) = .ok c' :=
  procData_deliver h

/-- No packet in the cache is the next one wanted. -/
def Rest (c : Conn) : Prop :=
  ∀ ch, oooFind (c.sub ch).ooo (wire ((c.sub ch).acknum + 1)) = none

theorem Rest.same {c c' : Conn} (h : Rest c) (s : SameRecv c c') : Rest c' := by
  intro ch
  rw [s.ooo, s.acknum]; exact h ch

theorem sub_setSub (c : Conn) (ch : Chan) (s : Sub) : (c.setSub ch s).sub ch = s := by
  cases ch <;> rfl
theorem sub_setSub_cross (c : Conn) (ch : Chan) (s : Sub) :
    (c.setSub ch s).sub ch.cross = c.sub ch.cross := by
  cases ch <;> rfl
theorem sub_emit (c : Conn) (o : Out) (ch : Chan) : (c.emit o).sub ch = c.sub ch := by
  cases ch <;> rfl

theorem chan_cases (a b : Chan) : b = a ∨ b = a.cross := by cases a <;> cases b <;> simp [Chan.cross]

theorem book_state (c : Conn) (ch : Chan) (m : Msg) : (book c ch m).state = c.state :=
  state_setSub c ch _

theorem book_ooo (c : Conn) (ch ch' : Chan) (m : Msg) :
    ((book c ch m).sub ch').ooo = (c.sub ch').ooo := by cases ch <;> cases ch' <;> rfl
theorem book_acknum (c : Conn) (ch : Chan) (m : Msg) :
    ((book c ch m).sub ch).acknum = (c.sub ch).acknum + 1 := by cases ch <;> rfl
theorem book_acknum_cross (c : Conn) (ch : Chan) (m : Msg) :
    ((book c ch m).sub ch.cross).acknum = (c.sub ch.cross).acknum := by cases ch <;> rfl

theorem oooErase_length {l : List (Nat × Msg)} {w : Nat} {m : Msg} (h : oooFind l w = some m) :
    (oooErase l w).length < l.length := by
  unfold oooFind at h
  rw [Option.map_eq_some_iff] at h
  obtain ⟨x, hx, -⟩ := h
  have h1 := List.mem_of_find?_eq_some hx
  have h2 := List.find?_some hx
  unfold oooErase
  have h2' : x.1 = w := by simpa using h2
  exact List.length_filter_lt_length_iff_exists.2 ⟨x, h1, by simp [h2']⟩

theorem mis_acceptLoop (hi : inp.isSome = true) : ∀ (fuel : Nat) (c0 c c' : Conn) (ch : Chan) (m : Msg),
    Mi inp c0 (deliver (book c ch m) m) → (c.state = .run ∨ c.state = .di) →
    (c.sub ch).ooo.length < fuel → acceptLoop fuel c ch m = .ok c' →
    Mis inp c0 c' ∧ c'.state = c.state ∧
    oooFind (c'.sub ch).ooo (wire ((c'.sub ch).acknum + 1)) = none ∧
    (c'.sub ch.cross).ooo = (c.sub ch.cross).ooo ∧
    (c'.sub ch.cross).acknum = (c.sub ch.cross).acknum ∧ c'.cfg = c.cfg := by
  intro fuel
  induction fuel with
  | zero => intro c0 c c' ch m _ _ h; omega
  | succ n ih =>
    intro c0 c c' ch m hm hs hl h
    unfold acceptLoop at h
    rw [bind_ok] at h
    obtain ⟨c1, e1, h⟩ := h
    have hd := sameRecv_deliver (book c ch m) m
    have hds : (deliver (book c ch m) m).state = c.state := by rw [hd.state, book_state]
    have hns : c.state ≠ .closed := by rcases hs with h | h <;> rw [h] <;> decide
    have key : Mis inp c0 c1 ∧ SameRecv (deliver (book c ch m) m) c1 := by
      rcases accept1_deliver e1 with rfl | e
      · exact ⟨Mis.one hm, SameRecv.refl _⟩
      · exact ⟨(Mis.one hm).trans (mis_sendBlocked (by rw [hds]; exact hns) e),
          (fr_sendBlocked e).sameRecv⟩
    obtain ⟨hmis, hsame⟩ := key
    have hst : c1.state = c.state := hsame.state.trans hds
    have hcfg : c1.cfg = c.cfg := by
      rw [hsame.cfg, hd.cfg]
      exact cfg_setSub c ch _
    have hooo : ∀ ch', (c1.sub ch').ooo = (c.sub ch').ooo := by
      intro ch'
      rw [hsame.ooo, hd.ooo, book_ooo]
    have hack : (c1.sub ch.cross).acknum = (c.sub ch.cross).acknum := by
      rw [hsame.acknum, hd.acknum, book_acknum_cross]
    dsimp only at h
    cases hf : oooFind (c1.sub ch).ooo (wire ((c1.sub ch).acknum + 1)) with
    | none =>
      rw [hf] at h
      cases h
      exact ⟨hmis, hst, hf, hooo _, hack, hcfg⟩
    | some m' =>
      rw [hf] at h
      have h' : acceptLoop n (eraseO c1 ch (wire ((c1.sub ch).acknum + 1))) ch m' = .ok c' := h
      have hrd : c1.state = .run ∨ c1.state = .di := by rw [hst]; exact hs
      have hmi : Mi inp c1 (deliver (book (eraseO c1 ch (wire ((c1.sub ch).acknum + 1))) ch m') m') :=
        .upOld c1 hrd ch m' hi hf
      have hlen := oooErase_length hf
      rw [hooo] at hlen
      obtain ⟨r1, r2, r3, r4, r5, r6⟩ := ih c1 _ c' ch m' hmi (by
          unfold eraseO; rw [state_setSub]; exact hrd) (by
          unfold eraseO; rw [sub_setSub]
          show (oooErase (c1.sub ch).ooo _).length < n
          rw [hooo]; omega) h'
      refine ⟨hmis.trans r1, ?_, r3, ?_, ?_, ?_⟩
      · rw [r2]; unfold eraseO; rw [state_setSub]; exact hst
      · rw [r4]; unfold eraseO; rw [sub_setSub_cross]; exact hooo _
      · rw [r5]; unfold eraseO; rw [sub_setSub_cross]; exact hack
      · rw [r6]; unfold eraseO; rw [cfg_setSub]; exact hcfg

theorem mis_ackPolicy (c : Conn) (ch : Chan) (dly : Bool) (hs : c.state ≠ .closed) :
    Mis inp c (ackPolicy c ch dly) ∧ SameRecv c (ackPolicy c ch dly) := by
  unfold ackPolicy
  split_ifs
  · cases ch
    · exact ⟨Mis.one (.flags c hs c.data.ackpending true c.other.ackpending c.other.hold),
        ⟨rfl, rfl, fun ch => by cases ch <;> rfl, fun ch => by cases ch <;> rfl⟩⟩
    · exact ⟨Mis.one (.flags c hs c.data.ackpending c.data.hold c.other.ackpending true),
        ⟨rfl, rfl, fun ch => by cases ch <;> rfl, fun ch => by cases ch <;> rfl⟩⟩
  · exact ⟨.refl, SameRecv.refl c⟩
  · exact ⟨mis_sendAck c ch hs, (fr_sendAck c ch).sameRecv⟩
  · exact ⟨.refl, SameRecv.refl c⟩

theorem oooFind_erase_append {l : List (Nat × Msg)} {w v : Nat} {m : Msg} (h : v ≠ w)
    (hf : oooFind l v = none) : oooFind (oooErase l w ++ [(w, m)]) v = none := by
  unfold oooFind oooErase at *
  simp only [Option.map_eq_none_iff, List.find?_eq_none, List.mem_append, List.mem_filter,
    List.mem_singleton] at *
  rintro x (⟨hx, -⟩ | rfl)
  · exact hf x hx
  · simpa using fun e => h e.symm

theorem mis_recvSeq {c c' : Conn} {ch : Chan} {m : Msg} {k n : Nat} {dly : Bool}
    (hn0 : (c.sub ch).acknum = n) (hs : c.state = .run ∨ c.state = .di) (hm : m.body.seq = some (ch, k)) (hr : Rest c)
    (h : recvSeq c ch m k dly = .ok c') :
    Mis (some (m, n)) c c' ∧ Rest c' ∧ c'.state = c.state ∧ c'.cfg = c.cfg := by
  have hns : c.state ≠ .closed := by rcases hs with h | h <;> rw [h] <;> decide
  unfold recvSeq at h
  rw [bind_ok] at h
  obtain ⟨b, hb, h⟩ := h
  split_ifs at h with h1 h2
  · cases h
    have := (fr_sendAck c ch).sameRecv
    exact ⟨mis_sendAck c ch hns, hr.same this, this.state, this.cfg⟩
  · cases h
    refine ⟨Mis.one (.oooAdd c hs ch m k (by rw [hn0]) hm ?_ h2), ?_, state_setSub _ _ _, cfg_setSub _ _ _⟩
    · rw [hb]; simp at h1; rw [h1]
    · intro ch'
      rcases chan_cases ch ch' with rfl | rfl
      · rw [sub_setSub]
        exact oooFind_erase_append (fun e => h2 e.symm) (hr ch')
      · rw [sub_setSub_cross]; exact hr _
  · rw [bind_ok] at h
    obtain ⟨c1, e1, h⟩ := h
    cases h
    have hk : wire k = wire ((c.sub ch).acknum + 1) := by
      by_cases hh : wire k = wire ((c.sub ch).acknum + 1)
      · exact hh
      · exact absurd hh h2
    obtain ⟨r1, r2, r3, r4, r5, r6⟩ := mis_acceptLoop (inp := some (m, n)) rfl _ c c c1 ch m
      (.upNew c hs ch m k (by rw [hn0]) hm hk (hr ch)) hs (Nat.lt_succ_self _) e1
    obtain ⟨p1, p2⟩ := mis_ackPolicy (inp := some (m, n)) c1 ch dly (by rw [r2]; exact hns)
    refine ⟨r1.trans p1, Rest.same ?_ p2, by rw [p2.state, r2], by rw [p2.cfg, r6]⟩
    intro ch'
    rcases chan_cases ch ch' with rfl | rfl
    · exact r3
    · rw [r4, r5]; exact hr _

theorem sameRecv_sendCtl (c : Conn) (b : Body) : SameRecv c (sendCtl c b) :=
  (fr_qsend c .data { msg := mk c b }).sameRecv.trans
    ⟨rfl, rfl, fun ch => by cases ch <;> rfl, fun ch => by cases ch <;> rfl⟩

theorem discRej_rest {c c' : Conn} {r : Int} {p : Bytes} (h : discRej c r p = .ok c') : Rest c' := by
  obtain ⟨-, rfl⟩ := discRej_ok h
  refine Rest.same ?_ (sameRecv_sendCtl _ _)
  intro ch; cases ch <;> rfl

theorem rest_procAck {c c' : Conn} {ch : Chan} {a : Option AckNum} (hr : Rest c)
    (h : procAck c ch a = .ok c') : Rest c' := by
  have hb : ∀ {ch : Chan} {c1 : Conn}, procAckBase c ch a = .ok c1 → SameRecv c c1 := by
    intro ch c1 h
    cases a with
    | none => cases h; exact SameRecv.refl _
    | some n =>
      unfold procAckBase at h
      dsimp only at h
      split_ifs at h <;> exact (fr_ack h).sameRecv
  cases ch with
  | other =>
    have h' : procAckBase c .other a = .ok c' := h
    exact hr.same (hb h')
  | data =>
    unfold procAck at h
    rw [bind_ok] at h
    obtain ⟨c1, e1, h⟩ := h
    rw [bind_ok] at h
    obtain ⟨c2, e2, h⟩ := h
    have r2 : Rest c2 := (hr.same (hb e1)).same (fr_sendBlocked e2).sameRecv
    unfold shutdownCheck at h
    split_ifs at h with hc
    · rw [bind_ok] at h
      obtain ⟨c3, h1, h2⟩ := h
      cases h2
      intro ch
      have := discRej_rest h1 ch
      cases ch <;> exact this
    · cases h; exact r2

theorem discRej_ack {c c' : Conn} {r : Int} {p : Bytes} (h : discRej c r p = .ok c') :
    SameAck c c' := by
  obtain ⟨-, rfl⟩ := discRej_ok h
  intro ch
  rw [(sameRecv_sendCtl _ _).acknum]
  cases ch <;> rfl

theorem procAck_ack {c c' : Conn} {ch : Chan} {a : Option AckNum}
    (h : procAck c ch a = .ok c') : SameAck c c' := by
  have hb : ∀ {ch : Chan} {c1 : Conn}, procAckBase c ch a = .ok c1 → SameRecv c c1 := by
    intro ch c1 h
    cases a with
    | none => cases h; exact SameRecv.refl _
    | some n =>
      unfold procAckBase at h
      dsimp only at h
      split_ifs at h <;> exact (fr_ack h).sameRecv
  cases ch with
  | other =>
    have h' : procAckBase c .other a = .ok c' := h
    exact (hb h').acknum
  | data =>
    unfold procAck at h
    rw [bind_ok] at h
    obtain ⟨c1, e1, h⟩ := h
    rw [bind_ok] at h
    obtain ⟨c2, e2, h⟩ := h
    have r2 : SameAck c c2 := SameAck.trans (hb e1).acknum (fr_sendBlocked e2).acknum
    unfold shutdownCheck at h
    split_ifs at h with hc
    · rw [bind_ok] at h
      obtain ⟨c3, h1, h2⟩ := h
      cases h2
      refine r2.trans ((discRej_ack h1).trans ?_)
      intro ch; cases ch <;> rfl
    · cases h; exact r2

theorem mis_subRecv {c c' : Conn} {ch : Chan} {m : Msg} {n : Nat}
    (hn0 : m.body.seq ≠ none → (c.sub ch).acknum = n)
    (hs : c.state = .run ∨ c.state = .di) (hr : Rest c)
    (hm : ∀ ch' k, m.body.seq = some (ch', k) → ch' = ch)
    (h : subRecv c ch m = .ok c') :
    Mis (some (m, n)) c c' ∧ Rest c' ∧ (c'.state = .run ∨ c'.state = .di) := by
  unfold subRecv at h
  rw [bind_ok] at h
  obtain ⟨c1, e1, h⟩ := h
  rw [bind_ok] at h
  obtain ⟨c2, e2, h⟩ := h
  obtain ⟨m1, s1⟩ := mis_procAck (inp := some (m, n)) hs e1
  obtain ⟨m2, s2⟩ := mis_procAck (inp := some (m, n)) s1 e2
  have r2 := rest_procAck (rest_procAck hr e1) e2
  have key : ∀ k dly, m.body.seq = some (ch, k) → recvSeq c2 ch m k dly = .ok c' →
      Mis (some (m, n)) c c' ∧ Rest c' ∧ (c'.state = .run ∨ c'.state = .di) := by
    intro k dly hk h
    obtain ⟨t1, t2, t3, -⟩ := mis_recvSeq (n := n) (by
      rw [procAck_ack e2, procAck_ack e1]; exact hn0 (by rw [hk]; exact fun h => by cases h)) s2 hk r2 h
    exact ⟨m1.trans (m2.trans t1), t2, by rw [t3]; exact s2⟩
  split at h
  · rename_i hb
    have := hm .data _ (by rw [hb]; rfl)
    exact key _ _ (by rw [hb, ← this]; rfl) h
  · rename_i hb
    have := hm .other _ (by rw [hb]; rfl)
    exact key _ _ (by rw [hb, ← this]; rfl) h
  · rename_i hb
    have := hm .other _ (by rw [hb]; rfl)
    exact key _ _ (by rw [hb, ← this]; rfl) h
  · cases h; exact ⟨m1.trans m2, r2, s2⟩

theorem rest_close (c : Conn) : Rest (close c) := by
  intro ch; cases ch <;> rfl

/-- the number last accepted on the subchannel of a packet -/
def ackAt (c : Conn) (m : Msg) : Nat :=
  match m.body.seq with
  | some (ch, _) => (c.sub ch).acknum
  | none => 0

theorem ackAt_same {c c' : Conn} (h : SameAck c c') (m : Msg) : ackAt c' m = ackAt c m := by
  unfold ackAt
  split
  · exact h _
  · rfl

theorem mis_runRecv {c c' : Conn} {m : Msg} {n : Nat} (hn0 : ackAt c m = n) (hs : c.state = .run) (hr : Rest c)
    (h : runRecv c m = .ok c') : Mis (some (m, n)) c c' ∧ Rest c' := by
  unfold runRecv at h
  let c1 : Conn := if c.cphase > 2 then { c with timer := true } else c
  have h1 : Mis (some (m, n)) c c1 := by
    show Mis _ c (if _ then _ else _)
    split_ifs
    · exact Mis.one (.timer c (by rw [hs]; decide) true)
    · exact .refl
  have hs1 : c1.state = .run := by
    show (if _ then _ else _ : Conn).state = _
    split_ifs <;> exact hs
  have hr1 : Rest c1 := by
    show Rest (if _ then _ else _)
    split_ifs
    · exact hr.same ⟨rfl, rfl, fun ch => by cases ch <;> rfl, fun ch => by cases ch <;> rfl⟩
    · exact hr
  have ha1 : SameAck c c1 := by
    show SameAck c (if _ then _ else _)
    split_ifs <;> intro ch <;> cases ch <;> rfl
  have hn1 : c1.state ≠ .closed := by rw [hs1]; decide
  have h' : (match m.body with
    | .dataSeg .. | .ackData => subRecv c1 .data m
    | .intMsg .. | .linkSvc .. | .ackOther => subRecv c1 .other m
    | .discInit r b => .ok (close ((c1.emit (.scDisc r b false)).emit (.tx (mk c1 (.discConf 42)))))
    | .discConf r => .ok (close (c1.emit (.scDisc r [] false)))
    | .connConf .. => .ok (if c1.cphase > 2 then sendAck c1 .data else c1)
    | _ => .ok c1) = Except.ok c' := h
  clear h
  have hsub : ∀ ch, (∀ ch' k, m.body.seq = some (ch', k) → ch' = ch) → subRecv c1 ch m = .ok c' →
      Mis (some (m, n)) c c' ∧ Rest c' := by
    intro ch hc h
    obtain ⟨t1, t2, -⟩ := mis_subRecv (n := n) (by
      intro hne
      have := ackAt_same ha1 m
      rw [hn0] at this
      unfold ackAt at this
      cases hseq : m.body.seq with
      | none => exact absurd hseq hne
      | some x =>
        obtain ⟨ch', k⟩ := x
        rw [hseq] at this
        have hch := hc ch' k hseq
        subst hch
        exact this) (Or.inl hs1) hr1 hc h
    exact ⟨h1.trans t1, t2⟩
  split at h'
  · rename_i hb; exact hsub _ (by rw [hb]; intro _ _ h; cases h; rfl) h'
  · rename_i hb; exact hsub _ (by rw [hb]; intro _ _ h; cases h) h'
  · rename_i hb; exact hsub _ (by rw [hb]; intro _ _ h; cases h; rfl) h'
  · rename_i hb; exact hsub _ (by rw [hb]; intro _ _ h; cases h; rfl) h'
  · rename_i hb; exact hsub _ (by rw [hb]; intro _ _ h; cases h) h'
  · cases h'
    refine ⟨h1.trans (((Mis.one (.tell c1 hn1 _ _ _)).tail (.send (c1.emit _) hn1 .data
      (mk c1 (.discConf 42)) rfl ⟨Or.inl rfl, Or.inl rfl⟩ (Or.inr (Or.inr ⟨rfl, rfl⟩)))).tail
      (.close _ hn1)), rest_close _⟩
  · cases h'
    exact ⟨h1.trans ((Mis.one (.tell c1 hn1 _ _ _)).tail (.close _ hn1)), rest_close _⟩
  · cases h'
    split_ifs
    · exact ⟨h1.trans (mis_sendAck c1 .data hn1), hr1.same (fr_sendAck c1 .data).sameRecv⟩
    · exact ⟨h1, hr1⟩
  · rw [← Except.ok.inj h']; exact ⟨h1, hr1⟩

end Verif.Nsp
