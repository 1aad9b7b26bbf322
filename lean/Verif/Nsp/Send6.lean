import Verif.Nsp.Run

/-! The invariant of the sending half over whole steps. -/
namespace Verif.Nsp

/-- The part of the invariant that holds in every state. -/
structure Core (segs : List Sg) (f : Nat) (c : Conn) : Prop where
  q : c.cfg.qmax ≤ 2047
  fpos : 1 ≤ f
  fle : f ≤ segs.length + 1
  hi : c.data.maxseqsent ≤ segs.length
  win : c.data.maxseqsent + 1 ≤ f + c.cfg.qmax
  txok : ∀ m, Out.tx m ∈ c.log → ∀ k dly b e p, m.body = .dataSeg k dly b e p →
    1 ≤ k ∧ k ≤ c.data.maxseqsent ∧ segs[k - 1]? = some (b, e, p)

/-- States before the connection runs. -/
def State.early : State → Bool
  | .ci | .cd | .cr | .cc => true
  | _ => false

/-- States in which data is no longer sent. -/
def State.dead : State → Bool
  | .di | .closed => true
  | _ => false

/-- Invariant of the sending half of a connection between events. -/
structure WF (segs : List Sg) (f : Nat) (c : Conn) : Prop where
  core : Core segs f c
  live : c.state.dead = false → SI segs f c
  early : c.state.early = true → segs = []
  dead : c.state.dead = true → ∀ x ∈ c.data.pending, IsCtl x
  cr : c.state = .cr → c.data.pending = []

theorem SI.core {segs : List Sg} {f : Nat} {c : Conn} (hq : c.cfg.qmax ≤ 2047) (h : SI segs f c) :
    Core segs f c := by
  obtain ⟨ctl, dat, h⟩ := h
  have := h.len
  have := h.hi
  have := h.next
  exact ⟨hq, h.fpos, by omega, by omega, h.win, h.txok⟩

/-- What `Core` looks at. -/
theorem Core.same {segs : List Sg} {f : Nat} {c c' : Conn} (h : Core segs f c)
    (h1 : c'.cfg = c.cfg) (h2 : c'.data.maxseqsent = c.data.maxseqsent)
    (h3 : ∀ m, Out.tx m ∈ c'.log → m.body.isData = true → Out.tx m ∈ c.log) : Core segs f c' :=
  ⟨by rw [h1]; exact h.q, h.fpos, h.fle, by rw [h2]; exact h.hi, by rw [h1, h2]; exact h.win,
    fun m hm k dly b e p hb => by
      rw [h2]
      exact h.txok m (h3 m hm (by rw [hb]; rfl)) k dly b e p hb⟩

theorem SP.wf {segs : List Sg} {f : Nat} {c : Conn} (hq : c.cfg.qmax ≤ 2047) (h : SP segs f c) :
    WF segs f c := by
  refine ⟨h.si.core hq, fun _ => h.si, ?_, ?_, ?_⟩
  · intro he; rcases h.st with hs | hs <;> rw [hs] at he <;> cases he
  · intro hd
    have hs : c.state = .di := by
      rcases h.st with hs | hs
      · rw [hs] at hd; cases hd
      · exact hs
    have hf := h.di hs
    obtain ⟨ctl, dat, hx⟩ := h.si
    have h1 := hx.next
    have h2 := hx.len
    have hdat : dat = [] := List.length_eq_zero_iff.1 (by omega)
    subst hdat
    rw [hx.pend, List.append_nil]
    exact hx.ctlOk
  · intro he; rcases h.st with hs | hs <;> rw [hs] at he <;> cases he

theorem WF.sp {segs : List Sg} {f : Nat} {c : Conn} (h : WF segs f c) (hs : c.state = .run) :
    SP segs f c :=
  ⟨h.live (by rw [hs]; rfl), (fun h => by rw [hs] at h; cases h), Or.inl hs⟩

/-- A change the sending half does not notice. -/
theorem WF.same {segs : List Sg} {f : Nat} {c c' : Conn} (h : WF segs f c) (s : SameSend c c')
    (hs : c'.state = c.state) : WF segs f c' :=
  ⟨h.core.same s.cfg s.maxseqsent s.log, fun hd => (h.live (by rw [← hs]; exact hd)).same s,
    fun he => h.early (by rw [← hs]; exact he),
    fun hd => by rw [s.pending]; exact h.dead (by rw [← hs]; exact hd),
    fun he => by rw [s.pending]; exact h.cr (by rw [← hs]; exact he)⟩

/-- Dropping the queues for good. -/
theorem WF.kill {segs : List Sg} {f : Nat} {c c' : Conn} (h : WF segs f c) (h1 : c'.cfg = c.cfg)
    (h2 : c'.data.maxseqsent = c.data.maxseqsent)
    (h3 : ∀ m, Out.tx m ∈ c'.log → m.body.isData = true → Out.tx m ∈ c.log)
    (hs : c'.state.dead = true) (hp : ∀ x ∈ c'.data.pending, IsCtl x) : WF segs f c' :=
  ⟨h.core.same h1 h2 h3, (fun hd => by rw [hs] at hd; cases hd),
    (fun he => by cases hc : c'.state <;> rw [hc] at hs he <;>
      first | exact absurd he (by decide) | exact absurd hs (by decide)),
    fun _ => hp, (fun he => by rw [he] at hs; cases hs)⟩

theorem log_emit_tx {l : List Out} {m m' : Msg} (hd : m'.body.isData = false)
    (h : Out.tx m ∈ l ++ [.tx m']) (hm : m.body.isData = true) : Out.tx m ∈ l := by
  rw [List.mem_append, List.mem_singleton] at h
  rcases h with h | h
  · exact h
  · obtain rfl : m = m' := by simpa using h
    rw [hd] at hm; cases hm

theorem WF.close {segs : List Sg} {f : Nat} {c : Conn} (h : WF segs f c) : WF segs f (close c) := by
  refine h.kill rfl rfl ?_ rfl (by intro x hx; cases hx)
  intro m hm hd
  have : Out.tx m ∈ c.log ++ [.released c.srcaddr] := hm
  rw [List.mem_append] at this
  rcases this with h | h
  · exact h
  · simp at h

theorem WF.emit {segs : List Sg} {f : Nat} {c : Conn} (h : WF segs f c) {o : Out}
    (ho : ∀ m, o = .tx m → m.body.isData = false) : WF segs f (c.emit o) :=
  h.same (sameSend_emit ho) rfl

/-- Early: nothing has been sent, so the window has not moved. -/
theorem SI.early {f : Nat} {c : Conn} (h : SI [] f c) : f = 1 ∧ ∀ x ∈ c.data.pending, IsCtl x := by
  obtain ⟨ctl, dat, h⟩ := h
  have h1 := h.next
  have h2 := h.len
  have h3 := h.fpos
  have hdat : dat = [] := List.length_eq_zero_iff.1 (by simp at h2; omega)
  subst hdat
  rw [h.pend, List.append_nil]
  refine ⟨by simp at h1 h2; omega, h.ctlOk⟩

/-- `disc_rej`. -/
theorem WF.discRej {segs : List Sg} {f : Nat} {c c' : Conn} {r : Int} {p : Bytes}
    (h : WF segs f c) (he : discRej c r p = .ok c') (s : State) (hs : s.dead = true) :
    WF segs f { c' with state := s } := by
  obtain ⟨-, rfl⟩ := discRej_ok he
  obtain ⟨m, a, h1, a', h1', e, hm, -, -, -⟩ := sendCtl_pending
    (c := { c with timer := false, data := closeSub c.data, other := closeSub c.other })
    (b := .discInit r.toNat p) rfl rfl
  rw [e]
  refine h.kill rfl rfl ?_ hs ?_
  · intro m2 hm2 hd
    have hm2' : Out.tx m2 ∈ c.log ++ [.tx m] := hm2
    refine log_emit_tx ?_ hm2' hd
    cases hb : m.body.isData
    · rfl
    · rw [isAckHdr_of_isData hb] at hm; cases hm
  · intro x hx
    have hx' : x = fired _ m := List.mem_singleton.1 hx
    subst hx'
    exact ⟨rfl, hm⟩

/-- Replacing one entry by the same with other transmission flags. -/
theorem SIx.reflag {segs : List Sg} {ctl dat : List QEnt} {f : Nat} {c : Conn}
    (h : SIx segs ctl dat f c) {i : Nat} {x y : QEnt} (hx : c.data.pending[i]? = some x)
    (h1 : y.msg = x.msg) (h2 : y.segnum = x.segnum) (h3 : y.msgnum = x.msgnum)
    (h4 : y.tries = x.tries) (h5 : y.sent = true ∨ y.timer = true → 0 < y.tries) :
    SI segs f (withQ c (c.data.pending.set i y)) := by
  obtain ⟨hi, rfl⟩ := List.getElem?_eq_some_iff.1 hx
  have hsplit : c.data.pending = c.data.pending.take i ++ c.data.pending[i] :: c.data.pending.drop (i + 1) := by
    rw [List.getElem_cons_drop, List.take_append_drop]
  have hset : c.data.pending.set i y = c.data.pending.take i ++ y :: c.data.pending.drop (i + 1) := by
    rw [List.set_eq_take_append_cons_drop, if_pos hi]
  generalize c.data.pending[i] = x at *
  generalize c.data.pending.take i = d at *
  generalize c.data.pending.drop (i + 1) = r at *
  rw [hset]
  rcases h.split hsplit with ⟨-, d1, rfl, rfl⟩ | ⟨-, c2, rfl, rfl⟩
  · refine ⟨ctl, d1 ++ y :: r, by simp [withQ], h.ctlOk, ?_, h.len, ?_, h.nm, h.fpos, h.lo, h.hi, h.win, ?_, ?_,
      h.txok⟩
    · intro j z hz
      rcases Nat.lt_trichotomy j d1.length with hj | hj | hj
      · rw [List.getElem?_append_left hj] at hz
        exact h.datOk j z (by rw [List.getElem?_append_left hj]; exact hz)
      · subst hj
        rw [List.getElem?_append_right (Nat.le_refl _)] at hz
        simp at hz
        subst hz
        have := h.datOk d1.length x (by simp)
        exact ⟨h2.trans this.num, h3.trans this.msgnum, by rw [h1]; exact this.body⟩
      · have e : ∀ w : QEnt, (d1 ++ w :: r)[j]? = r[j - d1.length - 1]? := by
          intro w
          rw [List.getElem?_append_right (by omega)]
          obtain ⟨t, ht⟩ : ∃ t, j - d1.length = t + 1 := ⟨j - d1.length - 1, by omega⟩
          rw [ht]; simp
        rw [e] at hz
        exact h.datOk j z (by rw [e]; exact hz)
    · have := h.next
      simp only [List.length_append, List.length_cons] at this ⊢
      exact this
    · intro z hz hz'
      simp only [List.mem_append, List.mem_cons] at hz
      rcases hz with hz | rfl | hz
      · exact h.tried z (by simp [hz]) hz'
      · rw [h2]; exact h.tried x (by simp) (by rw [← h4]; exact hz')
      · exact h.tried z (by simp [hz]) hz'
    · intro z hz hz'
      simp only [List.mem_append, List.mem_cons] at hz
      rcases hz with hz | hz | rfl | hz
      · exact h.armed z (by simp [hz]) hz'
      · exact h.armed z (by simp [hz]) hz'
      · exact h5 hz'
      · exact h.armed z (by simp [hz]) hz'
  · refine ⟨d ++ y :: c2, dat, by simp [withQ], ?_, h.datOk, h.len, h.next, h.nm, h.fpos, h.lo, h.hi, h.win,
      h.tried, ?_, h.txok⟩
    · intro z hz
      simp only [List.mem_append, List.mem_cons] at hz
      rcases hz with hz | rfl | hz
      · exact h.ctlOk z (by simp [hz])
      · have := h.ctlOk x (by simp)
        exact ⟨h2.trans this.1, by rw [h1]; exact this.2⟩
      · exact h.ctlOk z (by simp [hz])
    · intro z hz hz'
      simp only [List.mem_append, List.mem_cons] at hz
      rcases hz with (hz | rfl | hz) | hz
      · exact h.armed z (by simp [hz]) hz'
      · exact h5 hz'
      · exact h.armed z (by simp [hz]) hz'
      · exact h.armed z (by simp [hz]) hz'

/-- Retransmitting one entry of the data queue. -/
theorem SI.refire {segs : List Sg} {f : Nat} {c : Conn} (hq : c.cfg.qmax ≤ 2047) (h : SI segs f c) {i : Nat} {x : QEnt}
    (hx : c.data.pending[i]? = some x) (ht : x.timer = true)
    (hfl : x.msg.body.isData = true → flowOk c (headSeg c.data.pending) x = true) :
    SI segs f (setPending (qsend c .data x).1 .data (c.data.pending.set i (qsend c .data x).2)) := by
  obtain ⟨ctl, dat, h⟩ := h
  obtain ⟨hi, hxi⟩ := List.getElem?_eq_some_iff.1 hx
  have hsplit : c.data.pending = c.data.pending.take i ++ x :: c.data.pending.drop (i + 1) := by
    rw [← hxi, List.getElem_cons_drop, List.take_append_drop]
  have hset : ∀ y, c.data.pending.set i y = c.data.pending.take i ++ y :: c.data.pending.drop (i + 1) := by
    intro y
    rw [List.set_eq_take_append_cons_drop, if_pos hi]
  rw [hset]
  have hhd := headSeg_le h
  generalize c.data.pending.take i = d at *
  generalize c.data.pending.drop (i + 1) = r at *
  rcases h.split hsplit with ⟨hd, d1, rfl, rfl⟩ | ⟨hd, c2, rfl, rfl⟩
  · have hdat := h.datOk d1.length x (by simp)
    obtain ⟨dly, s, hs, hb⟩ := hdat.body
    have htr : x.segnum ≤ c.data.maxseqsent := h.tried x (by simp) (h.armed x (by simp) (Or.inr ht))
    obtain ⟨c', m', e1, e2, h1, -⟩ := SIx.fire_dat (q := c.data.pending) (c := c) hq h hb (hfl hd)
      (by rw [h.pend]; exact hhd)
    have hms : maxUpd (qsend c .data x).1 .data (f + d1.length) = .ok (qsend c .data x).1 := by
      obtain ⟨a, g1, a', g1', m2, eq, -⟩ := qsend_form c .data x
      have hnum := hdat.num
      have hw : c.data.maxseqsent + 1 ≤ f + c.cfg.qmax := h.win
      rw [eq]
      rw [maxUpd_ok (by show _ ≤ c.data.maxseqsent + 2047; omega)
        (by show c.data.maxseqsent ≤ _; omega)]
      have hmax : max c.data.maxseqsent (f + d1.length) = c.data.maxseqsent := by omega
      show Except.ok { (tweak c a g1 a' g1').emit (.tx m2) with data :=
        { ((tweak c a g1 a' g1').emit (.tx m2)).data with
          maxseqsent := max c.data.maxseqsent (f + d1.length) } } = _
      rw [hmax]
      rfl
    rw [hms] at e1
    cases e1
    rw [e2]
    refine ⟨ctl, d1 ++ fired x m' :: r, ?_⟩
    rw [List.append_assoc]
    exact h1
  · obtain ⟨m', e1, h1⟩ := SIx.fire_ctl (q := c.data.pending) (c := c) h
    rw [e1]
    refine ⟨d ++ fired x m' :: c2, dat, ?_⟩
    have : d ++ fired x m' :: (c2 ++ dat) = d ++ fired x m' :: c2 ++ dat := by simp
    rw [this]
    exact h1

end Verif.Nsp
