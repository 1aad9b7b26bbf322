import Verif.Nsp.Reasm
import Verif.Nsp.Send7

/-! The packets a connection transmits, and the acknowledgments in them. -/
namespace Verif.Nsp

variable {inp : Inp}

/-- Where a transmitted packet comes from. -/
theorem Mi.txs {c c' : Conn} (h : Mi inp c c') (m : Msg) (hm : Out.tx m ∈ c'.log) :
    Out.tx m ∈ c.log ∨
    (∃ ch, m.body.unqueued = true ∧ AckFresh c ch m ∧ (m.body = .ackData ∧ ch = .data ∨
      m.body = .ackOther ∧ ch = .other ∨ m.ack = none ∧ m.ack2 = none)) ∨
    (∃ (ch : Chan) (i : Nat) (x : QEnt), (c.sub ch).pending[i]? = some x ∧ (x.sent = false ∨ x.tries < c.cfg.retransmits) ∧
      Refill c ch x.msg m ∧
      (x.msg.body.isData = true → flowOk c (headSeg (c.sub ch).pending) x = true)) := by
  have same : ∀ {l : List Out}, l = c.log → Out.tx m ∈ l → Out.tx m ∈ c.log := by
    intro l h1 h2; rw [← h1]; exact h2
  have one : ∀ {l : List Out} {o : Out}, l = c.log ++ [o] → (∀ m, o ≠ .tx m) → Out.tx m ∈ l →
      Out.tx m ∈ c.log := by
    intro l o h1 h2 h3
    rw [h1, List.mem_append, List.mem_singleton] at h3
    rcases h3 with h3 | h3
    · exact h3
    · exact absurd h3.symm (h2 m)
  have del : ∀ {c1 : Conn} {ch : Chan} {m' : Msg}, c1.log = c.log →
      Out.tx m ∈ (deliver (book c1 ch m') m').log → Out.tx m ∈ c.log := by
    intro c1 ch m' h1 h2
    obtain ⟨l, hl, ho⟩ := deliver_log (book c1 ch m') m'
    rw [hl, List.mem_append] at h2
    have hb : (book c1 ch m').log = c1.log ++ [.up ch m'] := by cases ch <;> rfl
    rcases h2 with h2 | h2
    · rw [hb, h1] at h2
      exact one rfl (by intro m h; cases h) h2
    · rcases ho _ h2 with ⟨_, h⟩ | ⟨_, h⟩ | ⟨_, _, _, _, h⟩ <;> cases h
  cases h with
  | flags hs a h a' h' => exact Or.inl hm
  | timer hs b => exact Or.inl hm
  | opt b => exact Or.inl (one rfl (by intro m h; cases h) hm)
  | send hs ch' m' hb ha hch =>
    have hm' : Out.tx m ∈ c.log ++ [.tx m'] := hm
    rw [List.mem_append, List.mem_singleton] at hm'
    rcases hm' with h | h
    · exact Or.inl h
    · obtain rfl : m = m' := by simpa using h
      exact Or.inr (Or.inl ⟨ch', hb, ha, hch⟩)
  | fire hs ch' i x m' hx ht hr' hf =>
    have hm' : Out.tx m ∈ c.log ++ [.tx m'] := by cases ch' <;> exact hm
    rw [List.mem_append, List.mem_singleton] at hm'
    rcases hm' with h | h
    · exact Or.inl h
    · obtain rfl : m = m' := by simpa using h
      exact Or.inr (Or.inr ⟨ch', i, x, hx, ht, hr', hf⟩)
  | block hs ch' i x hx ht => exact Or.inl (same (by cases ch' <;> rfl) hm)
  | idle hs ch' i x hx => exact Or.inl (same (by cases ch' <;> rfl) hm)
  | enqCtl hs b hb => exact Or.inl hm
  | enqData hs hd bom eom p => exact Or.inl hm
  | enqInt hs hd p hp hc => exact Or.inl hm
  | enqLs hs => exact Or.inl hm
  | setMax hs ch' k => exact Or.inl (same (by cases ch' <;> rfl) hm)
  | drop hs ch' n k => exact Or.inl (same (by cases ch' <;> rfl) hm)
  | upNew hs ch' m' k hi hm' hk ho => exact Or.inl (del rfl hm)
  | upOld hs ch' m' hi hm' => exact Or.inl (del (by cases ch' <;> rfl) hm)
  | oooAdd hs ch' m' k hi hm' h1 h2 => exact Or.inl (same (by cases ch' <;> rfl) hm)
  | confirm hs m' n hi f i s b hb => exact Or.inl hm
  | setDst hs a => exact Or.inl hm
  | accepted hs b => exact Or.inl (one (o := .scAccept b) rfl (by intro m h; cases h) hm)
  | toCd hs => exact Or.inl hm
  | toCc hs => exact Or.inl hm
  | crRun hs => exact Or.inl hm
  | ccRun hs => exact Or.inl (one (o := .scRun) rfl (by intro m h; cases h) hm)
  | clear hs => exact Or.inl hm
  | toDi hs => exact Or.inl hm
  | shut hs r p => exact Or.inl hm
  | tell hs r b rej => exact Or.inl (one (o := .scDisc r b rej) rfl (by intro m h; cases h) hm)
  | close hs => exact Or.inl (one (o := .released c.srcaddr) rfl (by intro m h; cases h) hm)

theorem Mi.acknum_mono {c c' : Conn} (h : Mi inp c c') (ch : Chan) :
    (c.sub ch).acknum ≤ (c'.sub ch).acknum := by
  have up : ∀ (c1 : Conn) (m : Msg) (ch' : Chan), (c1.sub ch).acknum = (c.sub ch).acknum →
      (c.sub ch).acknum ≤ ((deliver (book c1 ch' m) m).sub ch).acknum := by
    intro c1 m ch' h1
    rw [(sameRecv_deliver _ m).acknum]
    rcases chan_cases ch' ch with rfl | rfl
    · rw [book_acknum, h1]; omega
    · rw [book_acknum_cross, h1]; omega
  cases h.rx with
  | same h1 => rename_i h1 h2 h3; exact Nat.le_of_eq (h1 ch).symm
  | upNew ch' m k hs hi hm hk ho => exact up c m ch' rfl
  | upOld ch' m hs hm => exact up _ m ch' (by cases ch <;> cases ch' <;> rfl)
  | oooAdd ch' m k hs hi hm h1 h2 => cases ch <;> cases ch' <;> exact Nat.le_refl _

/-- The ack fields of a packet of subchannel `ch` acknowledge only what was accepted. -/
def AckB (c : Conn) (ch : Chan) (m : Msg) : Prop :=
  (∀ n, m.ack = some n → n.qual = 0 ∧ n.num ≤ (c.sub ch).acknum) ∧
  (∀ n, m.ack2 = some n → n.qual = 2 ∧ n.num ≤ (c.sub ch.cross).acknum)

theorem AckB.mono {c c' : Conn} {ch : Chan} {m : Msg} (h : AckB c ch m)
    (hm : ∀ ch, (c.sub ch).acknum ≤ (c'.sub ch).acknum) : AckB c' ch m :=
  ⟨fun n hn => ⟨(h.1 n hn).1, Nat.le_trans (h.1 n hn).2 (hm _)⟩,
    fun n hn => ⟨(h.2 n hn).1, Nat.le_trans (h.2 n hn).2 (hm _)⟩⟩

theorem AckB.fresh {c : Conn} {ch : Chan} {m : Msg} (h : AckFresh c ch m) : AckB c ch m := by
  refine ⟨fun n hn => ?_, fun n hn => ?_⟩
  · rcases h.1 with h | h <;> rw [h] at hn
    · cases hn
    · cases hn; exact ⟨rfl, Nat.le_refl _⟩
  · rcases h.2 with h | h <;> rw [h] at hn
    · cases hn
    · cases hn; exact ⟨rfl, Nat.le_refl _⟩

theorem AckB.refill {c : Conn} {ch : Chan} {m m' : Msg} (h : AckB c ch m) (hr : Refill c ch m m') :
    AckB c ch m' := by
  refine ⟨fun n hn => ?_, fun n hn => ?_⟩
  · rcases hr.ack with h' | h' <;> rw [h'] at hn
    · exact h.1 n hn
    · cases hn; exact ⟨rfl, Nat.le_refl _⟩
  · rcases hr.ack2 with h' | h' <;> rw [h'] at hn
    · exact h.2 n hn
    · cases hn; exact ⟨rfl, Nat.le_refl _⟩

theorem AckB.none {c : Conn} {ch : Chan} {m : Msg} (h1 : m.ack = none) (h2 : m.ack2 = none) :
    AckB c ch m := ⟨(fun n hn => by rw [h1] at hn; cases hn), (fun n hn => by rw [h2] at hn; cases hn)⟩

theorem Refill.chan {c : Conn} {ch : Chan} {m m' : Msg} (h : Refill c ch m m') :
    m'.body.chan = m.body.chan := by
  rcases h.body with h | ⟨r, r', f, i, s, p, h1, h2⟩
  · rw [h]
  · rw [h1, h2]; rfl

/-- No packet ever claims more than was accepted. -/
structure AckI (c : Conn) : Prop where
  q : ∀ ch x, x ∈ (c.sub ch).pending →
    AckB c ch x.msg ∧ (x.msg.body.chan = none ∨ x.msg.body.chan = some ch)
  t : ∀ m ch, Out.tx m ∈ c.log → m.body.chan = some ch → AckB c ch m

theorem AckI.queue {c : Conn} {ch : Chan} {q' : List QEnt} (hi : AckI c)
    (h : QCh inp c ch (c.sub ch).pending q') :
    ∀ x ∈ q', AckB c ch x.msg ∧ (x.msg.body.chan = none ∨ x.msg.body.chan = some ch) := by
  generalize hq : (c.sub ch).pending = q at h
  have ho : ∀ x ∈ q, AckB c ch x.msg ∧ (x.msg.body.chan = none ∨ x.msg.body.chan = some ch) := by
    rw [← hq]; exact hi.q ch
  have hset : ∀ i x y, q[i]? = some x → AckB c ch y.msg ∧ y.msg.body.chan = x.msg.body.chan →
      ∀ z ∈ q.set i y, AckB c ch z.msg ∧ (z.msg.body.chan = none ∨ z.msg.body.chan = some ch) := by
    intro i x y hx hy z hz
    rcases List.mem_or_eq_of_mem_set hz with h | rfl
    · exact ho z h
    · rw [hy.2]; exact ⟨hy.1, (ho x (List.mem_of_getElem? hx)).2⟩
  have happ : ∀ y : QEnt, AckB c ch y.msg → (y.msg.body.chan = none ∨ y.msg.body.chan = some ch) →
      ∀ z ∈ q ++ [y], AckB c ch z.msg ∧ (z.msg.body.chan = none ∨ z.msg.body.chan = some ch) := by
    intro y hy hy2 z hz
    rw [List.mem_append, List.mem_singleton] at hz
    rcases hz with hz | rfl
    · exact ho z hz
    · exact ⟨hy, hy2⟩
  cases h with
  | same => exact ho
  | fire i x m hx ht hr hf =>
    exact hset i x _ hx ⟨(ho x (List.mem_of_getElem? hx)).1.refill hr, hr.chan⟩
  | block i x hx ht => exact hset i x _ hx ⟨(ho x (List.mem_of_getElem? hx)).1, rfl⟩
  | idle i x hx => exact hset i x _ hx ⟨(ho x (List.mem_of_getElem? hx)).1, rfl⟩
  | ctl b hb hc =>
    refine happ _ (AckB.none rfl rfl) (Or.inl ?_)
    show b.chan = none
    cases b <;> first | rfl | cases hb
  | data bom eom p hs hc => exact happ _ (AckB.none rfl rfl) (Or.inr (by rw [hc]; rfl))
  | int p hp hs hm hc => exact happ _ (AckB.none rfl rfl) (Or.inr (by rw [hc]; rfl))
  | ls hc => exact happ _ (AckB.none rfl rfl) (Or.inr (by rw [hc]; rfl))
  | drop n => intro x hx; exact ho x (List.mem_of_mem_drop hx)
  | clear => intro x hx; cases hx

theorem Mi.ackI {c c' : Conn} (h : Mi inp c c') (hi : AckI c) : AckI c' := by
  have hmono := h.acknum_mono
  refine ⟨?_, ?_⟩
  · intro ch x hx
    obtain ⟨h1, h2⟩ := hi.queue (h.queue ch) x hx
    exact ⟨h1.mono hmono, h2⟩
  · intro m ch hm hch
    refine AckB.mono ?_ hmono
    rcases h.txs m hm with hm | ⟨ch', hb, ha, hc⟩ | ⟨ch', i, x, hx, ht, hr, hf⟩
    · exact hi.t m ch hm hch
    · rcases hc with ⟨h1, rfl⟩ | ⟨h1, rfl⟩ | ⟨h1, h2⟩
      · rw [h1] at hch; cases hch; exact AckB.fresh ha
      · rw [h1] at hch; cases hch; exact AckB.fresh ha
      · exact AckB.none h1 h2
    · obtain ⟨h1, h2⟩ := hi.q ch' x (List.mem_of_getElem? hx)
      rw [hr.chan] at hch
      rcases h2 with h2 | h2
      · rw [h2] at hch; cases hch
      · rw [h2] at hch; cases hch
        exact h1.refill hr

theorem start_ackI {c : Conn} (h : Start c) : AckI c := by
  cases h with
  | out cfg id p =>
    rw [newOut_form]
    refine ⟨?_, ?_⟩
    · intro ch x hx
      cases ch with
      | data =>
        obtain rfl := List.mem_singleton.1 hx
        exact ⟨AckB.none rfl rfl, Or.inl rfl⟩
      | other => cases hx
    · intro m ch hm hch
      have := List.mem_singleton.1 hm
      cases this
      cases hch
  | inc cfg id r f i s p =>
    rw [newIn_form]
    refine ⟨?_, ?_⟩
    · intro ch x hx
      cases ch <;> cases hx
    · intro m ch hm hch
      dsimp only at hm
      rw [List.mem_append, List.mem_singleton] at hm
      rcases hm with hm | hm
      · split_ifs at hm
        · rw [List.mem_singleton] at hm; cases hm; cases hch
        · cases hm
      · cases hm

theorem Run.ackI {c0 c : Conn} {es : List Ev} (h : Run c0 es c) (h0 : Start c0) : AckI c :=
  h.inv (fun _ _ _ hm hp => hm.ackI hp) (start_base h0) (start_ackI h0)

end Verif.Nsp
