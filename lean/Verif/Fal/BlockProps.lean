import Verif.Fal.Block
import Mathlib.Data.List.Forall2

/-!
# DAP messages arrive one by one

The peer splits the blocks it gets; what it finds is what was sent, whatever the configuration it announced and
wherever the sender flushed.
-/

namespace Verif.Fal

/-- The messages an application sends. -/
def sent : List Op → List Msg
  | [] => []
  | .send m :: ops => m :: sent ops
  | .flush :: ops => sent ops

/-! ## One block -/

theorem next_enc0 (m : Msg) : next (enc0 m) = some (m, []) := by
  unfold enc0 next
  rfl

theorem next_enc1 (m : Msg) (h : m.body.length < 256) (r : Bytes) : next (enc1 m ++ r) = some (m, r) := by
  have e : (UInt8.ofNat m.body.length).toNat = m.body.length := by
    rw [UInt8.toNat_ofNat']; exact Nat.mod_eq_of_lt h
  simp only [enc1, List.cons_append, next, e, if_true, List.length_append]
  rw [if_neg (by omega)]
  simp

theorem next_enc2 (m : Msg) (h : m.body.length < 65536) (r : Bytes) : next (enc2 m ++ r) = some (m, r) := by
  have e1 : (UInt8.ofNat (m.body.length % 256)).toNat = m.body.length % 256 := by
    rw [UInt8.toNat_ofNat']; exact Nat.mod_eq_of_lt (by omega)
  have e2 : (UInt8.ofNat (m.body.length / 256)).toNat = m.body.length / 256 := by
    rw [UInt8.toNat_ofNat']; exact Nat.mod_eq_of_lt (by omega)
  simp only [enc2, List.cons_append, next, e1, e2]
  have e3 : m.body.length % 256 + m.body.length / 256 * 256 = m.body.length := by omega
  rw [if_neg (by decide), if_pos trivial, e3, if_neg (by rw [List.length_append]; omega)]
  simp

/-- A block that holds these messages. -/
inductive Blk : Bytes → List Msg → Prop
  | nil : Blk [] []
  | one {m r ms} : m.body.length < 256 → Blk r ms → Blk (enc1 m ++ r) (m :: ms)
  | two {m r ms} : m.body.length < 65536 → Blk r ms → Blk (enc2 m ++ r) (m :: ms)
  | last {m} : Blk (enc0 m) [m]

theorem Blk.next {b : Bytes} {ms : List Msg} (h : Blk b ms) (hb : b ≠ []) :
    ∃ m r ms', ms = m :: ms' ∧ next b = some (m, r) ∧ Blk r ms' := by
  cases h with
  | nil => exact absurd rfl hb
  | one h1 h2 => exact ⟨_, _, _, rfl, next_enc1 _ h1 _, h2⟩
  | two h1 h2 => exact ⟨_, _, _, rfl, next_enc2 _ h1 _, h2⟩
  | last => exact ⟨_, _, _, rfl, next_enc0 _, .nil⟩

theorem Blk.empty {ms : List Msg} (h : Blk [] ms) : ms = [] := by
  cases hb : ms with
  | nil => rfl
  | cons m ms' =>
    rw [hb] at h
    generalize hx : ([] : Bytes) = x at h
    cases h with
    | one _ _ => simp [enc1] at hx
    | two _ _ => simp [enc2] at hx
    | last => simp [enc0] at hx

def Full (b : Bytes) (ms : List Msg) : Prop := b ≠ [] ∧ Blk b ms

/-- What the receiver makes of blocks. -/
theorem drains (n : Nat) (rx : Bytes) (bs : List Bytes) (ms : List Msg) (mss : List (List Msg))
    (hn : rx.length + (bs.map fun b => b.length + 1).sum < n)
    (h1 : Blk rx ms) (h2 : List.Forall₂ Full bs mss) :
    ∃ l, Drains rx bs l ∧ l = (ms ++ mss.flatten).filter (fun m => m.typ ≠ 1) := by
  -- one message at a time
  suffices H : ∀ n (rx : Bytes) (bs : List Bytes) (ms : List Msg) (mss : List (List Msg)),
      rx.length + (bs.map fun b => b.length + 1).sum < n → Blk rx ms → List.Forall₂ Full bs mss →
      (recv rx bs = .gone ∧ (ms ++ mss.flatten).filter (fun m => m.typ ≠ 1) = []) ∨
      ∃ m rx' bs' ms' mss', recv rx bs = .msg m rx' bs' ∧
        rx'.length + (bs'.map fun b => b.length + 1).sum < rx.length + (bs.map fun b => b.length + 1).sum ∧
        Blk rx' ms' ∧ List.Forall₂ Full bs' mss' ∧
        (ms ++ mss.flatten).filter (fun m => m.typ ≠ 1) =
          m :: (ms' ++ mss'.flatten).filter (fun m => m.typ ≠ 1) by
    induction n generalizing rx bs ms mss with
    | zero => omega
    | succ n ih =>
      rcases H (n + 1) rx bs ms mss hn h1 h2 with ⟨e1, e2⟩ | ⟨m, rx', bs', ms', mss', e1, e2, e3, e4, e5⟩
      · exact ⟨[], .gone e1, e2.symm⟩
      · obtain ⟨l, d1, d2⟩ := ih rx' bs' ms' mss' (by omega) e3 e4
        exact ⟨m :: l, .msg e1 d1, by rw [e5, d2]⟩
  clear hn h1 h2 ms mss rx bs n
  intro n
  induction n with
  | zero => intro rx bs ms mss hn; omega
  | succ n ih =>
    intro rx bs ms mss hn h1 h2
    have step : ∀ (b : Bytes) (bs : List Bytes) (ms : List Msg) (mss : List (List Msg)),
        b ≠ [] → Blk b ms → List.Forall₂ Full bs mss →
        b.length + (bs.map fun b => b.length + 1).sum < n + 1 → ∀ g,
        (∀ m r, Verif.Fal.next b = some (m, r) → g = if m.typ = 1 then recv r bs else Got.msg m r bs) →
        (g = .gone ∧ (ms ++ mss.flatten).filter (fun m => m.typ ≠ 1) = []) ∨
        ∃ m rx' bs' ms' mss', g = .msg m rx' bs' ∧
          rx'.length + (bs'.map fun b => b.length + 1).sum < b.length + (bs.map fun b => b.length + 1).sum ∧
          Blk rx' ms' ∧ List.Forall₂ Full bs' mss' ∧
          (ms ++ mss.flatten).filter (fun m => m.typ ≠ 1) =
            m :: (ms' ++ mss'.flatten).filter (fun m => m.typ ≠ 1) := by
      intro b bs ms mss hb h1 h2 hn g hg
      obtain ⟨m, r, ms', rfl, e1, e2⟩ := h1.next hb
      have hl := next_shorter e1
      rw [hg m r e1]
      by_cases hm : m.typ = 1
      · rw [if_pos hm]
        rcases ih r bs ms' mss (by omega) e2 h2 with ⟨f1, f2⟩ | ⟨m', rx', bs', ms1, mss', f1, f2, f3, f4, f5⟩
        · exact Or.inl ⟨f1, by rw [List.cons_append, List.filter_cons_of_neg (by simp [hm])]; exact f2⟩
        · exact Or.inr ⟨m', rx', bs', ms1, mss', f1, by omega, f3, f4, by
            rw [List.cons_append, List.filter_cons_of_neg (by simp [hm])]; exact f5⟩
      · rw [if_neg hm]
        exact Or.inr ⟨m, r, bs, ms', mss, rfl, by omega, e2, h2, by
          rw [List.cons_append, List.filter_cons_of_pos (by simp [hm])]⟩
    cases rx with
    | nil =>
      rw [h1.empty]
      cases h2 with
      | nil => left; constructor; · rw [recv]
               · rfl
      | @cons b ms1 bs mss hab ht =>
        simp only [List.map_cons, List.sum_cons, List.length_nil] at hn
        rcases step b bs ms1 mss hab.1 hab.2 ht (by omega) (recv [] (b :: bs)) (by
          intro m r e
          rw [recv]
          split
          · rename_i h; rw [h] at e; cases e
          · rename_i m' r' h
            rw [h] at e
            simp only [Option.some.injEq, Prod.mk.injEq] at e
            obtain ⟨rfl, rfl⟩ := e
            rfl) with h | ⟨m, rx', bs', ms', mss', f1, f2, f3, f4, f5⟩
        · exact Or.inl (by simpa using h)
        · refine Or.inr ⟨m, rx', bs', ms', mss', f1, ?_, f3, f4, ?_⟩
          · simp only [List.map_cons, List.sum_cons, List.length_nil]; omega
          · simpa using f5
    | cons a rx =>
      exact step (a :: rx) bs ms mss (by simp) h1 h2 hn _ (by
        intro m r e
        rw [recv]
        split
        · rename_i h; rw [h] at e; cases e
        · rename_i m' r' h
          rw [h] at e
          simp only [Option.some.injEq, Prod.mk.injEq] at e
          obtain ⟨rfl, rfl⟩ := e
          rfl)

/-! ## The sender -/

/-- An encoding with its length in it. -/
def Enc (e : Bytes) (m : Msg) : Prop :=
  (e = enc1 m ∧ m.body.length < 256) ∨ (e = enc2 m ∧ m.body.length < 65536)

theorem Enc.blk {es : List Bytes} {ms : List Msg} (h : List.Forall₂ Enc es ms) {b : Bytes} {l : List Msg}
    (hb : Blk b l) : Blk (es.flatten ++ b) (ms ++ l) := by
  induction h with
  | nil => exact hb
  | cons hab _ ih =>
    rw [List.flatten_cons, List.append_assoc, List.cons_append]
    rcases hab with ⟨rfl, h⟩ | ⟨rfl, h⟩
    · exact .one h ih
    · exact .two h ih

theorem Enc.ne {e : Bytes} {m : Msg} (h : Enc e m) : e ≠ [] := by
  rcases h with ⟨rfl, _⟩ | ⟨rfl, _⟩ <;> simp [enc1, enc2]

/-- What is kept: the messages not yet sent, in blocks that can be added to, and their length. -/
structure Keeps (p : Peer) (t : Tx) (ms : List Msg) : Prop where
  enc : List.Forall₂ Enc t.data ms
  off : p.blocking = false → ms = []
  len : t.len = t.data.flatten.length
  size : t.len ≤ p.limit + 2

theorem flush_keeps {p : Peer} {t : Tx} {ms : List Msg} (h : Keeps p t ms) :
    ∃ mss, Keeps p (flush t).1 [] ∧ List.Forall₂ Full (flush t).2 mss ∧ ms = mss.flatten ∧
      ∀ b ∈ (flush t).2, b.length ≤ p.limit + 2 := by
  unfold flush
  by_cases hd : t.data = []
  · rw [if_pos hd]
    have : ms = [] := by have := h.enc; rw [hd] at this; cases this; rfl
    subst this
    exact ⟨[], h, .nil, rfl, by simp⟩
  · rw [if_neg hd]
    refine ⟨[ms], ⟨.nil, fun _ => rfl, rfl, by simp⟩, .cons ⟨?_, ?_⟩ .nil, by simp, ?_⟩
    · have h1 := h.enc
      cases hx : t.data with
      | nil => exact absurd hx hd
      | cons e es =>
        rw [hx] at h1
        cases h1 with
        | cons hab _ => simp [hab.ne]
    · have := Enc.blk h.enc .nil
      simpa using this
    · intro b hb
      rw [List.mem_singleton] at hb
      rw [hb]
      have := h.len
      have := h.size
      omega

theorem limit_le (p : Peer) : p.limit ≤ 65535 := Nat.min_le_right _ _

theorem send_keeps {p : Peer} {t t' : Tx} {ms : List Msg} {out : List Bytes} {m : Msg} (h : Keeps p t ms)
    (hs : send p t m = some (t', out)) :
    ∃ mss ms', Keeps p t' ms' ∧ List.Forall₂ Full out mss ∧ ms ++ [m] = mss.flatten ++ ms' ∧
      ∀ b ∈ out, b.length ≤ p.limit + 2 := by
  have hl : (enc0 m).length = m.body.length + 2 := by simp [enc0]
  have hp := limit_le p
  unfold send at hs
  simp only [] at hs
  split at hs
  · cases hs
  · rename_i hlim
    rw [hl] at hlim hs
    cases hb : p.blocking with
    | false =>
      rw [hb] at hs
      simp only [Bool.not_false, if_true, Option.some.injEq, Prod.mk.injEq] at hs
      obtain ⟨rfl, rfl⟩ := hs
      have hms := h.off hb
      subst hms
      refine ⟨[[m]], [], h, .cons ⟨by simp [enc0], .last⟩ .nil, by simp, ?_⟩
      intro b hb
      rw [List.mem_singleton] at hb
      rw [hb, hl]; omega
    | true =>
      rw [hb] at hs
      simp only [Bool.not_true, Bool.false_eq_true, if_false] at hs
      -- first the flush, if there is no room
      obtain ⟨t1, out1, ms1, mss1, e1, k1, k2, k3, k4, k5⟩ : ∃ t1 out1 ms1 mss1,
          (if p.limit < t.len + (m.body.length + 2) then flush t else (t, [])) = (t1, out1) ∧
          Keeps p t1 ms1 ∧ List.Forall₂ Full out1 mss1 ∧ ms = mss1.flatten ++ ms1 ∧
          (∀ b ∈ out1, b.length ≤ p.limit + 2) ∧ t1.len + (m.body.length + 2) ≤ p.limit := by
        split
        · obtain ⟨mss, f1, f2, f3, f4⟩ := flush_keeps h
          refine ⟨(flush t).1, (flush t).2, [], mss, rfl, f1, f2, by simp [f3], f4, ?_⟩
          have := f1.len
          have hz : (flush t).1.data = [] := by cases hx : (flush t).1.data with
            | nil => rfl
            | cons => have := f1.enc; rw [hx] at this; cases this
          rw [hz, List.flatten_nil, List.length_nil] at this
          rw [this]
          omega
        · exact ⟨t, [], ms, [], rfl, h, .nil, rfl, by simp, by omega⟩
      rw [e1] at hs
      simp only [] at hs
      split at hs
      · -- a long message without length, at the end of the block
        rename_i hlong
        have hfl : flush { t1 with data := t1.data ++ [enc0 m] } =
            ({}, [(t1.data ++ [enc0 m]).flatten]) := by
          unfold flush; rw [if_neg (by simp)]
        rw [hfl] at hs
        simp only [Option.some.injEq, Prod.mk.injEq] at hs
        obtain ⟨rfl, rfl⟩ := hs
        refine ⟨mss1 ++ [ms1 ++ [m]], [], ⟨.nil, fun _ => rfl, rfl, by simp⟩, ?_, ?_, ?_⟩
        · refine List.rel_append k2 (.cons ⟨by simp [enc0], ?_⟩ .nil)
          rw [List.flatten_append]
          refine Enc.blk k1.enc ?_
          simpa using (Blk.last (m := m))
        · rw [k3]; simp
        · intro b hb
          rcases List.mem_append.1 hb with hb | hb
          · exact k4 b hb
          · rw [List.mem_singleton] at hb
            rw [hb]
            have := k1.len
            simp only [List.flatten_append, List.length_append, List.flatten_cons, List.flatten_nil,
              List.append_nil, hl]
            omega
      · split at hs
        · rename_i hshort
          simp only [Option.some.injEq, Prod.mk.injEq] at hs
          obtain ⟨rfl, rfl⟩ := hs
          refine ⟨mss1, ms1 ++ [m], ⟨?_, fun h => (by rw [hb] at h; cases h), ?_, ?_⟩, k2, by rw [k3]; simp, k4⟩
          · exact List.rel_append k1.enc (.cons (Or.inl ⟨rfl, by omega⟩) .nil)
          · have := k1.len
            simp only [List.flatten_append, List.length_append, List.flatten_cons, List.flatten_nil,
              List.append_nil, enc1, List.length_cons]
            omega
          · simp only []; omega
        · simp only [Option.some.injEq, Prod.mk.injEq] at hs
          obtain ⟨rfl, rfl⟩ := hs
          refine ⟨mss1, ms1 ++ [m], ⟨?_, fun h => (by rw [hb] at h; cases h), ?_, ?_⟩, k2, by rw [k3]; simp, k4⟩
          · exact List.rel_append k1.enc (.cons (Or.inr ⟨rfl, by omega⟩) .nil)
          · have := k1.len
            simp only [List.flatten_append, List.length_append, List.flatten_cons, List.flatten_nil,
              List.append_nil, enc2, List.length_cons]
            omega
          · simp only []; omega

theorem exec_keeps {p : Peer} (ops : List Op) {t t' : Tx} {ms : List Msg} {out : List Bytes}
    (h : Keeps p t ms) (hs : exec p t ops = some (t', out)) :
    ∃ mss ms', Keeps p t' ms' ∧ List.Forall₂ Full out mss ∧ ms ++ sent ops = mss.flatten ++ ms' ∧
      ∀ b ∈ out, b.length ≤ p.limit + 2 := by
  induction ops generalizing t ms out with
  | nil =>
    simp only [exec, Option.some.injEq, Prod.mk.injEq] at hs
    obtain ⟨rfl, rfl⟩ := hs
    exact ⟨[], ms, h, .nil, by simp [sent], by simp⟩
  | cons op ops ih =>
    cases op with
    | send m =>
      simp only [exec, Option.bind_eq_bind, Option.bind_eq_some_iff, Prod.exists, Option.some.injEq,
        Prod.mk.injEq] at hs
      obtain ⟨t1, o1, e1, t2, o2, e2, rfl, rfl⟩ := hs
      obtain ⟨m1, l1, a1, a2, a3, a4⟩ := send_keeps h e1
      obtain ⟨m2, l2, b1, b2, b3, b4⟩ := ih a1 e2
      refine ⟨m1 ++ m2, l2, b1, List.rel_append a2 b2, ?_, ?_⟩
      · rw [sent, List.flatten_append, List.append_assoc, ← b3, ← List.append_assoc, ← a3]; simp
      · intro b hb
        rcases List.mem_append.1 hb with hb | hb
        · exact a4 b hb
        · exact b4 b hb
    | flush =>
      simp only [exec, Option.bind_eq_bind, Option.bind_eq_some_iff, Prod.exists, Option.some.injEq,
        Prod.mk.injEq] at hs
      obtain ⟨t2, o2, e2, rfl, rfl⟩ := hs
      obtain ⟨m1, a1, a2, a3, a4⟩ := flush_keeps h
      obtain ⟨m2, l2, b1, b2, b3, b4⟩ := ih a1 e2
      refine ⟨m1 ++ m2, l2, b1, List.rel_append a2 b2, ?_, ?_⟩
      · rw [sent, List.flatten_append, List.append_assoc, ← b3, a3]; simp
      · intro b hb
        rcases List.mem_append.1 hb with hb | hb
        · exact a4 b hb
        · exact b4 b hb

theorem start_keeps (p : Peer) : Keeps p {} [] := ⟨.nil, fun _ => rfl, rfl, by simp⟩

theorem exec_append (p : Peer) (t : Tx) (a b : List Op) :
    exec p t (a ++ b) = (exec p t a).bind fun x => (exec p x.1 b).bind fun y => some (y.1, x.2 ++ y.2) := by
  induction a generalizing t with
  | nil => cases h : exec p t b <;> simp [exec, h]
  | cons op a ih =>
    cases op with
    | send m =>
      cases hs : send p t m with
      | none => simp [exec, hs]
      | some x =>
        obtain ⟨t1, o1⟩ := x
        simp only [List.cons_append, exec, hs, Option.bind_eq_bind, Option.bind_some, ih]
        cases exec p t1 a with
        | none => simp
        | some y =>
          simp only [Option.bind_some]
          cases exec p y.1 b <;> simp
    | flush =>
      simp only [List.cons_append, exec, ih, Option.bind_eq_bind]
      cases exec p (flush t).1 a with
      | none => simp
      | some y =>
        simp only [Option.bind_some]
        cases exec p y.1 b <;> simp

theorem flush_empties (t : Tx) : (flush t).1.data = [] := by
  unfold flush; split <;> simp_all

/-- **Messages arrive.**  Send any messages to any peer, flushing where one likes and at the end: the blocks
given to the connection, split by the receiver, are those messages, in their order, each once; only
configuration messages are taken out, being answered by the receiver itself. -/
theorem messages_arrive (p : Peer) (ops : List Op) (t : Tx) (out : List Bytes)
    (h : exec p {} (ops ++ [.flush]) = some (t, out)) :
    ∃ l, Drains [] out l ∧ l = (sent ops).filter (fun m => m.typ ≠ 1) := by
  obtain ⟨mss, ms', k1, k2, k3, -⟩ := exec_keeps _ (start_keeps p) h
  have hz : t.data = [] := by
    rw [exec_append] at h
    simp only [Option.bind_eq_some_iff, Prod.exists, Option.some.injEq, Prod.mk.injEq, exec,
      Option.bind_eq_bind] at h
    obtain ⟨t1, o1, -, t2, o2, ⟨t3, o3, e, e', e''⟩, rfl, -⟩ := h
    rw [← e', ← e.1]
    exact flush_empties t1
  have : ms' = [] := by have := k1.enc; rw [hz] at this; cases this; rfl
  subst this
  have hsent : sent (ops ++ [.flush]) = sent ops := by
    clear h k3
    induction ops with
    | nil => rfl
    | cons op ops ih => cases op <;> simp [sent, ih]
  rw [List.nil_append, List.append_nil, hsent] at k3
  obtain ⟨l, d1, d2⟩ := drains _ [] out [] mss (Nat.lt_succ_self _) .nil k2
  exact ⟨l, d1, by rw [d2, k3]; simp⟩

/-- **And no message is ever lost before that.**  What has left and what is kept are the messages sent so far,
in order. -/
theorem nothing_lost (p : Peer) (ops : List Op) (t : Tx) (out : List Bytes)
    (h : exec p {} ops = some (t, out)) :
    ∃ mss ms', List.Forall₂ Full out mss ∧ List.Forall₂ Enc t.data ms' ∧ sent ops = mss.flatten ++ ms' := by
  obtain ⟨mss, ms', k1, k2, k3, -⟩ := exec_keeps _ (start_keeps p) h
  exact ⟨mss, ms', k2, k1.enc, k3⟩

theorem send_iff (p : Peer) (t : Tx) (m : Msg) :
    (send p t m).isSome = true ↔ m.body.length + 2 ≤ p.limit := by
  have hl : (enc0 m).length = m.body.length + 2 := by simp [enc0]
  unfold send
  simp only [hl]
  split
  · simp; omega
  · split
    · simp; omega
    · have : m.body.length + 2 ≤ p.limit := by omega
      simp only [this, iff_true]
      split <;> (split <;> rfl)

/-- **What can be sent**: messages that fit in the peer's buffer, header included.  A peer without limit, which
says 0, can be sent nothing. -/
theorem can_send (p : Peer) (ops : List Op) (t : Tx) :
    (exec p t ops).isSome = true ↔ ∀ m ∈ sent ops, m.body.length + 2 ≤ min p.bufsiz 65535 := by
  induction ops generalizing t with
  | nil => simp [exec, sent]
  | cons op ops ih =>
    cases op with
    | send m =>
      have hs := send_iff p t m
      simp only [exec, sent, List.forall_mem_cons, Option.bind_eq_bind]
      cases hx : send p t m with
      | none =>
        rw [hx] at hs
        simp only [Option.isSome_none, Bool.false_eq_true, false_iff] at hs
        simp only [Option.bind_none, Option.isSome_none, Bool.false_eq_true, false_iff, not_and]
        exact fun h => absurd h hs
      | some y =>
        rw [hx] at hs
        simp only [Option.isSome_some, true_iff] at hs
        rw [← ih y.1]
        have hs' : m.body.length + 2 ≤ min p.bufsiz 65535 := hs
        cases he : exec p y.1 ops <;> simp [hs', he]
    | flush =>
      simp only [exec, sent, Option.bind_eq_bind]
      rw [← ih (flush t).1]
      cases exec p (flush t).1 ops <;> simp

theorem unlimited_peer (b l : Bool) (m : Msg) (t : Tx) : send ⟨0, b, l⟩ t m = none := by
  have := send_iff ⟨0, b, l⟩ t m
  cases h : send ⟨0, b, l⟩ t m with
  | none => rfl
  | some x => rw [h] at this; simp [Peer.limit] at this

/-- **The size of blocks**: at most two bytes more than the peer's buffer.  Missing from the claim that they fit:
see `block_too_large`. -/
theorem block_size_partial (p : Peer) (ops : List Op) (t : Tx) (out : List Bytes)
    (h : exec p {} ops = some (t, out)) : ∀ b ∈ out, b.length ≤ p.bufsiz + 2 := by
  obtain ⟨_, _, _, _, _, k⟩ := exec_keeps _ (start_keeps p) h
  intro b hb
  have := k b hb
  have : p.limit ≤ p.bufsiz := Nat.min_le_left _ _
  omega

/-- A peer that takes 10 bytes is sent 11. -/
theorem block_too_large :
    ∃ t out, exec ⟨10, true, true⟩ {} [.send ⟨6, [0, 0]⟩, .send ⟨6, [0, 0, 0]⟩, .flush] = some (t, out) ∧
      out.map List.length = [11] := ⟨_, _, rfl, by decide⟩

/-- Peers that do not announce blocking get each message by itself, at once, without a length. -/
theorem unblocked (p : Peer) (hp : p.blocking = false) (ops : List Op) (t : Tx) (out : List Bytes)
    (h : exec p {} ops = some (t, out)) : out = (sent ops).map enc0 := by
  suffices H : ∀ ops out, exec p {} ops = some (t, out) → out = (sent ops).map enc0 from H ops out h
  intro ops
  induction ops with
  | nil => intro out h; simp only [exec, Option.some.injEq, Prod.mk.injEq] at h; rw [← h.2]; rfl
  | cons op ops ih =>
    intro out h
    cases op with
    | send m =>
      simp only [exec, Option.bind_eq_bind, Option.bind_eq_some_iff, Prod.exists, Option.some.injEq,
        Prod.mk.injEq] at h
      obtain ⟨t1, o1, e1, t2, o2, e2, rfl, rfl⟩ := h
      unfold send at e1
      simp only [hp, Bool.not_false, if_true] at e1
      split at e1
      · cases e1
      · simp only [Option.some.injEq, Prod.mk.injEq] at e1
        obtain ⟨rfl, rfl⟩ := e1
        rw [ih _ e2]; rfl
    | flush =>
      simp only [exec, Option.bind_eq_bind, Option.bind_eq_some_iff, Prod.exists, Option.some.injEq,
        Prod.mk.injEq] at h
      obtain ⟨t2, o2, e2, rfl, rfl⟩ := h
      rw [ih _ e2]; rfl

/-- Two messages in one block, and what comes out. -/
example : exec ⟨100, true, false⟩ {} [.send ⟨6, []⟩, .send ⟨8, [0, 65]⟩, .flush] =
    some ({}, [[6, 2, 0, 8, 2, 2, 0, 65]]) := by decide

end Verif.Fal
