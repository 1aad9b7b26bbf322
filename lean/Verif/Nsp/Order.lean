import Verif.Nsp.E2e

/-! Order and completeness of what a subchannel passes up, for packets that arrive in time. -/
namespace Verif.Nsp

variable {inp : Inp}

/-- Order of the states along the life of a connection. -/
def State.rank : State → Nat
  | .ci => 0 | .cd => 1 | .cr => 2 | .cc => 3 | .run => 4 | .di => 5 | .closed => 6

/-- The state changes a connection may make. -/
def State.edge : State → State → Bool
  | .ci, .cd | .ci, .run | .cd, .run => true
  | .cr, .cc | .cr, .run | .cc, .run => true
  | .cr, .di | .run, .di => true
  | .ci, .closed | .cd, .closed | .cr, .closed | .cc, .closed | .run, .closed | .di, .closed => true
  | _, _ => false

theorem Mi.edge {c c' : Conn} (h : Mi inp c c') :
    c'.state = c.state ∨ c.state.edge c'.state = true := by
  cases h with
  | upNew hs ch m k hi hm hk ho => left; rw [(sameRecv_deliver _ m).state, book_state]
  | upOld hs ch m hi hm =>
    left
    rw [(sameRecv_deliver _ m).state, book_state]
    unfold eraseO; exact state_setSub c ch _
  | fire hs ch i x m hx ht hr hf => exact Or.inl (state_setSub c ch _)
  | block hs ch i x hx ht => exact Or.inl (state_setSub c ch _)
  | idle hs ch i x hx => exact Or.inl (state_setSub c ch _)
  | setMax hs ch k => exact Or.inl (state_setSub c ch _)
  | drop hs ch n k => exact Or.inl (state_setSub c ch _)
  | oooAdd hs ch m k hi hm h1 h2 => exact Or.inl (state_setSub c ch _)
  | accepted hs b => right; rcases hs with h | h <;> rw [h] <;> rfl
  | toCd hs => right; rw [hs]; rfl
  | toCc hs => right; rw [hs]; rfl
  | crRun hs => right; rw [hs]; rfl
  | ccRun hs => right; rw [hs]; rfl
  | toDi hs =>
    rcases hs with h | h | h
    · right; rw [h]; rfl
    · right; rw [h]; rfl
    · left; rw [h]
  | close hs =>
    right
    show State.edge c.state .closed = true
    cases h : c.state <;> first | rfl | exact absurd h hs
  | _ => exact Or.inl rfl

theorem Mi.rank {c c' : Conn} (h : Mi inp c c') : c.state.rank ≤ c'.state.rank := by
  rcases h.edge with h | h
  · rw [h]; exact Nat.le_refl _
  · revert h
    cases c.state <;> cases c'.state <;> decide

theorem Mis.rank {c c' : Conn} (h : Mis inp c c') : c.state.rank ≤ c'.state.rank := by
  induction h with
  | refl => exact Nat.le_refl _
  | tail _ h2 ih => exact Nat.le_trans ih h2.rank

/-- Labels of what was passed up and of what waits in the caches; `T` tells which packets have
arrived. -/
structure Lbl (T : Msg → Prop) (c : Conn) : Prop where
  seq : ∀ (ch : Chan) (i : Nat) (m : Msg), (ups ch c.log)[i]? = some m →
    m.body.seq = some (ch, i + 1) ∧ T m
  ooo : ∀ (ch : Chan), ∀ x ∈ (c.sub ch).ooo, ∃ k, T x.2 ∧ x.2.body.seq = some (ch, k) ∧ wire k = x.1 ∧
    (c.sub ch).acknum < k ∧ k ≤ (c.sub ch).acknum + 2047

theorem Lbl.mono {T T' : Msg → Prop} {c : Conn} (h : Lbl T c) (ht : ∀ m, T m → T' m) : Lbl T' c :=
  ⟨fun ch i m hm => ⟨(h.seq ch i m hm).1, ht _ (h.seq ch i m hm).2⟩,
   fun ch x hx => by
    obtain ⟨k, g1, g⟩ := h.ooo ch x hx
    exact ⟨k, ht _ g1, g⟩⟩

theorem RxCh.lbl {T : Msg → Prop} {c c' : Conn} (h : RxCh inp c c') (hr : Rcv c)
    (hb : Lbl T c)
    (hin : ∀ m n, inp = some (m, n) → ∀ ch k, m.body.seq = some (ch, k) →
      T m ∧ n ≤ k + 2047 ∧ k ≤ n + 2047) : Lbl T c' := by
  have up : ∀ (c1 : Conn) (ch : Chan) (m : Msg), c1.log = c.log →
      (∀ ch', (c1.sub ch').acknum = (c.sub ch').acknum) →
      (∀ ch', ∀ x ∈ (c1.sub ch').ooo, x ∈ (c.sub ch').ooo) →
      (∀ x ∈ (c1.sub ch).ooo, x.1 ≠ wire ((c.sub ch).acknum + 1)) →
      T m → m.body.seq = some (ch, (c.sub ch).acknum + 1) → Lbl T (deliver (book c1 ch m) m) := by
    intro c1 ch m h1 h2 h3 h4 h5 h6
    obtain ⟨l, hl, hu⟩ := deliver_log (book c1 ch m) m
    have hsame := sameRecv_deliver (book c1 ch m) m
    have hack := hr.ack ch
    have e : (book c1 ch m).log = c.log ++ [.up ch m] := by
      have : (book c1 ch m).log = c1.log ++ [.up ch m] := by cases ch <;> rfl
      rw [this, h1]
    refine ⟨?_, ?_⟩
    · intro ch' i m' hm'
      rw [hl, ups_append, hu.ups, List.append_nil, e, ups_append] at hm'
      rcases chan_cases ch ch' with rfl | rfl
      · have e2 : ups ch' [Out.up ch' m] = [m] := by simp [ups]
        rw [e2] at hm'
        rcases Nat.lt_or_ge i (ups ch' c.log).length with hlt | hge
        · rw [List.getElem?_append_left hlt] at hm'
          exact hb.seq ch' i m' hm'
        · rw [List.getElem?_append_right hge] at hm'
          have hi : i = (ups ch' c.log).length := by
            rcases Nat.lt_or_ge (ups ch' c.log).length i with hh | hh
            · rw [List.getElem?_eq_none (by simp; omega)] at hm'; cases hm'
            · omega
          subst hi
          rw [Nat.sub_self] at hm'
          cases hm'
          exact ⟨by rw [h6, hack], h5⟩
      · have e2 : ups ch.cross [Out.up ch m] = [] := by cases ch <;> rfl
        rw [e2, List.append_nil] at hm'
        exact hb.seq _ i m' hm'
    · intro ch' x hx
      rw [hsame.ooo, book_ooo] at hx
      obtain ⟨k, g1, g2, g3, g4, g5⟩ := hb.ooo ch' x (h3 ch' x hx)
      refine ⟨k, g1, g2, g3, ?_⟩
      rw [hsame.acknum]
      rcases chan_cases ch ch' with rfl | rfl
      · have hne := h4 x hx
        rw [← g3] at hne
        rw [book_acknum, h2]
        refine ⟨?_, by omega⟩
        rcases Nat.lt_or_ge ((c.sub ch').acknum + 1) k with hh | hh
        · exact hh
        · exfalso; apply hne
          have : k = (c.sub ch').acknum + 1 := by omega
          rw [this]
      · rw [book_acknum_cross, h2]; exact ⟨g4, g5⟩
  cases h with
  | same h1 =>
    rename_i h1 h2 h3
    obtain ⟨l, hl, hu⟩ := h3
    refine ⟨?_, ?_⟩
    · intro ch; rw [hl, ups_append, hu, List.append_nil]; exact hb.seq ch
    · intro ch x hx
      rw [h1 ch]
      exact hb.ooo ch x (h2 ch x hx)
  | upNew ch m k hs hi hm hk ho =>
    obtain ⟨g1, g2, g3⟩ := hin m _ hi ch k hm
    have hk' : k = (c.sub ch).acknum + 1 := by unfold wire at hk; omega
    refine up c ch m rfl (fun _ => rfl) (fun _ _ h => h) ?_ g1 (by rw [hm, hk'])
    intro x hx he
    unfold oooFind at ho
    rw [Option.map_eq_none_iff, List.find?_eq_none] at ho
    exact ho x hx (by rw [he]; exact beq_self_eq_true _)
  | upOld ch m hs hm =>
    obtain ⟨k, g1, g2, g3, g4, g5⟩ := hb.ooo ch _ (oooFind_mem hm)
    have hk' : k = (c.sub ch).acknum + 1 := by
      have g3' : wire k = wire ((c.sub ch).acknum + 1) := g3
      unfold wire at g3'
      omega
    refine up _ ch m (by cases ch <;> rfl) (fun ch' => by cases ch <;> cases ch' <;> rfl) ?_ ?_ g1
      (by rw [show m.body.seq = _ from g2, hk'])
    · intro ch' x hx
      unfold eraseO at hx
      rcases chan_cases ch ch' with rfl | rfl
      · rw [sub_setSub] at hx; exact (List.mem_filter.1 hx).1
      · rw [sub_setSub_cross] at hx; exact hx
    · intro x hx
      unfold eraseO at hx
      rw [sub_setSub] at hx
      simpa using (List.mem_filter.1 hx).2
  | oooAdd ch m k hs hi hm h1 h2 =>
    obtain ⟨g1, g2, g3⟩ := hin m _ hi ch k hm
    have elog : (c.setSub ch { c.sub ch with
        ooo := oooErase (c.sub ch).ooo (wire k) ++ [(wire k, m)] }).log = c.log := by cases ch <;> rfl
    refine ⟨by rw [elog]; exact hb.seq, ?_⟩
    intro ch' x hx
    rcases chan_cases ch ch' with rfl | rfl
    · rw [sub_setSub] at hx ⊢
      have hx' : x ∈ oooErase (c.sub ch').ooo (wire k) ++ [(wire k, m)] := hx
      rw [List.mem_append, List.mem_singleton] at hx'
      rcases hx' with hx' | rfl
      · exact hb.ooo ch' x (List.mem_filter.1 hx').1
      · refine ⟨k, g1, hm, rfl, ?_, g3⟩
        rw [seqLe_eq] at h1
        split_ifs at h1 with hd
        have h1' := of_decide_eq_false (Except.ok.inj h1)
        show (c.sub ch').acknum < k
        rcases Nat.lt_or_ge (c.sub ch').acknum k with hlt | hge
        · exact hlt
        · exfalso; apply h1'
          rw [dist_of_le hge (by omega)]; omega
    · rw [sub_setSub_cross] at hx ⊢
      exact hb.ooo _ x hx

theorem start_lbl {T : Msg → Prop} {c : Conn} (h : Start c) : Lbl T c := by
  have hr := start_rcv h
  have h0 : ∀ ch, (c.sub ch).acknum = 0 ∧ (c.sub ch).ooo = [] := by
    cases h with
    | out cfg id p => rw [newOut_form]; intro ch; cases ch <;> exact ⟨rfl, rfl⟩
    | inc cfg id r f i s p => rw [newIn_form]; intro ch; cases ch <;> exact ⟨rfl, rfl⟩
  refine ⟨?_, ?_⟩
  · intro ch i m hm
    have := hr.ack ch
    rw [(h0 ch).1] at this
    rw [List.getElem?_eq_none (by omega)] at hm
    cases hm
  · intro ch x hx; rw [(h0 ch).2] at hx; cases hx

/-- Every number in `K` was passed up or waits in the cache. -/
def Cov (K : Chan × Nat → Prop) (c : Conn) : Prop :=
  ∀ ch k, K (ch, k) → k ≤ (c.sub ch).acknum ∨ ∃ x ∈ (c.sub ch).ooo, x.2.body.seq = some (ch, k)

theorem Cov.same {K : Chan × Nat → Prop} {c c' : Conn} (h : Cov K c)
    (h1 : ∀ ch, (c'.sub ch).acknum = (c.sub ch).acknum) (h2 : ∀ ch, (c'.sub ch).ooo = (c.sub ch).ooo) :
    Cov K c' := by
  intro ch k hk; rw [h1, h2]; exact h ch k hk

theorem Mi.cov {T : Msg → Prop} {K : Chan × Nat → Prop} {c c' : Conn} (h : Mi inp c c') (hb : Lbl T c)
    (hin : ∀ m n, inp = some (m, n) → ∀ ch k, m.body.seq = some (ch, k) → n ≤ k + 2047 ∧ k ≤ n + 2047)
    (hs' : c'.state.rank ≤ 4) (hc : Cov K c) : Cov K c' := by
  have same : ∀ {c' : Conn}, (∀ ch, (c'.sub ch).acknum = (c.sub ch).acknum) →
    (∀ ch, (c'.sub ch).ooo = (c.sub ch).ooo) → Cov K c' := fun h1 h2 => hc.same h1 h2
  cases h with
  | upNew hs ch m k hi hm hk ho =>
    intro ch' k' hk'
    rw [(sameRecv_deliver _ m).acknum, (sameRecv_deliver _ m).ooo, book_ooo]
    rcases chan_cases ch ch' with rfl | rfl
    · rw [book_acknum]
      rcases hc ch' k' hk' with h1 | h1
      · left; omega
      · exact Or.inr h1
    · rw [book_acknum_cross]; exact hc _ k' hk'
  | upOld hs ch m hi hm =>
    intro ch' k' hk'
    rw [(sameRecv_deliver _ m).acknum, (sameRecv_deliver _ m).ooo, book_ooo]
    unfold eraseO
    rcases chan_cases ch ch' with rfl | rfl
    · rw [book_acknum, sub_setSub]
      rcases hc ch' k' hk' with h1 | ⟨x, hx, h1⟩
      · left; show k' ≤ (c.sub ch').acknum + 1; omega
      · by_cases hw : x.1 = wire ((c.sub ch').acknum + 1)
        · left
          obtain ⟨k, g1, g2, g3, g4, g5⟩ := hb.ooo ch' x hx
          rw [h1] at g2
          cases g2
          show k' ≤ (c.sub ch').acknum + 1
          rw [hw] at g3
          unfold wire at g3; omega
        · right
          exact ⟨x, List.mem_filter.2 ⟨hx, by simpa using hw⟩, h1⟩
    · rw [book_acknum_cross, sub_setSub_cross]; exact hc _ k' hk'
  | oooAdd hs ch m k hi hm h1 h2 =>
    obtain ⟨g2, g3⟩ := hin m _ hi ch k hm
    intro ch' k' hk'
    rcases chan_cases ch ch' with rfl | rfl
    · rw [sub_setSub]
      rcases hc ch' k' hk' with h3 | ⟨x, hx, h3⟩
      · exact Or.inl h3
      · right
        by_cases hw : x.1 = wire k
        · refine ⟨(wire k, m), by simp, ?_⟩
          obtain ⟨j, q1, q2, q3, q4, q5⟩ := hb.ooo ch' x hx
          rw [h3] at q2
          cases q2
          have : k' = k := by
            rw [hw] at q3
            rw [seqLe_eq] at h1
            split_ifs at h1 with hd
            have h1' := of_decide_eq_false (Except.ok.inj h1)
            have : (c.sub ch').acknum < k := by
              rcases Nat.lt_or_ge (c.sub ch').acknum k with hlt | hge
              · exact hlt
              · exfalso; apply h1'
                rw [dist_of_le hge (by omega)]; omega
            unfold wire at q3; omega
          rw [this]; exact hm
        · exact ⟨x, List.mem_append.2 (Or.inl (List.mem_filter.2 ⟨hx, by simpa using hw⟩)), h3⟩
    · rw [sub_setSub_cross]; exact hc _ k' hk'
  | clear hs =>
    have : State.rank c.state ≤ 4 := hs'
    rw [hs] at this; exact absurd this (by decide)
  | close hs => exact absurd (show (6 : Nat) ≤ 4 from hs') (by decide)
  | fire hs ch i x m hx ht hr hf =>
    exact same (fun ch' => by cases ch <;> cases ch' <;> rfl) (fun ch' => by cases ch <;> cases ch' <;> rfl)
  | block hs ch i x hx ht =>
    exact same (fun ch' => by cases ch <;> cases ch' <;> rfl) (fun ch' => by cases ch <;> cases ch' <;> rfl)
  | idle hs ch i x hx =>
    exact same (fun ch' => by cases ch <;> cases ch' <;> rfl) (fun ch' => by cases ch <;> cases ch' <;> rfl)
  | setMax hs ch k =>
    exact same (fun ch' => by cases ch <;> cases ch' <;> rfl) (fun ch' => by cases ch <;> cases ch' <;> rfl)
  | drop hs ch n k =>
    exact same (fun ch' => by cases ch <;> cases ch' <;> rfl) (fun ch' => by cases ch <;> cases ch' <;> rfl)
  | _ => exact same (fun ch' => by cases ch' <;> rfl) (fun ch' => by cases ch' <;> rfl)

/-- The packet just processed is covered. -/
theorem acceptLoop_ge : ∀ (fuel : Nat) (c c' : Conn) (ch : Chan) (m : Msg),
    acceptLoop (fuel + 1) c ch m = .ok c' → (c.sub ch).acknum + 1 ≤ (c'.sub ch).acknum := by
  intro fuel
  induction fuel with
  | zero =>
    intro c c' ch m h
    unfold acceptLoop at h
    rw [bind_ok] at h
    obtain ⟨c1, e1, h⟩ := h
    have hsd := sameRecv_deliver (book c ch m) m
    have ha : (c1.sub ch).acknum = (c.sub ch).acknum + 1 := by
      rcases accept1_deliver e1 with rfl | e2
      · rw [hsd.acknum, book_acknum]
      · rw [(fr_sendBlocked e2).acknum, hsd.acknum, book_acknum]
    dsimp only at h
    split at h
    · cases h; omega
    · unfold acceptLoop at h; cases h; rw [sub_setSub]; show _ ≤ (c1.sub ch).acknum; omega
  | succ n ih =>
    intro c c' ch m h
    unfold acceptLoop at h
    rw [bind_ok] at h
    obtain ⟨c1, e1, h⟩ := h
    have hsd := sameRecv_deliver (book c ch m) m
    have ha : (c1.sub ch).acknum = (c.sub ch).acknum + 1 := by
      rcases accept1_deliver e1 with rfl | e2
      · rw [hsd.acknum, book_acknum]
      · rw [(fr_sendBlocked e2).acknum, hsd.acknum, book_acknum]
    dsimp only at h
    split at h
    · cases h; omega
    · have := ih _ _ _ _ h
      rw [sub_setSub] at this
      have h2 : (c1.sub ch).acknum + 1 ≤ (c'.sub ch).acknum := this
      omega

theorem recvSeq_cov {c c' : Conn} {ch : Chan} {m : Msg} {k : Nat} {dly : Bool}
    (hm : m.body.seq = some (ch, k))
    (ht : (c.sub ch).acknum ≤ k + 2047 ∧ k ≤ (c.sub ch).acknum + 2047)
    (h : recvSeq c ch m k dly = .ok c') :
    k ≤ (c'.sub ch).acknum ∨ ∃ x ∈ (c'.sub ch).ooo, x.2.body.seq = some (ch, k) := by
  unfold recvSeq at h
  rw [bind_ok] at h
  obtain ⟨b, hb, h⟩ := h
  split_ifs at h with h1 h2
  · cases h
    left
    rw [(fr_sendAck c ch).acknum]
    rw [h1, seqLe_eq] at hb
    split_ifs at hb with hd
    have := of_decide_eq_true (Except.ok.inj hb)
    rcases Nat.lt_or_ge (c.sub ch).acknum k with hlt | hge
    · rw [dist_of_lt hlt (by omega)] at this; omega
    · exact hge
  · cases h
    right
    rw [sub_setSub]
    exact ⟨(wire k, m), by simp, hm⟩
  · rw [bind_ok] at h
    obtain ⟨c1, e1, h⟩ := h
    cases h
    left
    have h3 := acceptLoop_ge _ _ _ _ _ e1
    have hk : wire k = wire ((c.sub ch).acknum + 1) := by
      by_cases hh : wire k = wire ((c.sub ch).acknum + 1)
      · exact hh
      · exact absurd hh h2
    have : k = (c.sub ch).acknum + 1 := by unfold wire at hk; omega
    have hp : ((ackPolicy c1 ch dly).sub ch).acknum = (c1.sub ch).acknum := by
      unfold ackPolicy
      split_ifs
      · rw [sub_setSub]
      · rfl
      · exact (fr_sendAck c1 ch).acknum ch
      · rfl
    rw [hp]; omega

theorem subRecv_cov {c c' : Conn} {ch : Chan} {m : Msg} {k : Nat}
    (hm : m.body.seq = some (ch, k))
    (ht : (c.sub ch).acknum ≤ k + 2047 ∧ k ≤ (c.sub ch).acknum + 2047)
    (h : subRecv c ch m = .ok c') :
    k ≤ (c'.sub ch).acknum ∨ ∃ x ∈ (c'.sub ch).ooo, x.2.body.seq = some (ch, k) := by
  unfold subRecv at h
  rw [bind_ok] at h
  obtain ⟨c1, e1, h⟩ := h
  rw [bind_ok] at h
  obtain ⟨c2, e2, h⟩ := h
  have ha : (c2.sub ch).acknum = (c.sub ch).acknum := by rw [procAck_ack e2 ch, procAck_ack e1 ch]
  rw [← ha] at ht
  split at h
  · rename_i hb; rw [hb] at hm; cases hm; exact recvSeq_cov (by rw [hb]; rfl) ht h
  · rename_i hb; rw [hb] at hm; cases hm; exact recvSeq_cov (by rw [hb]; rfl) ht h
  · rename_i hb; rw [hb] at hm; cases hm; exact recvSeq_cov (by rw [hb]; rfl) ht h
  · rename_i n1 n2 n3
    exfalso
    cases hb : m.body <;> rw [hb] at hm <;> cases hm
    · exact n1 _ _ _ _ _ hb
    · exact n2 _ _ hb
    · exact n3 _ _ _ _ hb

theorem runRecv_cov {c c' : Conn} {ch : Chan} {m : Msg} {k : Nat}
    (hm : m.body.seq = some (ch, k))
    (ht : (c.sub ch).acknum ≤ k + 2047 ∧ k ≤ (c.sub ch).acknum + 2047)
    (h : runRecv c m = .ok c') :
    k ≤ (c'.sub ch).acknum ∨ ∃ x ∈ (c'.sub ch).ooo, x.2.body.seq = some (ch, k) := by
  have hc : ∀ ch, ((if c.cphase > 2 then { c with timer := true } else c).sub ch).acknum =
      (c.sub ch).acknum := by intro ch; split_ifs <;> cases ch <;> rfl
  unfold runRecv at h
  dsimp only at h
  cases hb : m.body <;> rw [hb] at hm <;> cases hm <;> rw [hb] at h
  · exact subRecv_cov (by rw [hb]; rfl) (by rw [hc]; exact ht) h
  · exact subRecv_cov (by rw [hb]; rfl) (by rw [hc]; exact ht) h
  · exact subRecv_cov (by rw [hb]; rfl) (by rw [hc]; exact ht) h

theorem recv_cov {c c' : Conn} {ch : Chan} {m : Msg} {k : Nat} (hs : c.state = .run ∨ c.state = .cc)
    (hm : m.body.seq = some (ch, k))
    (ht : (c.sub ch).acknum ≤ k + 2047 ∧ k ≤ (c.sub ch).acknum + 2047)
    (h : recv c m = .ok c') :
    k ≤ (c'.sub ch).acknum ∨ ∃ x ∈ (c'.sub ch).ooo, x.2.body.seq = some (ch, k) := by
  unfold recv at h
  rcases hs with hs | hs
  · rw [hs] at h
    exact runRecv_cov hm ht h
  · rw [hs] at h
    dsimp only at h
    unfold ccRecv at h
    rw [bind_ok] at h
    obtain ⟨c2, e2, h⟩ := h
    have ha : (c2.sub ch).acknum = (c.sub ch).acknum := by
      unfold ccAck at e2
      split_ifs at e2
      · exact (fr_ack e2).acknum ch
      · cases e2; rfl
    refine runRecv_cov hm ?_ h
    have : (({ c2 with state := .run } : Conn).emit .scRun).sub ch = c2.sub ch := by cases ch <;> rfl
    rw [this, ha]; exact ht

end Verif.Nsp
