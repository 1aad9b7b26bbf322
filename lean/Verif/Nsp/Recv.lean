import Verif.Nsp.Run

/-! The receiving half. -/
namespace Verif.Nsp

variable {inp : Inp}

/-- The packets a subchannel passed up, oldest first. -/
def ups (ch : Chan) : List Out → List Msg
  | [] => []
  | .up ch' m :: l => if ch' = ch then m :: ups ch l else ups ch l
  | _ :: l => ups ch l

theorem ups_append (ch : Chan) (a b : List Out) : ups ch (a ++ b) = ups ch a ++ ups ch b := by
  induction a with
  | nil => rfl
  | cons o l ih =>
    rw [List.cons_append]
    cases o <;> simp only [ups, ih]
    split_ifs <;> rfl

/-- The entries `deliver` makes in the log: never an `up` or a packet. -/
def OnlySc (l : List Out) : Prop := ∀ o ∈ l, (∃ b, o = .scData b) ∨ (∃ b, o = .scInt b) ∨
  ∃ a b c d, o = .ls a b c d

theorem OnlySc.ups {l : List Out} (h : OnlySc l) (ch : Chan) : ups ch l = [] := by
  induction l with
  | nil => rfl
  | cons o l ih =>
    have h1 := h o (by simp)
    have h2 := ih (fun o ho => h o (by simp [ho]))
    rcases h1 with ⟨b, rfl⟩ | ⟨b, rfl⟩ | ⟨a, b, c, d, rfl⟩ <;> exact h2

theorem deliver_log (c : Conn) (m : Msg) : ∃ l, (deliver c m).log = c.log ++ l ∧ OnlySc l := by
  have hnil : ∃ l, c.log = c.log ++ l ∧ OnlySc l := ⟨[], by simp, by simp [OnlySc]⟩
  have h1 : ∀ b, ∃ l, c.log ++ [Out.scData b] = c.log ++ l ∧ OnlySc l := fun b =>
    ⟨_, rfl, by simp [OnlySc]⟩
  have hls : ∀ fm fi fv ok, ∃ l, c.log ++ [Out.ls fm fi fv ok] = c.log ++ l ∧ OnlySc l :=
    fun fm fi fv ok => ⟨_, rfl, fun o ho => by
      rw [List.mem_singleton] at ho; subst ho; exact Or.inr (Or.inr ⟨_, _, _, _, rfl⟩)⟩
  unfold deliver
  split
  · unfold toScData
    have e3 : ∀ (b : Bool) (p : Bytes), ∃ l,
        (if b = true then c.emit (.scData p) else { c with asm := [p] }).log = c.log ++ l ∧ OnlySc l := by
      intro b p; cases b
      · exact hnil
      · exact h1 _
    split_ifs
    · exact h1 _
    · exact hnil
    · exact e3 true _
    · exact e3 _ _
  · exact ⟨_, rfl, by simp [OnlySc]⟩
  · unfold lsEff lsFin lsCredit otherLs
    split_ifs <;> exact hls _ _ _ _
  · exact hnil

/-- Invariant of the receiving half. -/
structure Rcv (c : Conn) : Prop where
  ack : ∀ ch, (c.sub ch).acknum = (ups ch c.log).length
  num : ∀ ch i m, (ups ch c.log)[i]? = some m →
    ∃ k, m.body.seq = some (ch, k) ∧ wire k = wire (i + 1)
  ooo : ∀ ch x, x ∈ (c.sub ch).ooo → ∃ k, x.2.body.seq = some (ch, k) ∧ wire k = x.1

theorem Rcv.same {c c' : Conn} (h : Rcv c) (h1 : ∀ ch, (c'.sub ch).acknum = (c.sub ch).acknum)
    (h2 : ∀ ch x, x ∈ (c'.sub ch).ooo → x ∈ (c.sub ch).ooo)
    (h3 : ∃ l, c'.log = c.log ++ l ∧ ∀ ch, ups ch l = []) : Rcv c' := by
  obtain ⟨l, hl, hu⟩ := h3
  have hups : ∀ ch, ups ch c'.log = ups ch c.log := by
    intro ch; rw [hl, ups_append, hu]; simp
  exact ⟨fun ch => by rw [h1, hups]; exact h.ack ch, fun ch => by rw [hups]; exact h.num ch,
    fun ch x hx => h.ooo ch x (h2 ch x hx)⟩

theorem Rcv.up {c : Conn} (h : Rcv c) (ch : Chan) (m : Msg) (k : Nat)
    (hm : m.body.seq = some (ch, k)) (hk : wire k = wire ((c.sub ch).acknum + 1)) :
    Rcv (deliver (book c ch m) m) := by
  obtain ⟨l, hl, hu⟩ := deliver_log (book c ch m) m
  have hsame := sameRecv_deliver (book c ch m) m
  have hlog : (book c ch m).log = c.log ++ [.up ch m] := by
    cases ch <;> rfl
  have hb : Rcv (book c ch m) := by
    refine ⟨?_, ?_, ?_⟩
    · intro ch'
      rw [hlog, ups_append]
      rcases chan_cases ch ch' with rfl | rfl
      · rw [book_acknum, h.ack]; simp [ups]
      · rw [book_acknum_cross, h.ack]
        have : ch ≠ ch.cross := by cases ch <;> decide
        simp [ups, this]
    · intro ch' i m' hm'
      rw [hlog, ups_append] at hm'
      rcases chan_cases ch ch' with rfl | rfl
      · rcases Nat.lt_or_ge i (ups ch' c.log).length with hlt | hge
        · rw [List.getElem?_append_left hlt] at hm'
          exact h.num ch' i m' hm'
        · rw [List.getElem?_append_right hge] at hm'
          have hi : i = (ups ch' c.log).length := by
            rcases Nat.lt_or_ge (ups ch' c.log).length i with hh | hh
            · rw [List.getElem?_eq_none (by simp [ups]; omega)] at hm'; cases hm'
            · omega
          subst hi
          simp [ups] at hm'
          subst hm'
          exact ⟨k, hm, by rw [← h.ack]; exact hk⟩
      · have : ch ≠ ch.cross := by cases ch <;> decide
        simp only [ups, if_neg this, List.append_nil] at hm'
        exact h.num _ i m' hm'
    · intro ch' x hx
      rw [book_ooo] at hx
      exact h.ooo ch' x hx
  exact hb.same hsame.acknum (fun ch' x hx => by rw [hsame.ooo] at hx; exact hx) ⟨l, hl, hu.ups⟩

theorem oooFind_mem {l : List (Nat × Msg)} {w : Nat} {m : Msg} (h : oooFind l w = some m) :
    (w, m) ∈ l := by
  unfold oooFind at h
  rw [Option.map_eq_some_iff] at h
  obtain ⟨x, hx, rfl⟩ := h
  have h1 := List.mem_of_find?_eq_some hx
  have h2 : x.1 = w := by simpa using List.find?_some hx
  rw [← h2]; exact h1

/-- What a small change does to the receiving half. -/
inductive RxCh (inp : Inp) (c : Conn) : Conn → Prop
  | same (c' : Conn) (h1 : ∀ ch, (c'.sub ch).acknum = (c.sub ch).acknum)
      (h2 : ∀ ch x, x ∈ (c'.sub ch).ooo → x ∈ (c.sub ch).ooo)
      (h3 : ∃ l, c'.log = c.log ++ l ∧ ∀ ch, ups ch l = []) : RxCh inp c c'
  | upNew (ch : Chan) (m : Msg) (k : Nat) (hs : c.state = .run ∨ c.state = .di)
      (hi : inp = some (m, (c.sub ch).acknum)) (hm : m.body.seq = some (ch, k))
      (hk : wire k = wire ((c.sub ch).acknum + 1))
      (ho : oooFind (c.sub ch).ooo (wire ((c.sub ch).acknum + 1)) = none) :
      RxCh inp c (deliver (book c ch m) m)
  | upOld (ch : Chan) (m : Msg) (hs : c.state = .run ∨ c.state = .di)
      (hm : oooFind (c.sub ch).ooo (wire ((c.sub ch).acknum + 1)) = some m) :
      RxCh inp c (deliver (book (eraseO c ch (wire ((c.sub ch).acknum + 1))) ch m) m)
  | oooAdd (ch : Chan) (m : Msg) (k : Nat) (hs : c.state = .run ∨ c.state = .di)
      (hi : inp = some (m, (c.sub ch).acknum)) (hm : m.body.seq = some (ch, k))
      (h1 : seqLe k (c.sub ch).acknum = .ok false)
      (h2 : wire k ≠ wire ((c.sub ch).acknum + 1)) :
      RxCh inp c (c.setSub ch
        { c.sub ch with ooo := oooErase (c.sub ch).ooo (wire k) ++ [(wire k, m)] })

theorem Mi.rx {c c' : Conn} (h : Mi inp c c') : RxCh inp c c' := by
  have nolog : ∀ c' : Conn, c'.log = c.log → ∃ l, c'.log = c.log ++ l ∧ ∀ ch, ups ch l = [] :=
    fun c' h => ⟨[], by rw [h]; simp, fun _ => rfl⟩
  have one : ∀ (c' : Conn) o, c'.log = c.log ++ [o] → (∀ ch, ups ch [o] = []) →
      ∃ l, c'.log = c.log ++ l ∧ ∀ ch, ups ch l = [] := fun c' o h1 h2 => ⟨_, h1, h2⟩
  cases h with
  | flags hs a h a' h' =>
    exact .same _ (fun ch => by cases ch <;> rfl) (fun ch x hx => by cases ch <;> exact hx) (nolog _ rfl)
  | timer hs b =>
    exact .same _ (fun ch => by cases ch <;> rfl) (fun ch x hx => by cases ch <;> exact hx) (nolog _ rfl)
  | opt b =>
    exact .same _ (fun ch => by cases ch <;> rfl) (fun ch x hx => by cases ch <;> exact hx)
      (one _ _ rfl (fun _ => rfl))
  | send hs ch' m hb ha hch =>
    exact .same _ (fun ch => by cases ch <;> rfl) (fun ch x hx => by cases ch <;> exact hx)
      (one _ _ rfl (fun _ => rfl))
  | fire hs ch' i x m hx ht hr' hf =>
    exact .same _ (fun ch => by cases ch <;> cases ch' <;> rfl)
      (fun ch x hx => by cases ch <;> cases ch' <;> exact hx)
      (one _ (.tx m) (by cases ch' <;> rfl) (fun _ => rfl))
  | block hs ch' i x hx ht =>
    exact .same _ (fun ch => by cases ch <;> cases ch' <;> rfl)
      (fun ch x hx => by cases ch <;> cases ch' <;> exact hx) (nolog _ (by cases ch' <;> rfl))
  | idle hs ch' i x hx =>
    exact .same _ (fun ch => by cases ch <;> cases ch' <;> rfl)
      (fun ch x hx => by cases ch <;> cases ch' <;> exact hx) (nolog _ (by cases ch' <;> rfl))
  | enqCtl hs b hb =>
    exact .same _ (fun ch => by cases ch <;> rfl) (fun ch x hx => by cases ch <;> exact hx) (nolog _ rfl)
  | enqData hs hd bom eom p =>
    exact .same _ (fun ch => by cases ch <;> rfl) (fun ch x hx => by cases ch <;> exact hx) (nolog _ rfl)
  | enqInt hs hd p hp hc =>
    exact .same _ (fun ch => by cases ch <;> rfl) (fun ch x hx => by cases ch <;> exact hx) (nolog _ rfl)
  | enqLs hs =>
    exact .same _ (fun ch => by cases ch <;> rfl) (fun ch x hx => by cases ch <;> exact hx) (nolog _ rfl)
  | setMax hs ch' k =>
    exact .same _ (fun ch => by cases ch <;> cases ch' <;> rfl)
      (fun ch x hx => by cases ch <;> cases ch' <;> exact hx) (nolog _ (by cases ch' <;> rfl))
  | drop hs ch' n k =>
    exact .same _ (fun ch => by cases ch <;> cases ch' <;> rfl)
      (fun ch x hx => by cases ch <;> cases ch' <;> exact hx) (nolog _ (by cases ch' <;> rfl))
  | upNew hs ch' m k hi hm hk ho => exact .upNew ch' m k hs hi hm hk ho
  | upOld hs ch' m hi hm => exact .upOld ch' m hs hm
  | oooAdd hs ch' m k hi hm h1 h2 => exact .oooAdd ch' m k hs hi hm h1 h2
  | confirm hs m n hi f i s b hb =>
    exact .same _ (fun ch => by cases ch <;> rfl) (fun ch x hx => by cases ch <;> exact hx) (nolog _ rfl)
  | setDst hs a =>
    exact .same _ (fun ch => by cases ch <;> rfl) (fun ch x hx => by cases ch <;> exact hx) (nolog _ rfl)
  | accepted hs b =>
    exact .same _ (fun ch => by cases ch <;> rfl) (fun ch x hx => by cases ch <;> exact hx)
      (one _ _ rfl (fun _ => rfl))
  | toCd hs =>
    exact .same _ (fun ch => by cases ch <;> rfl) (fun ch x hx => by cases ch <;> exact hx) (nolog _ rfl)
  | toCc hs =>
    exact .same _ (fun ch => by cases ch <;> rfl) (fun ch x hx => by cases ch <;> exact hx) (nolog _ rfl)
  | crRun hs =>
    exact .same _ (fun ch => by cases ch <;> rfl) (fun ch x hx => by cases ch <;> exact hx) (nolog _ rfl)
  | ccRun hs =>
    exact .same _ (fun ch => by cases ch <;> rfl) (fun ch x hx => by cases ch <;> exact hx)
      (one _ _ rfl (fun _ => rfl))
  | clear hs =>
    exact .same _ (fun ch => by cases ch <;> rfl) (fun ch x hx => by cases ch <;> cases hx) (nolog _ rfl)
  | toDi hs =>
    exact .same _ (fun ch => by cases ch <;> rfl) (fun ch x hx => by cases ch <;> exact hx) (nolog _ rfl)
  | shut hs r p =>
    exact .same _ (fun ch => by cases ch <;> rfl) (fun ch x hx => by cases ch <;> exact hx) (nolog _ rfl)
  | tell hs r b rej =>
    exact .same _ (fun ch => by cases ch <;> rfl) (fun ch x hx => by cases ch <;> exact hx)
      (one _ _ rfl (fun _ => rfl))
  | close hs =>
    exact .same _ (fun ch => by cases ch <;> rfl) (fun ch x hx => by cases ch <;> cases hx)
      (one _ _ rfl (fun _ => rfl))

theorem RxCh.rcv {c c' : Conn} (h : RxCh inp c c') (hr : Rcv c) : Rcv c' := by
  cases h with
  | same h1 =>
    rename_i h1 h2 h3
    exact hr.same h1 h2 h3
  | upNew ch' m k hs hi hm hk ho => exact hr.up ch' m k hm hk
  | upOld ch' m hs hm =>
    obtain ⟨k, h1, h2⟩ := hr.ooo ch' _ (oooFind_mem hm)
    have he : Rcv (eraseO c ch' (wire ((c.sub ch').acknum + 1))) :=
      hr.same (fun ch => by cases ch <;> cases ch' <;> rfl)
        (fun ch x hx => by
          rcases chan_cases ch' ch with rfl | rfl
          · unfold eraseO at hx
            rw [sub_setSub] at hx
            exact (List.mem_filter.1 hx).1
          · unfold eraseO at hx
            rw [sub_setSub_cross] at hx
            exact hx) ⟨[], by rw [List.append_nil]; cases ch' <;> rfl, fun _ => rfl⟩
    refine he.up ch' m k h1 ?_
    rw [h2]
    unfold eraseO
    rw [sub_setSub]
  | oooAdd ch' m k hs hi hm h1 h2 =>
    refine ⟨?_, ?_, ?_⟩
    · intro ch
      have : (c.setSub ch' { c.sub ch' with
          ooo := oooErase (c.sub ch').ooo (wire k) ++ [(wire k, m)] }).log = c.log := by cases ch' <;> rfl
      rw [this, ← hr.ack]
      cases ch <;> cases ch' <;> rfl
    · have : (c.setSub ch' { c.sub ch' with
          ooo := oooErase (c.sub ch').ooo (wire k) ++ [(wire k, m)] }).log = c.log := by cases ch' <;> rfl
      rw [this]
      exact hr.num
    · intro ch x hx
      rcases chan_cases ch' ch with rfl | rfl
      · rw [sub_setSub] at hx
        simp only [List.mem_append, List.mem_singleton] at hx
        rcases hx with hx | rfl
        · exact hr.ooo _ x (List.mem_filter.1 hx).1
        · exact ⟨k, hm, rfl⟩
      · rw [sub_setSub_cross] at hx
        exact hr.ooo _ x hx

theorem Mi.rcv {c c' : Conn} (h : Mi inp c c') (hr : Rcv c) : Rcv c' := h.rx.rcv hr

theorem start_rcv {c : Conn} (h : Start c) : Rcv c := by
  cases h with
  | out cfg id p =>
    rw [newOut_form]
    exact ⟨fun ch => by cases ch <;> rfl, (fun ch i m hm => by cases hm),
      fun ch x hx => by cases ch <;> cases hx⟩
  | inc cfg id r f i s p =>
    rw [newIn_form]
    have hu : ∀ ch, ups ch ((if min (nspPhase i) cfg.phase > 2 then
        [Out.tx { dst := r, src := 0, body := .ackConn }] else []) ++ [.scConn p]) = [] := by
      intro ch; split_ifs <;> rfl
    exact ⟨fun ch => by dsimp only; rw [hu]; cases ch <;> rfl,
      (fun ch i m hm => by dsimp only at hm; rw [hu] at hm; cases hm),
      fun ch x hx => by cases ch <;> cases hx⟩

theorem Run.rcv {c0 c : Conn} {es : List Ev} (h : Run c0 es c) (h0 : Start c0) : Rcv c :=
  h.inv (fun _ _ _ hm hp => hm.rcv hp) (start_base h0) (start_rcv h0)

end Verif.Nsp
