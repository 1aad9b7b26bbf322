import Verif.NspMap.Model
import Verif.Nsp.Limits
import Mathlib.Data.List.Nodup

namespace Verif.Nsp

variable {inp : Inp}

theorem toScData_dst (c : Conn) (b e : Bool) (p : Bytes) : (toScData c b e p).dstaddr = c.dstaddr := by
  unfold toScData; dsimp only; split_ifs <;> rfl

theorem lsEff_dst (c : Conn) (a b : Nat) (v : Int) : (lsEff c a b v).dstaddr = c.dstaddr := by
  unfold lsEff lsFin lsCredit otherLs; dsimp only; repeat' split
  all_goals rfl

theorem deliver_dst (c : Conn) (m : Msg) : (deliver c m).dstaddr = c.dstaddr := by
  unfold deliver
  split
  · exact toScData_dst ..
  · rfl
  · exact lsEff_dst ..
  · rfl

theorem Mi.dst {c c' : Conn} (h : Mi inp c c') :
    c'.dstaddr = c.dstaddr ∨ c.state = .ci ∨ c.state = .cd := by
  cases h with
  | confirm hs => exact Or.inr hs
  | setDst hs => exact Or.inr hs
  | upNew hs ch m k => exact Or.inl (by rw [deliver_dst]; cases ch <;> rfl)
  | upOld hs ch m => exact Or.inl (by rw [deliver_dst]; cases ch <;> rfl)
  | fire hs ch => exact Or.inl (by cases ch <;> rfl)
  | block hs ch => exact Or.inl (by cases ch <;> rfl)
  | idle hs ch => exact Or.inl (by cases ch <;> rfl)
  | setMax hs ch => exact Or.inl (by cases ch <;> rfl)
  | drop hs ch => exact Or.inl (by cases ch <;> rfl)
  | oooAdd hs ch => exact Or.inl (by cases ch <;> rfl)
  | _ => exact Or.inl rfl

theorem Mi.cfg {c c' : Conn} (h : Mi inp c c') : c'.cfg = c.cfg := by
  cases h with
  | upNew hs ch m k => rw [(sameRecv_deliver _ _).cfg]; cases ch <;> rfl
  | upOld hs ch m => rw [(sameRecv_deliver _ _).cfg]; cases ch <;> rfl
  | fire hs ch => cases ch <;> rfl
  | block hs ch => cases ch <;> rfl
  | idle hs ch => cases ch <;> rfl
  | setMax hs ch => cases ch <;> rfl
  | drop hs ch => cases ch <;> rfl
  | oooAdd hs ch => cases ch <;> rfl
  | _ => rfl

theorem Mis.cfg {c c' : Conn} (h : Mis inp c c') : c'.cfg = c.cfg := by
  induction h with
  | refl => rfl
  | tail _ h2 ih => rw [h2.cfg, ih]

/-- Only an incoming connection is ever waiting for the local or the remote confirmation; it knows the
remote link address from the beginning. -/
theorem Mis.crcc {c c' : Conn} (h : Mis inp c c') (hs : c'.state = .cr ∨ c'.state = .cc) :
    (c.state = .cr ∨ c.state = .cc) ∧ c'.dstaddr = c.dstaddr := by
  induction h with
  | refl => exact ⟨hs, rfl⟩
  | @tail c1 c2 h1 h2 ih =>
    have e : c1.state = .cr ∨ c1.state = .cc := by
      rcases h2.edge with e | e
      · rw [← e]; exact hs
      · revert e
        rcases hs with hs | hs <;> rw [hs] <;> cases c1.state <;> simp [State.edge]
    obtain ⟨h3, h4⟩ := ih e
    refine ⟨h3, ?_⟩
    rcases h2.dst with h5 | h5
    · rw [h5, h4]
    · rcases e with e | e <;> rw [e] at h5 <;> rcases h5 with h5 | h5 <;> cases h5

end Verif.Nsp

namespace Verif.NspMap
open Verif.Nsp

/-! ## The pool of link addresses -/

/-- Run a history of the pool from a list of free addresses. -/
def runQ (c : Nat) : List Nat → List Use → Option (List Nat)
  | f, [] => some f
  | [], .get _ :: _ => none
  | j :: f, .get i :: h => if i = j then runQ c f h else none
  | f, .ret i :: h => runQ c (f ++ [(i + c) % 65536]) h

theorem runQ_append (c : Nat) (h h' : List Use) (f : List Nat) :
    runQ c f (h ++ h') = (runQ c f h).bind fun g => runQ c g h' := by
  induction h generalizing f with
  | nil => simp [runQ]
  | cons u h ih =>
    cases u with
    | get i =>
      cases f with
      | nil => simp [runQ]
      | cons j f =>
        simp only [List.cons_append, runQ]
        split_ifs
        · exact ih f
        · rfl
    | ret i => simp only [List.cons_append, runQ]; exact ih _

/-- First in, first out. -/
theorem runQ_fifo {c : Nat} (A B : List Nat) (v j : Nat) (h : List Use) {g : List Nat}
    (hr : runQ c (A ++ v :: B) (h ++ [.get j]) = some g) (hj : j % c = v % c)
    (hA : ∀ a ∈ A, a % c ≠ v % c) (hh : ∀ i, Use.get i ∈ h → i % c ≠ v % c) :
    ∀ a ∈ A, Use.get a ∈ h := by
  induction h generalizing A B with
  | nil =>
    cases A with
    | nil => intro a ha; cases ha
    | cons a A =>
      simp only [List.nil_append, List.cons_append, runQ] at hr
      split_ifs at hr with e
      exact absurd (e ▸ hj) (hA a (by simp))
  | cons u h ih =>
    cases u with
    | get i =>
      cases A with
      | nil => intro a ha; cases ha
      | cons a A =>
        simp only [List.cons_append, runQ] at hr
        split_ifs at hr with e
        subst e
        have := ih A B hr (fun a ha => hA a (by simp [ha])) (fun i hi => hh i (by simp [hi]))
        intro b hb
        rcases List.mem_cons.1 hb with rfl | hb
        · simp
        · exact List.mem_cons_of_mem _ (this b hb)
    | ret i =>
      simp only [List.cons_append, runQ, List.append_assoc] at hr
      have := ih A (B ++ [(i + c) % 65536]) hr hA (fun i hi => hh i (by simp [hi]))
      intro b hb
      exact List.mem_cons_of_mem _ (this b hb)

/-! ## The invariant of the entity -/

/-- The entries of a table of connections with distinct identities. -/
theorem find_uid {l : List CEnt} (hn : (l.map (·.uid)).Nodup) {x : CEnt} (hx : x ∈ l) :
    l.find? (fun y => y.uid == x.uid) = some x := by
  induction l with
  | nil => cases hx
  | cons y l ih =>
    rw [List.map_cons, List.nodup_cons] at hn
    rcases List.mem_cons.1 hx with rfl | hx
    · simp
    · rw [List.find?_cons_of_neg]
      · exact ih hn.2 hx
      · intro e
        have e : y.uid = x.uid := by simpa using e
        exact hn.1 (e ▸ List.mem_map_of_mem hx)

theorem mem_of_find {l : List CEnt} {p : CEnt → Bool} {x : CEnt} (h : l.find? p = some x) :
    x ∈ l ∧ p x = true := ⟨List.mem_of_find?_eq_some h, List.find?_some h⟩

/-- What is known about every open connection. -/
structure Live (e : Ent) (x : CEnt) : Prop where
  run : ∃ c0 es, Start c0 ∧ Run c0 es x.conn
  opn : x.conn.state ≠ .closed
  cfg : x.conn.cfg = e.cfg
  uid : x.uid < e.nextUid

/-- The link addresses in the pool and in use. -/
def Ent.ids (e : Ent) : List Nat := e.free ++ e.conns.map (·.conn.srcaddr)

/-- number of addresses of a slot taken so far -/
def gets (c s : Nat) (h : List Use) : Nat :=
  h.countP fun u => match u with | .get i => i % c == s | .ret _ => false

/-- The invariant; `v0` gives the first address of every slot. -/
structure Inv (v0 : Nat → Nat) (f0 : List Nat) (e : Ent) : Prop where
  pow : ∃ n, 8 ≤ n ∧ n ≤ 15 ∧ e.maxconns + 1 = 2 ^ n
  live : ∀ x ∈ e.conns, Live e x
  uids : (e.conns.map (·.uid)).Nodup
  slots : (e.ids.map (· % (e.maxconns + 1))).Nodup
  pos : ∀ i ∈ e.ids, 0 < i % (e.maxconns + 1) ∧ i < 65536
  rc : ∀ p a u, ((p, a), u) ∈ e.rconns → u < e.nextUid ∧ ∀ x ∈ e.conns, x.uid = u →
    x.conn.state = .cr ∨ x.conn.state = .cc → p = x.dest ∧ a = x.conn.dstaddr
  q : runQ (e.maxconns + 1) f0 e.hist = some e.free
  fval : ∀ i ∈ e.free, i = (v0 (i % (e.maxconns + 1)) +
    (e.maxconns + 1) * gets (e.maxconns + 1) (i % (e.maxconns + 1)) e.hist) % 65536
  cval : ∀ x ∈ e.conns, ∃ n, gets (e.maxconns + 1) (x.conn.srcaddr % (e.maxconns + 1)) e.hist = n + 1 ∧
    x.conn.srcaddr = (v0 (x.conn.srcaddr % (e.maxconns + 1)) + (e.maxconns + 1) * n) % 65536
  hval : ∀ h i h', e.hist = h ++ .get i :: h' → i = (v0 (i % (e.maxconns + 1)) +
    (e.maxconns + 1) * gets (e.maxconns + 1) (i % (e.maxconns + 1)) h) % 65536
  rval : ∀ h i h', e.hist = h ++ .ret i :: h' → ∀ f, runQ (e.maxconns + 1) f0 h = some f →
    ∀ k ∈ f, k % (e.maxconns + 1) ≠ i % (e.maxconns + 1)

theorem pow_dvd {c : Nat} (h : ∃ n, 8 ≤ n ∧ n ≤ 15 ∧ c = 2 ^ n) : c ∣ 65536 ∧ 256 ≤ c := by
  obtain ⟨n, h1, h2, rfl⟩ := h
  refine ⟨Nat.pow_dvd_pow (m := n) (n := 16) 2 (by omega), ?_⟩
  exact (Nat.pow_le_pow_right (by decide) h1 : 2 ^ 8 ≤ 2 ^ n)

theorem mod_slot {c i : Nat} (hc : c ∣ 65536) : (i + c) % 65536 % c = i % c := by
  rw [Nat.mod_mod_of_dvd _ hc]; simp

theorem gets_snoc_get (c s i : Nat) (h : List Use) :
    gets c s (h ++ [.get i]) = gets c s h + if i % c = s then 1 else 0 := by
  unfold gets
  rw [List.countP_append, List.countP_singleton]
  by_cases e : i % c = s
  · rw [if_pos e, if_pos (by simpa using e)]
  · rw [if_neg e, if_neg (by simpa using e)]

theorem gets_snoc_ret (c s i : Nat) (h : List Use) : gets c s (h ++ [.ret i]) = gets c s h := by
  unfold gets
  rw [List.countP_append, List.countP_singleton]
  simp

theorem Inv.src_inj {v0 f0} {e : Ent} (h : Inv v0 f0 e) {x y : CEnt} (hx : x ∈ e.conns) (hy : y ∈ e.conns)
    (e1 : x.conn.srcaddr % (e.maxconns + 1) = y.conn.srcaddr % (e.maxconns + 1)) : x = y := by
  have hs := h.slots
  unfold Ent.ids at hs
  rw [List.map_append, List.nodup_append, List.map_map] at hs
  exact List.inj_on_of_nodup_map hs.2.1 hx hy e1

theorem Inv.uid_inj {v0 f0} {e : Ent} (h : Inv v0 f0 e) {x y : CEnt} (hx : x ∈ e.conns) (hy : y ∈ e.conns)
    (e1 : x.uid = y.uid) : x = y := List.inj_on_of_nodup_map h.uids hx hy e1

/-- Taking an address from the pool. -/
theorem Inv.get {v0 f0} {e e' : Ent} {i : Nat} (h : Inv v0 f0 e) (hg : e.getId = some (i, e')) :
    Inv v0 f0 e' ∧ i % (e.maxconns + 1) ∉ e'.ids.map (· % (e'.maxconns + 1)) ∧
      0 < i % (e.maxconns + 1) ∧ i < 65536 ∧
      (∃ n, gets (e.maxconns + 1) (i % (e.maxconns + 1)) e'.hist = n + 1 ∧
        i = (v0 (i % (e.maxconns + 1)) + (e.maxconns + 1) * n) % 65536) ∧
      e' = { e with free := e'.free, hist := e.hist ++ [.get i] } ∧ e.free = i :: e'.free := by
  unfold Ent.getId at hg
  split at hg
  · cases hg
  · rename_i j rest hf
    cases hg
    have hs := h.slots
    unfold Ent.ids at hs
    rw [hf, List.cons_append, List.map_cons, List.nodup_cons] at hs
    have hp := h.pos i (by unfold Ent.ids; rw [hf]; simp)
    have hv := h.fval i (by rw [hf]; simp)
    have hne : ∀ k, k ∈ rest ++ e.conns.map (·.conn.srcaddr) →
        i % (e.maxconns + 1) ≠ k % (e.maxconns + 1) := by
      intro k hk he
      exact hs.1 (he ▸ List.mem_map_of_mem hk)
    refine ⟨⟨h.pow, fun x hx => ⟨(h.live x hx).run, (h.live x hx).opn, (h.live x hx).cfg, (h.live x hx).uid⟩,
      h.uids, hs.2, ?_, h.rc, ?_, ?_, ?_, ?_, ?_⟩, hs.1, hp.1, hp.2, ?_, rfl, hf⟩
    · intro k hk
      refine h.pos k ?_
      unfold Ent.ids at hk ⊢
      rw [hf]
      exact List.mem_cons_of_mem _ hk
    · show runQ _ f0 (e.hist ++ [.get i]) = some rest
      rw [runQ_append, h.q, hf]
      simp [runQ]
    · intro k hk
      have hk' : k ∈ rest := hk
      show k = (v0 _ + _ * gets _ _ (e.hist ++ [.get i])) % 65536
      rw [gets_snoc_get, if_neg (hne k (List.mem_append_left _ hk'))]
      exact h.fval k (by rw [hf]; exact List.mem_cons_of_mem _ hk')
    · intro x hx
      obtain ⟨n, e1, e2⟩ := h.cval x hx
      refine ⟨n, ?_, e2⟩
      show gets _ _ (e.hist ++ [.get i]) = _
      rw [gets_snoc_get, if_neg (hne _ (List.mem_append_right _ (List.mem_map_of_mem hx)))]
      exact e1
    · intro a k b hab
      have hab : e.hist ++ [.get i] = a ++ .get k :: b := hab
      rcases List.eq_nil_or_concat b with rfl | ⟨b', z, rfl⟩
      · obtain ⟨h1, h2⟩ := List.append_inj' hab rfl
        cases h2
        rw [← h1]; exact hv
      · have : e.hist ++ [.get i] = (a ++ .get k :: b') ++ [z] := by rw [hab]; simp
        obtain ⟨h1, h2⟩ := List.append_inj' this rfl
        exact h.hval a k b' h1
    · intro a k b hab
      have hab : e.hist ++ [.get i] = a ++ .ret k :: b := hab
      rcases List.eq_nil_or_concat b with rfl | ⟨b', z, rfl⟩
      · obtain ⟨h1, h2⟩ := List.append_inj' hab rfl
        cases h2
      · have : e.hist ++ [.get i] = (a ++ .ret k :: b') ++ [z] := by rw [hab]; simp
        obtain ⟨h1, h2⟩ := List.append_inj' this rfl
        exact h.rval a k b' h1
    · refine ⟨gets (e.maxconns + 1) (i % (e.maxconns + 1)) e.hist, ?_, hv⟩
      show gets _ _ (e.hist ++ [.get i]) = _
      rw [gets_snoc_get, if_pos rfl]

/-- Entering a new connection. -/
theorem Inv.add {v0 f0} {e : Ent} {c : Conn} {d : Peer} {rc : List ((Peer × Nat) × Nat)}
    (h : Inv v0 f0 e) (hs : Start c) (hc : c.cfg = e.cfg)
    (hi : c.srcaddr % (e.maxconns + 1) ∉ e.ids.map (· % (e.maxconns + 1)))
    (hp : 0 < c.srcaddr % (e.maxconns + 1) ∧ c.srcaddr < 65536)
    (hv : ∃ n, gets (e.maxconns + 1) (c.srcaddr % (e.maxconns + 1)) e.hist = n + 1 ∧
      c.srcaddr = (v0 (c.srcaddr % (e.maxconns + 1)) + (e.maxconns + 1) * n) % 65536)
    (hrc : ∀ p a u, ((p, a), u) ∈ rc → ((p, a), u) ∈ e.rconns ∨
      u = e.nextUid ∧ p = d ∧ a = c.dstaddr) :
    Inv v0 f0 { e with conns := e.conns ++ [⟨e.nextUid, d, c⟩], rconns := rc, nextUid := e.nextUid + 1 } := by
  have hst : c.state ≠ .closed := by
    cases hs with
    | out cfg id p => rw [newOut_form]; simp
    | inc cfg id r f i s p => rw [newIn_form]; simp
  refine ⟨h.pow, ?_, ?_, ?_, ?_, ?_, h.q, h.fval, ?_, h.hval, h.rval⟩
  · intro x hx
    have hx : x ∈ e.conns ++ [⟨e.nextUid, d, c⟩] := hx
    rw [List.mem_append, List.mem_singleton] at hx
    rcases hx with hx | rfl
    · exact ⟨(h.live x hx).run, (h.live x hx).opn, (h.live x hx).cfg, Nat.lt_succ_of_lt (h.live x hx).uid⟩
    · exact ⟨⟨c, [], hs, .nil⟩, hst, hc, Nat.lt_succ_self _⟩
  · show ((e.conns ++ [(⟨e.nextUid, d, c⟩ : CEnt)]).map (·.uid)).Nodup
    rw [List.map_append, List.nodup_append]
    refine ⟨h.uids, by simp, ?_⟩
    intro a ha b hb
    obtain ⟨x, hx, rfl⟩ := List.mem_map.1 ha
    have : b = e.nextUid := by simpa using hb
    have := (h.live x hx).uid
    omega
  · show ((e.free ++ (e.conns ++ [(⟨e.nextUid, d, c⟩ : CEnt)]).map (·.conn.srcaddr)).map
      (· % (e.maxconns + 1))).Nodup
    rw [List.map_append (f := fun x : CEnt => x.conn.srcaddr), ← List.append_assoc, List.map_append,
      List.nodup_append]
    refine ⟨h.slots, by simp, ?_⟩
    intro a ha b hb hab
    have hb : b = c.srcaddr % (e.maxconns + 1) := by simpa using hb
    exact hi (hb ▸ hab ▸ ha)
  · intro i hi
    have hi : i ∈ e.free ++ (e.conns ++ [(⟨e.nextUid, d, c⟩ : CEnt)]).map (·.conn.srcaddr) := hi
    rw [List.map_append, ← List.append_assoc, List.mem_append] at hi
    rcases hi with hi | hi
    · exact h.pos i hi
    · have : i = c.srcaddr := by simpa using hi
      rw [this]; exact hp
  · intro p a u hu
    rcases hrc p a u hu with hu | ⟨rfl, rfl, rfl⟩
    · obtain ⟨h1, h2⟩ := h.rc p a u hu
      refine ⟨Nat.lt_succ_of_lt h1, ?_⟩
      intro x hx hxu
      have hx : x ∈ e.conns ++ [⟨e.nextUid, d, c⟩] := hx
      rw [List.mem_append, List.mem_singleton] at hx
      rcases hx with hx | rfl
      · exact h2 x hx hxu
      · exact absurd hxu (by dsimp only; omega)
    · refine ⟨Nat.lt_succ_self _, ?_⟩
      intro x hx hxu
      have hx : x ∈ e.conns ++ [⟨e.nextUid, p, c⟩] := hx
      rw [List.mem_append, List.mem_singleton] at hx
      rcases hx with hx | rfl
      · have := (h.live x hx).uid
        omega
      · exact fun _ => ⟨rfl, rfl⟩
  · intro x hx
    have hx : x ∈ e.conns ++ [⟨e.nextUid, d, c⟩] := hx
    rw [List.mem_append, List.mem_singleton] at hx
    rcases hx with hx | rfl
    · exact h.cval x hx
    · exact hv

/-- What the steps of a connection preserve. -/
theorem run_step {c : Conn} {v : Ev} (hr : ∃ c0 es, Start c0 ∧ Run c0 es c) (hv : Enabled c v)
    (he : (Nsp.step c v).2 = none ∨ v.isCall = true) :
    (∃ c0 es, Start c0 ∧ Run c0 es (Nsp.step c v).1) ∧ (Nsp.step c v).1.srcaddr = c.srcaddr ∧
    (Nsp.step c v).1.cfg = c.cfg ∧ Mis (v.inp c) c (Nsp.step c v).1 := by
  obtain ⟨c0, es, h0, hr⟩ := hr
  have hr' := hr.snoc hv he
  have hm := (step_base (hr.base (start_base h0)) hv).2
  exact ⟨⟨c0, _, h0, hr'⟩, by rw [(hr'.rel h0).src, (hr.rel h0).src], Mis.cfg hm, hm⟩

/-- Replacing a connection by its successor. -/
theorem Inv.keep {v0 f0} {e : Ent} {x : CEnt} {c : Conn} (h : Inv v0 f0 e) (hx : x ∈ e.conns)
    (hr : ∃ c0 es, Start c0 ∧ Run c0 es c) (hs : c.srcaddr = x.conn.srcaddr) (hc : c.cfg = x.conn.cfg)
    (hd : c.state = .cr ∨ c.state = .cc →
      (x.conn.state = .cr ∨ x.conn.state = .cc) ∧ c.dstaddr = x.conn.dstaddr) (ho : c.state ≠ .closed) :
    Inv v0 f0 { e with conns := e.conns.map fun y => if y.uid = x.uid then { y with conn := c } else y } := by
  have hmem : ∀ z ∈ e.conns.map (fun y => if y.uid = x.uid then { y with conn := c } else y),
      z ∈ e.conns ∧ z.uid ≠ x.uid ∨ z = { x with conn := c } := by
    intro z hz
    obtain ⟨y, hy, rfl⟩ := List.mem_map.1 hz
    by_cases e1 : y.uid = x.uid
    · have := h.uid_inj hy hx e1
      subst this
      right; rw [if_pos rfl]
    · left; rw [if_neg e1]; exact ⟨hy, e1⟩
  have hu : (e.conns.map (fun y => if y.uid = x.uid then { y with conn := c } else y)).map (·.uid) =
      e.conns.map (·.uid) := by
    rw [List.map_map]
    refine List.map_congr_left fun y hy => ?_
    dsimp only [Function.comp]; split_ifs <;> rfl
  have hi : (e.conns.map (fun y => if y.uid = x.uid then { y with conn := c } else y)).map
      (·.conn.srcaddr) = e.conns.map (·.conn.srcaddr) := by
    rw [List.map_map]
    refine List.map_congr_left fun y hy => ?_
    dsimp only [Function.comp]
    split_ifs with e1
    · rw [h.uid_inj hy hx e1]; exact hs
    · rfl
  have hids : Ent.ids { e with conns := e.conns.map fun y => if y.uid = x.uid then { y with conn := c } else y } =
      e.ids := by
    unfold Ent.ids; dsimp only; rw [hi]
  have hl := h.live x hx
  refine ⟨h.pow, ?_, ?_, ?_, ?_, ?_, h.q, h.fval, ?_, h.hval, h.rval⟩
  · intro z hz
    rcases hmem z hz with ⟨hz, -⟩ | rfl
    · exact ⟨(h.live z hz).run, (h.live z hz).opn, (h.live z hz).cfg, (h.live z hz).uid⟩
    · exact ⟨hr, ho, hc.trans hl.cfg, hl.uid⟩
  · dsimp only; rw [hu]; exact h.uids
  · rw [hids]; exact h.slots
  · rw [hids]; exact h.pos
  · intro p a u hpu
    obtain ⟨h1, h2⟩ := h.rc p a u hpu
    refine ⟨h1, fun z hz hzu => ?_⟩
    rcases hmem z hz with ⟨hz, -⟩ | rfl
    · exact h2 z hz hzu
    · intro hst
      obtain ⟨h3, h4⟩ := hd hst
      obtain ⟨h5, h6⟩ := h2 x hx hzu h3
      exact ⟨h5, h6.trans h4.symm⟩
  · intro z hz
    rcases hmem z hz with ⟨hz, -⟩ | rfl
    · exact h.cval z hz
    · show ∃ n, gets _ (c.srcaddr % _) _ = n + 1 ∧ c.srcaddr = (v0 (c.srcaddr % _) + _ * n) % 65536
      rw [hs]; exact h.cval x hx

theorem filter_uid {v0 f0} {e : Ent} {x : CEnt} {c : Conn} (h : Inv v0 f0 e) (hx : x ∈ e.conns)
    (hs : c.srcaddr = x.conn.srcaddr) :
    (e.conns.map (fun y => if y.uid = x.uid then { y with conn := c } else y)).filter
      (fun y => !(y.conn.srcaddr == c.srcaddr)) = e.conns.filter (fun y => !(y.uid == x.uid)) := by
  have hy : ∀ y ∈ e.conns, y.conn.srcaddr = x.conn.srcaddr → y = x := by
    intro y hy e1
    exact h.src_inj hy hx (by rw [e1])
  generalize e.conns = l at hy
  induction l with
  | nil => rfl
  | cons y l ih =>
    have ih := ih fun z hz => hy z (List.mem_cons_of_mem _ hz)
    rw [List.map_cons]
    by_cases e1 : y.uid = x.uid
    · rw [if_pos e1, List.filter_cons_of_neg (by simp), ih, List.filter_cons_of_neg (by simpa using e1)]
    · have e2 : y.conn.srcaddr ≠ c.srcaddr := by
        intro e2
        exact e1 (by rw [hy y (by simp) (e2.trans hs)])
      rw [if_neg e1, List.filter_cons_of_pos (by simpa using e2), ih, List.filter_cons_of_pos (by simpa using e1)]

theorem mem_dpop {d : List ((Peer × Nat) × Nat)} {k : Peer × Nat} {z} (h : z ∈ dpop d k) : z ∈ d :=
  (List.mem_filter.1 h).1

theorem mem_dput {d : List ((Peer × Nat) × Nat)} {k : Peer × Nat} {v : Nat} {z} (h : z ∈ dput d k v) :
    z = (k, v) ∨ z ∈ d := by
  rcases List.mem_cons.1 h with h | h
  · exact Or.inl h
  · exact Or.inr (mem_dpop h)

/-- Taking out a closed connection. -/
theorem Inv.closing {v0 f0} {e : Ent} {x : CEnt} {rc : List ((Peer × Nat) × Nat)} (h : Inv v0 f0 e)
    (hx : x ∈ e.conns) (hrc : ∀ z ∈ rc, z ∈ e.rconns) :
    Inv v0 f0 ({ e with conns := e.conns.filter (fun y => !(y.uid == x.uid)), rconns := rc }.retId
      x.conn.srcaddr) := by
  obtain ⟨hc, hc2⟩ := pow_dvd h.pow
  have hsl := h.slots
  unfold Ent.ids at hsl
  rw [List.map_append, List.nodup_append] at hsl
  have hmem : ∀ y ∈ e.conns.filter (fun y => !(y.uid == x.uid)), y ∈ e.conns ∧ y.uid ≠ x.uid := by
    intro y hy
    obtain ⟨h1, h2⟩ := List.mem_filter.1 hy
    exact ⟨h1, by simpa using h2⟩
  have hxs := mod_slot (i := x.conn.srcaddr) hc
  have hxs' : (x.conn.srcaddr + e.maxconns + 1) % 65536 % (e.maxconns + 1) =
      x.conn.srcaddr % (e.maxconns + 1) := hxs
  have hxm : x.conn.srcaddr ∈ e.conns.map (·.conn.srcaddr) := List.mem_map_of_mem hx
  have hsub : List.Sublist (e.conns.filter (fun y => !(y.uid == x.uid))) e.conns := List.filter_sublist
  refine ⟨h.pow, ?_, ?_, ?_, ?_, ?_, ?_, ?_, ?_, ?_, ?_⟩
  · intro y hy
    obtain ⟨hy, -⟩ := hmem y hy
    exact ⟨(h.live y hy).run, (h.live y hy).opn, (h.live y hy).cfg, (h.live y hy).uid⟩
  · exact (hsub.map _).nodup h.uids
  · show ((e.free ++ [(x.conn.srcaddr + e.maxconns + 1) % 65536] ++
      (e.conns.filter (fun y => !(y.uid == x.uid))).map (·.conn.srcaddr)).map
        (· % (e.maxconns + 1))).Nodup
    rw [List.map_append, List.map_append, List.nodup_append, List.nodup_append]
    refine ⟨⟨hsl.1, by simp, ?_⟩, ((hsub.map _).map _).nodup hsl.2.1, ?_⟩
    · intro a ha b hb
      have hb : b = x.conn.srcaddr % (e.maxconns + 1) := by
        rw [← hxs']; simpa using hb
      rw [hb]
      exact hsl.2.2 a ha _ (List.mem_map_of_mem hxm)
    · intro a ha b hb
      rw [List.mem_append] at ha
      rcases ha with ha | ha
      · exact hsl.2.2 a ha b (((hsub.map _).map _).subset hb)
      · have ha : a = x.conn.srcaddr % (e.maxconns + 1) := by
          rw [← hxs']; simpa using ha
        rw [ha]
        intro e1
        rw [List.map_map] at hb
        obtain ⟨y, hy, rfl⟩ := List.mem_map.1 hb
        obtain ⟨hy, hyu⟩ := hmem y hy
        exact hyu (by rw [h.src_inj hy hx e1.symm])
  · intro i hi
    have hi : i ∈ e.free ++ [(x.conn.srcaddr + e.maxconns + 1) % 65536] ++
      (e.conns.filter (fun y => !(y.uid == x.uid))).map (·.conn.srcaddr) := hi
    rw [List.mem_append, List.mem_append, List.mem_singleton] at hi
    rcases hi with (hi | hi) | hi
    · exact h.pos i (List.mem_append_left _ hi)
    · show 0 < i % (e.maxconns + 1) ∧ i < 65536
      rw [hi, hxs']
      exact ⟨(h.pos _ (List.mem_append_right _ hxm)).1, Nat.mod_lt _ (by decide)⟩
    · exact h.pos i (List.mem_append_right _ ((hsub.map _).subset hi))
  · intro p a u hu
    obtain ⟨h1, h2⟩ := h.rc p a u (hrc _ hu)
    exact ⟨h1, fun y hy => h2 y (hmem y hy).1⟩
  · show runQ (e.maxconns + 1) f0 (e.hist ++ [.ret _]) = some (e.free ++ [(x.conn.srcaddr + e.maxconns + 1) % 65536])
    rw [runQ_append, h.q]
    simp [runQ, Nat.add_assoc]
  · intro i hi
    have hi : i ∈ e.free ++ [(x.conn.srcaddr + e.maxconns + 1) % 65536] := hi
    show i = (v0 _ + _ * gets (e.maxconns + 1) _ (e.hist ++ [.ret _])) % 65536
    rw [gets_snoc_ret]
    rw [List.mem_append, List.mem_singleton] at hi
    rcases hi with hi | hi
    · exact h.fval i hi
    · obtain ⟨n, e1, e2⟩ := h.cval x hx
      show i = (v0 (i % (e.maxconns + 1)) + (e.maxconns + 1) * gets (e.maxconns + 1) (i % (e.maxconns + 1)) e.hist) % 65536
      have hm : i % (e.maxconns + 1) = x.conn.srcaddr % (e.maxconns + 1) := by rw [hi, hxs']
      rw [hm, e1, hi]
      conv_lhs => rw [e2]
      have : (v0 (x.conn.srcaddr % (e.maxconns + 1)) + (e.maxconns + 1) * (n + 1)) =
        (v0 (x.conn.srcaddr % (e.maxconns + 1)) + (e.maxconns + 1) * n) + (e.maxconns + 1) := by
        rw [Nat.mul_add]; omega
      rw [this]
      omega
  · intro y hy
    obtain ⟨n, e1, e2⟩ := h.cval y (hmem y hy).1
    refine ⟨n, ?_, e2⟩
    show gets (e.maxconns + 1) _ (e.hist ++ [.ret _]) = _
    rw [gets_snoc_ret]; exact e1
  · intro a k b hab
    have hab : e.hist ++ [.ret x.conn.srcaddr] = a ++ .get k :: b := hab
    rcases List.eq_nil_or_concat b with rfl | ⟨b', z, rfl⟩
    · obtain ⟨h1, h2⟩ := List.append_inj' hab rfl
      cases h2
    · have : e.hist ++ [.ret x.conn.srcaddr] = (a ++ .get k :: b') ++ [z] := by rw [hab]; simp
      obtain ⟨h1, h2⟩ := List.append_inj' this rfl
      exact h.hval a k b' h1
  · intro a k b hab f hf
    have hab : e.hist ++ [.ret x.conn.srcaddr] = a ++ .ret k :: b := hab
    have hf : runQ (e.maxconns + 1) f0 a = some f := hf
    rcases List.eq_nil_or_concat b with rfl | ⟨b', z, rfl⟩
    · obtain ⟨h1, h2⟩ := List.append_inj' hab rfl
      cases h2
      rw [← h1, h.q] at hf
      cases hf
      intro k hk
      exact hsl.2.2 _ (List.mem_map_of_mem hk) _ (List.mem_map_of_mem hxm)
    · have : e.hist ++ [.ret x.conn.srcaddr] = (a ++ .ret k :: b') ++ [z] := by rw [hab]; simp
      obtain ⟨h1, h2⟩ := List.append_inj' this rfl
      exact h.rval a k b' h1 f hf

/-- Any event of an open connection. -/
theorem Inv.run {v0 f0} {e : Ent} {x : CEnt} {v : Ev} (h : Inv v0 f0 e) (hx : x ∈ e.conns)
    (hv : Enabled x.conn v) (he : (Nsp.step x.conn v).2 = none ∨ v.isCall = true) :
    Inv v0 f0 (e.run x v).1 := by
  obtain ⟨h1, h2, h3, h4⟩ := run_step (h.live x hx).run hv he
  unfold Ent.run Ent.update
  dsimp only
  split_ifs with hc
  · unfold Ent.drop
    dsimp only
    rw [filter_uid h hx h2, h2]
    refine h.closing hx ?_
    intro z hz
    split_ifs at hz
    · exact hz
    · exact mem_dpop (mem_dpop hz)
  · exact h.keep hx h1 h2 h3 (fun hs => Mis.crcc h4 hs) hc

theorem Inv.withOut {v0 f0} {e : Ent} (h : Inv v0 f0 e) (o : List (Peer × Msg)) :
    Inv v0 f0 { e with out := o } := by
  obtain ⟨a1, a2, a3, a4, a5, a6, a7, a8, a9, a10, a11⟩ := h
  exact ⟨a1, fun x hx => ⟨(a2 x hx).run, (a2 x hx).opn, (a2 x hx).cfg, (a2 x hx).uid⟩, a3, a4, a5, a6, a7, a8, a9,
    a10, a11⟩

theorem learn_run {x : CEnt} (e : Ent) (a : Nat) (hs : x.conn.state = .ci ∨ x.conn.state = .cd) :
    (e.run x (.learn a)).1 = { e with
      conns := e.conns.map fun y =>
        if y.uid = x.uid then { y with conn := { x.conn with dstaddr := a } } else y } := by
  unfold Ent.run Ent.update
  dsimp only [Nsp.step]
  rw [if_neg]
  intro hc
  rcases hs with hs | hs <;> rw [hs] at hc <;> cases hc

theorem Inv.learn {v0 f0} {e : Ent} (h : Inv v0 f0 e) (src : Peer) (m : Msg) :
    Inv v0 f0 (e.learn src m) := by
  unfold Ent.learn
  split
  · exact h
  · rename_i x hf
    split_ifs with hc
    · obtain ⟨hs, hb, hd⟩ := hc
      have hx := (mem_of_find hf).1
      have h1 := h.run (v := .learn m.src) hx ⟨hs, hd⟩ (Or.inl rfl)
      rw [learn_run e m.src hs] at h1 ⊢
      refine ⟨h1.pow, fun y hy => ⟨(h1.live y hy).run, (h1.live y hy).opn, (h1.live y hy).cfg,
        (h1.live y hy).uid⟩, h1.uids, h1.slots, h1.pos, ?_, h1.q, h1.fval, h1.cval, h1.hval, h1.rval⟩
      intro p a u hu
      rcases mem_dput hu with hu | hu
      · cases hu
        refine ⟨(h.live x hx).uid, ?_⟩
        intro y hy hyu hst
        have hy : y ∈ e.conns.map _ := hy
        obtain ⟨z, hz, rfl⟩ := List.mem_map.1 hy
        have hzu : z.uid = x.uid := by
          revert hyu; dsimp only; split_ifs <;> exact id
        dsimp only at hst
        rw [if_pos hzu] at hst
        exfalso
        have hst : x.conn.state = .cr ∨ x.conn.state = .cc := hst
        rcases hs with hs | hs <;> rw [hs] at hst <;> rcases hst with h | h <;> cases h
      · exact h1.rc p a u hu
    · exact h

/-- The conditions under which a packet is mapped to a connection. -/
theorem mapped_some {e : Ent} {src : Peer} {m : Msg} {x : CEnt} (h : e.mapped src m = some x) :
    e.find m.dst = some x ∧
    (if x.conn.state = .ci ∨ x.conn.state = .cd then isReply m.body || m.body == .ackConn
      else m.body != .ackConn) = true ∧ (src = x.dest ∨ x.dest.isNode = false) ∧
    (m.body = .ackConn ∨ m.src = x.conn.dstaddr) := by
  unfold Ent.mapped at h
  split at h
  · cases h
  · rename_i y hf
    dsimp only at h
    by_cases hc : (if y.conn.state = .ci ∨ y.conn.state = .cd then isReply m.body || m.body == .ackConn
      else m.body != .ackConn) = true ∧ ¬ (src ≠ y.dest ∧ y.dest.isNode = true) ∧
        (m.body = .ackConn ∨ m.src = y.conn.dstaddr)
    · rw [if_pos hc] at h
      cases h
      refine ⟨hf, hc.1, ?_, hc.2.2⟩
      have := hc.2.1
      by_cases e1 : src = x.dest
      · exact Or.inl e1
      · right
        cases e2 : x.dest.isNode with
        | false => rfl
        | true => exact absurd ⟨e1, e2⟩ this
    · rw [if_neg hc] at h; cases h

theorem Inv.step {v0 f0} {e e' : Ent} {v : EEv} (h : Inv v0 f0 e) (hs : EStep e v e') : Inv v0 f0 e' := by
  cases hs with
  | connect dest p =>
    unfold Ent.connect
    split
    · exact h
    · rename_i i e' hg
      obtain ⟨h1, h2, h3, h4, h5, h6, -⟩ := h.get hg
      have hmx : e'.maxconns = e.maxconns := by rw [h6]
      cases dest with
      | none => exact h1
      | some d =>
        refine h1.add (c := newOut e'.cfg i p) (rc := e'.rconns) (.out _ _ _) rfl ?_ ?_ ?_
          (fun p a u hu => Or.inl hu)
        · show i % _ ∉ _; rw [hmx] at h2 ⊢; exact h2
        · show 0 < i % _ ∧ i < _; rw [hmx]; exact ⟨h3, h4⟩
        · show ∃ n, gets _ (i % _) _ = n + 1 ∧ i = (v0 (i % _) + _ * n) % _
          rw [hmx]; exact h5
  | packet src rts m hok =>
    unfold Ent.dispatch at hok ⊢
    split
    · rename_i r f i s p hb
      rw [hb] at hok
      dsimp only at hok
      split_ifs at hok ⊢ with hr
      · cases hf : e.find m.src with
        | none => exact h
        | some x =>
          rw [hf] at hok
          dsimp only at hok ⊢
          split_ifs at hok ⊢ with hst
          · exact h.run (mem_of_find hf).1 (show x.conn.state ≠ .closed by rw [hst]; decide)
              (Or.inl hok)
          · exact h
      · cases hd : dget e.rconns (src, m.src) with
        | none =>
          dsimp only
          unfold Ent.inbound
          split
          · exact h.withOut _
          · rename_i id e' hg
            obtain ⟨h1, h2, h3, h4, h5, h6, -⟩ := h.get hg
            have hmx : e'.maxconns = e.maxconns := by rw [h6]
            refine h1.add (c := newIn e'.cfg id m.src f i s p) (.inc _ _ _ _ _ _ _)
              (by rw [newIn_form]) ?_ ?_ ?_ ?_
            · rw [newIn_form]; show id % _ ∉ _; rw [hmx] at h2 ⊢; exact h2
            · rw [newIn_form]; show 0 < id % _ ∧ id < _; rw [hmx]; exact ⟨h3, h4⟩
            · rw [newIn_form]
              show ∃ n, gets _ (id % _) _ = n + 1 ∧ id = (v0 (id % _) + _ * n) % _
              rw [hmx]; exact h5
            · intro p' a u hu
              rcases mem_dput hu with hu | hu
              · cases hu; exact Or.inr ⟨rfl, rfl, by rw [newIn_form]⟩
              · exact Or.inl hu
        | some u =>
          rw [hd] at hok
          dsimp only at hok ⊢
          cases hf : e.byUid u with
          | none => exact h
          | some x =>
            rw [hf] at hok
            dsimp only at hok ⊢
            split_ifs at hok ⊢ with hst
            · refine h.run (mem_of_find hf).1 ?_ (Or.inl hok)
              show x.conn.state ≠ .closed
              rcases hst with hst | hst <;> rw [hst] <;> decide
            · exact h
    · rename_i hb
      have h1 := h.learn src m
      have hok' : (match (e.learn src m).mapped src m with
        | some x => (e.learn src m).run x (.recv m)
        | none => if isSilent m.body = true then (e.learn src m, none)
            else ((e.learn src m).reserved src m, none)).2 = none := by
        revert hok
        split
        · rename_i r f i s p hb'
          exact absurd hb' (hb r f i s p)
        · exact id
      cases hm : (e.learn src m).mapped src m with
      | none =>
        dsimp only
        split_ifs
        · exact h1
        · exact h1.withOut _
      | some x =>
        rw [hm] at hok'
        have hx : x ∈ (e.learn src m).conns := (mem_of_find (mapped_some hm).1).1
        exact h1.run hx (h1.live x hx).opn (Or.inl hok')
  | conn u v x hx hv hr hl he =>
    exact h.run (mem_of_find hx).1 hv he

end Verif.NspMap
