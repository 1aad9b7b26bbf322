import Verif.NspMap.Lemmas
import Mathlib.Data.List.Perm.Subperm

/-! Properties C37 (link addresses) and C38 (mapping of packets to connections). -/
namespace Verif.NspMap
open Verif.Nsp

theorem init_inv {e : Ent} (h : Init e) : ∃ v0, Inv v0 e.free e := by
  obtain ⟨r, hr, hp⟩ := h.free
  obtain ⟨hc, hc2⟩ := pow_dvd h.pow
  have hmem : ∀ i ∈ e.free, ∃ j, j < e.maxconns ∧ i = (j + 1) + r (j + 1) * (e.maxconns + 1) := by
    intro i hi
    obtain ⟨j, hj, rfl⟩ := List.mem_map.1 (hp.subset hi)
    exact ⟨j, List.mem_range.1 hj, rfl⟩
  have hmod : ∀ j, j < e.maxconns → ((j + 1) + r (j + 1) * (e.maxconns + 1)) % (e.maxconns + 1) = j + 1 := by
    intro j hj
    rw [Nat.add_mul_mod_self_right, Nat.mod_eq_of_lt (by omega)]
  have hlt : ∀ j, j < e.maxconns → (j + 1) + r (j + 1) * (e.maxconns + 1) < 65536 := by
    intro j hj
    obtain ⟨k, hk⟩ := hc
    have h1 := hr (j + 1)
    rw [hk, Nat.mul_comm (r (j + 1))] at h1
    have h2 : r (j + 1) < k := Nat.lt_of_mul_lt_mul_left h1
    have h3 : (e.maxconns + 1) * (r (j + 1) + 1) ≤ (e.maxconns + 1) * k := Nat.mul_le_mul_left _ h2
    rw [← hk, Nat.mul_add] at h3
    rw [Nat.mul_comm]
    omega
  refine ⟨fun s => s + r s * (e.maxconns + 1), h.pow, ?_, ?_, ?_, ?_, ?_, ?_, ?_, ?_, ?_, ?_⟩
  · rw [h.conns]; simp
  · rw [h.conns]; simp
  · unfold Ent.ids
    rw [h.conns, List.map_nil, List.append_nil, (hp.map _).nodup_iff, List.map_map]
    have : (List.range e.maxconns).map ((fun x => x % (e.maxconns + 1)) ∘
        fun i => (i + 1) + r (i + 1) * (e.maxconns + 1)) = (List.range e.maxconns).map (· + 1) := by
      refine List.map_congr_left fun j hj => ?_
      exact hmod j (List.mem_range.1 hj)
    rw [this]
    exact (List.nodup_range).map (fun a b h => by simpa using h)
  · intro i hi
    unfold Ent.ids at hi
    rw [h.conns, List.map_nil, List.append_nil] at hi
    obtain ⟨j, hj, rfl⟩ := hmem i hi
    rw [hmod j hj]
    exact ⟨by omega, hlt j hj⟩
  · rw [h.rconns]; simp
  · rw [h.hist]; rfl
  · intro i hi
    obtain ⟨j, hj, rfl⟩ := hmem i hi
    rw [hmod j hj, h.hist]
    show _ = (_ + _ * 0) % _
    rw [Nat.mul_zero]
    exact (Nat.mod_eq_of_lt (hlt j hj)).symm
  · rw [h.conns]; simp
  · intro a i b hab
    rw [h.hist] at hab
    cases a <;> cases hab
  · intro a i b hab
    rw [h.hist] at hab
    cases a <;> cases hab

theorem EReach.inv {e0 e : Ent} {es : List EEv} {v0 f0} (h : EReach e0 es e) (hi : Inv v0 f0 e0) :
    Inv v0 f0 e := by
  induction h with
  | nil => exact hi
  | snoc _ hs ih => exact ih.step hs

/-- The link addresses in use and in the pool at every moment. -/
theorem run_mx {e : Ent} {x : CEnt} {v : Ev} : (e.run x v).1.maxconns = e.maxconns := by
  unfold Ent.run Ent.update Ent.drop Ent.retId
  dsimp only; split_ifs <;> rfl

theorem learn_mx {e : Ent} {src : Peer} {m : Msg} : (e.learn src m).maxconns = e.maxconns := by
  unfold Ent.learn
  split
  · rfl
  · split_ifs
    · exact run_mx
    · rfl

theorem EStep.mx {e e' : Ent} {v : EEv} (h : EStep e v e') : e'.maxconns = e.maxconns := by
  cases h with
  | connect dest p =>
    unfold Ent.connect Ent.getId
    cases e.free <;> cases dest <;> rfl
  | packet src rts m =>
    unfold Ent.dispatch
    repeat' split
    all_goals first
      | rfl
      | exact run_mx
      | exact run_mx.trans learn_mx
      | exact learn_mx
      | (unfold Ent.inbound Ent.getId Ent.reserved; cases e.free <;> rfl)
  | conn => exact run_mx

theorem EReach.mx {e0 e : Ent} {es : List EEv} (h : EReach e0 es e) : e.maxconns = e0.maxconns := by
  induction h with
  | nil => rfl
  | snoc _ hs ih => rw [hs.mx, ih]

/-! ## C37 -/

/-- C37: the link addresses of the connections open at any moment differ in their low order part
(modulo the number of connections plus one), which is never zero; they are 16 bit numbers; there
are at most the configured number of connections. -/
theorem addresses_unique {e0 e : Ent} {es : List EEv} (h0 : Init e0) (h : EReach e0 es e) :
    (e.conns.map (fun x => x.conn.srcaddr % (e0.maxconns + 1))).Nodup ∧
    (∀ x ∈ e.conns, x.conn.srcaddr % (e0.maxconns + 1) ≠ 0 ∧ x.conn.srcaddr ≠ 0 ∧ x.conn.srcaddr < 65536) ∧
    e.conns.length ≤ e0.maxconns := by
  obtain ⟨v0, hi⟩ := init_inv h0
  have hi := h.inv hi
  rw [← h.mx]
  have hs := hi.slots
  unfold Ent.ids at hs
  rw [List.map_append, List.nodup_append, List.map_map] at hs
  have hp : ∀ x ∈ e.conns, x.conn.srcaddr % (e.maxconns + 1) ≠ 0 ∧ x.conn.srcaddr ≠ 0 ∧
      x.conn.srcaddr < 65536 := by
    intro x hx
    obtain ⟨h1, h2⟩ := hi.pos x.conn.srcaddr (List.mem_append_right _ (List.mem_map_of_mem hx))
    refine ⟨by omega, ?_, h2⟩
    intro e1; rw [e1] at h1; simp at h1
  refine ⟨hs.2.1, hp, ?_⟩
  have hsub : (e.conns.map (fun x => x.conn.srcaddr % (e.maxconns + 1))) ⊆
      (List.range e.maxconns).map (· + 1) := by
    intro k hk
    obtain ⟨x, hx, rfl⟩ := List.mem_map.1 hk
    have h1 := (hp x hx).1
    have h2 : x.conn.srcaddr % (e.maxconns + 1) < e.maxconns + 1 := Nat.mod_lt _ (by omega)
    refine List.mem_map.2 ⟨x.conn.srcaddr % (e.maxconns + 1) - 1, List.mem_range.2 (by omega), by omega⟩
  have := (List.subperm_of_subset hs.2.1 hsub).length_le
  simpa using this

/-- C37: an address is reused as late as possible.  If a connection's address `i` is released and
later the same slot is used again for the first time, all addresses that were free at the moment of
the release were used in between. -/
theorem reuse_fifo {e0 e1 e2 : Ent} {es fs : List EEv} (h0 : Init e0) (h1 : EReach e0 es e1)
    (h2 : EReach e1 fs e2) {i j : Nat} {h h' : List Use}
    (hh : e2.hist = e1.hist ++ .ret i :: (h ++ .get j :: h'))
    (hij : j % (e0.maxconns + 1) = i % (e0.maxconns + 1))
    (hfirst : ∀ k, Use.get k ∈ h → k % (e0.maxconns + 1) ≠ i % (e0.maxconns + 1)) :
    ∀ k ∈ e1.free, Use.get k ∈ h := by
  obtain ⟨v0, hi⟩ := init_inv h0
  have hi1 := h1.inv hi
  have hi2 := h2.inv hi1
  obtain ⟨hc, hc2⟩ := pow_dvd hi.pow
  have q1 := hi1.q
  have q2 := hi2.q
  rw [h2.mx, h1.mx] at q2
  rw [h1.mx] at q1
  rw [hh, runQ_append, q1] at q2
  have q2 : runQ (e0.maxconns + 1) e1.free (.ret i :: (h ++ .get j :: h')) = some e2.free := q2
  have e3 : (Use.ret i :: (h ++ .get j :: h')) = [.ret i] ++ ((h ++ [.get j]) ++ h') := by simp
  rw [e3, runQ_append] at q2
  have q2 : runQ (e0.maxconns + 1) (e1.free ++ [(i + (e0.maxconns + 1)) % 65536])
      ((h ++ [.get j]) ++ h') = some e2.free := q2
  rw [runQ_append] at q2
  have hm : (i + (e0.maxconns + 1)) % 65536 % (e0.maxconns + 1) = i % (e0.maxconns + 1) := mod_slot hc
  cases q3 : runQ (e0.maxconns + 1) (e1.free ++ [(i + (e0.maxconns + 1)) % 65536]) (h ++ [.get j]) with
  | none => rw [q3] at q2; cases q2
  | some g =>
    have hA := hi2.rval e1.hist i _ hh
    rw [h2.mx, h1.mx] at hA
    have hA := hA e1.free q1
    intro k hk
    refine runQ_fifo e1.free [] _ j h q3 (by rw [hm]; exact hij) ?_ ?_ k hk
    · intro a ha e4
      exact hA a ha (by rw [← hm]; exact e4)
    · intro a ha
      rw [hm]; exact hfirst a ha

/-- C37: the same link address is used again only after its slot has been used as many times as there
are addresses with the same low order part. -/
theorem reuse_value {e0 e : Ent} {es : List EEv} (h0 : Init e0) (h : EReach e0 es e) {i : Nat}
    {h1 h2 h3 : List Use} (hh : e.hist = h1 ++ .get i :: (h2 ++ .get i :: h3)) :
    65536 / (e0.maxconns + 1) ≤ gets (e0.maxconns + 1) (i % (e0.maxconns + 1)) (.get i :: h2) := by
  obtain ⟨v0, hi⟩ := init_inv h0
  have hi := h.inv hi
  obtain ⟨hc, hc2⟩ := pow_dvd hi.pow
  have e1 := hi.hval h1 i _ hh
  have e2 := hi.hval (h1 ++ .get i :: h2) i h3 (by rw [hh]; simp)
  rw [h.mx] at e1 e2 hc hc2
  have e3 : gets (e0.maxconns + 1) (i % (e0.maxconns + 1)) (h1 ++ .get i :: h2) =
      gets (e0.maxconns + 1) (i % (e0.maxconns + 1)) h1 +
      gets (e0.maxconns + 1) (i % (e0.maxconns + 1)) (.get i :: h2) := by
    unfold gets; rw [List.countP_append]
  have e4 : 1 ≤ gets (e0.maxconns + 1) (i % (e0.maxconns + 1)) (.get i :: h2) := by
    unfold gets; rw [List.countP_cons_of_pos (by simp)]; omega
  rw [e3] at e2
  generalize gets (e0.maxconns + 1) (i % (e0.maxconns + 1)) (.get i :: h2) = n at *
  generalize gets (e0.maxconns + 1) (i % (e0.maxconns + 1)) h1 = k at *
  generalize v0 (i % (e0.maxconns + 1)) = v at *
  obtain ⟨d, hd⟩ := hc
  have hpos : 0 < e0.maxconns + 1 := by omega
  have e5 : 65536 / (e0.maxconns + 1) = d := by
    rw [hd]; exact Nat.mul_div_cancel_left d hpos
  rw [e5]
  have e6 : 65536 ∣ (e0.maxconns + 1) * n := by
    have : (v + (e0.maxconns + 1) * k + (e0.maxconns + 1) * n) % 65536 =
        (v + (e0.maxconns + 1) * k) % 65536 := by
      rw [← e1, Nat.add_assoc, ← Nat.mul_add]; exact e2.symm
    omega
  rw [hd] at e6
  have e7 : d ∣ n := Nat.dvd_of_mul_dvd_mul_left hpos e6
  exact Nat.le_of_dvd (by omega) e7

theorem filter_len {l : List CEnt} (hn : (l.map (·.uid)).Nodup) {x : CEnt} (hx : x ∈ l) :
    (l.filter (fun y => !(y.uid == x.uid))).length + 1 = l.length := by
  induction l with
  | nil => cases hx
  | cons y l ih =>
    rw [List.map_cons, List.nodup_cons] at hn
    rcases List.mem_cons.1 hx with rfl | hx
    · rw [List.filter_cons_of_neg (by simp), List.filter_eq_self.2]
      · rfl
      · intro z hz
        have : z.uid ≠ x.uid := fun e => hn.1 (e ▸ List.mem_map_of_mem hz)
        simpa using this
    · have : y.uid ≠ x.uid := fun e => hn.1 (e ▸ List.mem_map_of_mem hx)
      rw [List.filter_cons_of_pos (by simpa using this), List.length_cons, List.length_cons, ih hn.2 hx]

theorem run_len {v0 f0} {e : Ent} {x : CEnt} {v : Ev} (h : Inv v0 f0 e) (hx : x ∈ e.conns)
    (hv : Enabled x.conn v) (he : (Nsp.step x.conn v).2 = none ∨ v.isCall = true) :
    (e.run x v).1.free.length + (e.run x v).1.conns.length = e.free.length + e.conns.length := by
  obtain ⟨h1, h2, h3, h4⟩ := run_step (h.live x hx).run hv he
  unfold Ent.run Ent.update
  dsimp only
  split_ifs with hc
  · unfold Ent.drop Ent.retId
    dsimp only
    rw [filter_uid h hx h2]
    have := filter_len h.uids hx
    simp only [List.length_append, List.length_singleton]
    omega
  · simp

theorem learn_len {e : Ent} (src : Peer) (m : Msg) :
    (e.learn src m).free = e.free ∧ (e.learn src m).conns.length = e.conns.length := by
  unfold Ent.learn
  split
  · exact ⟨rfl, rfl⟩
  · rename_i x hf
    split_ifs with hc
    · rw [learn_run e m.src hc.1]
      exact ⟨rfl, by simp⟩
    · exact ⟨rfl, rfl⟩

theorem EStep.len {v0 f0} {e e' : Ent} {v : EEv} (h : Inv v0 f0 e) (hs : EStep e v e')
    (hv : ∀ p, v ≠ .connect none p) :
    e'.free.length + e'.conns.length = e.free.length + e.conns.length := by
  cases hs with
  | connect dest p =>
    cases dest with
    | none => exact absurd rfl (hv p)
    | some d =>
      unfold Ent.connect Ent.getId
      cases hf : e.free with
      | nil => dsimp only; rw [hf]
      | cons i r => simp only [List.length_append, List.length_cons, List.length_nil]; omega
  | packet src rts m hok =>
    unfold Ent.dispatch at hok ⊢
    split
    · rename_i r f i s p hb
      rw [hb] at hok
      dsimp only at hok
      split_ifs at hok ⊢ with hr
      · cases hf : e.find m.src with
        | none => rfl
        | some x =>
          rw [hf] at hok
          dsimp only at hok ⊢
          split_ifs at hok ⊢ with hst
          · exact run_len h (mem_of_find hf).1 (show x.conn.state ≠ .closed by rw [hst]; decide)
              (Or.inl hok)
          · rfl
      · cases hd : dget e.rconns (src, m.src) with
        | none =>
          dsimp only
          unfold Ent.inbound Ent.getId
          cases hf : e.free with
          | nil => unfold Ent.reserved; dsimp only; rw [hf]
          | cons i r => simp only [List.length_append, List.length_cons, List.length_nil]; omega
        | some u =>
          rw [hd] at hok
          dsimp only at hok ⊢
          cases hf : e.byUid u with
          | none => rfl
          | some x =>
            rw [hf] at hok
            dsimp only at hok ⊢
            split_ifs at hok ⊢ with hst
            · refine run_len h (mem_of_find hf).1 ?_ (Or.inl hok)
              show x.conn.state ≠ .closed
              rcases hst with hst | hst <;> rw [hst] <;> decide
            · rfl
    · rename_i hb
      have h1 := h.learn src m
      obtain ⟨h2, h3⟩ := learn_len (e := e) src m
      have hok' : (match (e.learn src m).mapped src m with
        | some x => (e.learn src m).run x (.recv m)
        | none => if isSilent m.body = true then (e.learn src m, none)
            else ((e.learn src m).reserved src m, none)).2 = none := by
        revert hok
        split
        · rename_i r f i s p hb'
          exact absurd hb' (hb r f i s p)
        · exact id
      cases hm : (e.learn src m).mapped src m with
      | none =>
        dsimp only
        split_ifs
        · rw [h2, h3]
        · unfold Ent.reserved; dsimp only; rw [h2, h3]
      | some x =>
        rw [hm] at hok'
        have hx : x ∈ (e.learn src m).conns := (mem_of_find (mapped_some hm).1).1
        dsimp only
        rw [run_len (v := .recv m) h1 hx (h1.live x hx).opn (Or.inl hok'), h2, h3]
  | conn u v x hx hen hr hl he => exact run_len h (mem_of_find hx).1 hen he

/-- C37: as long as nobody tries to connect to an unknown node, a new connection (in either direction)
is refused for lack of addresses only when the configured number of connections is open. -/
theorem refused_only_when_full {e0 e : Ent} {es : List EEv} (h0 : Init e0) (h : EReach e0 es e)
    (hu : ∀ p, EEv.connect none p ∉ es) (hf : e.free = []) : e.conns.length = e0.maxconns := by
  obtain ⟨v0, hi⟩ := init_inv h0
  have key : e.free.length + e.conns.length = e0.maxconns := by
    clear hf
    induction h with
    | nil =>
      obtain ⟨r, -, hp⟩ := h0.free
      rw [h0.conns, hp.length_eq]; simp
    | snoc h hs ih =>
      rw [EStep.len (h.inv hi) hs, ih]
      · exact fun p hp => hu p (List.mem_append_left _ hp)
      · intro p hp
        exact hu p (by rw [hp]; simp)
  rw [hf] at key
  simpa using key

/-- An entity just started. -/
def exEnt : Ent := { cfg := ⟨7, 5, 4⟩, me := 1, maxconns := 255, free := (List.range 255).map (· + 1) }

theorem exEnt_init : Init exEnt where
  pow := ⟨8, by decide, by decide, rfl⟩
  free := ⟨fun _ => 0, by simp, by simp [exEnt]⟩
  conns := rfl
  rconns := rfl
  out := rfl
  hist := rfl

/-- Finding (part of C37's point, that addresses come back, fails): a connect request naming an unknown
node takes an address that is never returned; after as many such requests as there are addresses no
connection can be made although none exists. -/
theorem unknown_node_leaks {e0 : Ent} (h0 : Init e0) : ∃ es e, EReach e0 es e ∧ e.conns = [] ∧ e.free = [] ∧
    (∀ d p, e.connect d p = (e, some .connectionLimit)) ∧
    ∀ src m r f i s p, m.body = .connInit r f i s p →
      (e.dispatch src false m).1.out = e.out ++ [(src, ⟨m.src, m.dst, none, none, .discConf 1⟩)] := by
  have key : ∀ (n : Nat) (e1 : Ent), e1.free.length = n → e1.conns = [] → e1.rconns = [] →
      ∃ es e, EReach e1 es e ∧ e.conns = [] ∧ e.free = [] ∧ e.rconns = [] := by
    intro n
    induction n with
    | zero =>
      intro e1 hn hc hr
      exact ⟨[], e1, .nil, hc, List.length_eq_zero_iff.1 hn, hr⟩
    | succ n ih =>
      intro e1 hn hc hr
      cases hf : e1.free with
      | nil => rw [hf] at hn; cases hn
      | cons i rest =>
        have hst : EStep e1 (.connect none []) { e1 with free := rest, hist := e1.hist ++ [.get i] } := by
          have := EStep.connect (e := e1) none []
          unfold Ent.connect Ent.getId at this
          rw [hf] at this
          exact this
        obtain ⟨es, e, h1, h2, h3, h4⟩ := ih { e1 with free := rest, hist := e1.hist ++ [.get i] }
          (by rw [hf] at hn; simpa using hn) hc hr
        refine ⟨.connect none [] :: es, e, ?_, h2, h3, h4⟩
        clear ih h2 h3 h4
        have : ∀ {e2 : Ent} {es}, EReach { e1 with free := rest, hist := e1.hist ++ [.get i] } es e2 →
            EReach e1 (.connect none [] :: es) e2 := by
          intro e2 es h
          induction h with
          | nil => exact EReach.snoc (es := []) .nil hst
          | snoc _ hs ih => exact EReach.snoc ih hs
        exact this h1
  obtain ⟨es, e, h1, h2, h3, h4⟩ := key _ e0 rfl h0.conns h0.rconns
  refine ⟨es, e, h1, h2, h3, ?_, ?_⟩
  · intro d p
    unfold Ent.connect Ent.getId
    rw [h3]
  · intro src m r f i s p hb
    unfold Ent.dispatch
    rw [hb]
    dsimp only
    rw [if_neg (by simp)]
    unfold dget
    rw [h4]
    dsimp only [List.find?_nil, Option.map]
    unfold Ent.inbound Ent.getId
    rw [h3]
    unfold Ent.reserved
    rw [hb]

/-- Connections are made, closed and made again. -/
example : ∃ es e, EReach exEnt es e ∧ e.conns.map (·.conn.srcaddr) = [2] ∧ e.hist = [.get 1, .ret 1, .get 2] ∧
    e.free.getLast? = some 257 := by
  refine ⟨_, _, .snoc (.snoc (.snoc .nil (.connect (some (.node 5)) []))
    (.packet (.node 5) false ⟨1, 7, none, none, .discConf 1⟩ (by decide +kernel)))
    (.packet (.node 6) false ⟨0, 9, none, none, .connInit false 0 2 563 []⟩ (by decide +kernel)), ?_, ?_, ?_⟩
  all_goals decide +kernel

end Verif.NspMap
