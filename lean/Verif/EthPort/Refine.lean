import Verif.EthPort.Lemmas
/-!
# The data link is what its history says
-/
namespace Verif.EthPort

open Verif.Framing (Bytes)
open Verif.Framing.Eth (bytesLe isMulti)

structure PortAbs (single : Bool) (hw : Bytes) (h : List Op) (s : Dl) (i : Nat) (p : Port) : Prop where
  mac : macaddr s p = address single hw h i
  pad : ((made hw h)[i]?).map Prod.snd = some p.pad
  promisc : p.promisc = lastPromisc i h
  group : ∀ a, a ∈ p.multicast ↔ lastMc i a h = some true ∧ IsGroup a

structure Abs (single : Bool) (hw : Bytes) (h : List Op) (s : Dl) : Prop where
  sgl : s.single = single
  hwa : s.hwaddr = hwAt hw h
  shared : single = true → s.mac = lastMac single 0 h
  len : s.ports.length = (made hw h).length
  old : ∀ op ∈ h, ∀ i, op.port = some i → i < s.ports.length
  reg : ∀ k, lookup s.reg k = holder hw k h
  port : ∀ i p, s.ports[i]? = some p → PortAbs single hw h s i p

theorem holder_none {hw : Bytes} {k : Key} : ∀ {h : List Op}, holder hw k h = none ↔ asked k h = false
  | [] => by simp [holder, asked]
  | op :: h => by
    have := @holder_none hw k h
    simp only [holder, asked, List.any_cons, Option.or_eq_none_iff, Bool.or_eq_false_iff] at this ⊢
    rw [this]
    constructor
    · rintro ⟨a, b⟩; exact ⟨by simpa using b, a⟩
    · rintro ⟨a, b⟩; exact ⟨b, by simp [a]⟩

theorem lastMc_none {i : Nat} {a : Bytes} : ∀ {h : List Op}, (∀ op ∈ h, op.port ≠ some i) → lastMc i a h = none
  | [], _ => rfl
  | op :: h, hh => by
    have h1 := hh op (by simp)
    have h2 := @lastMc_none i a h fun o ho => hh o (by simp [ho])
    cases op <;> simp_all [lastMc, Op.port]

theorem lastPromisc_none {i : Nat} : ∀ {h : List Op}, (∀ op ∈ h, op.port ≠ some i) → lastPromisc i h = false
  | [], _ => rfl
  | op :: h, hh => by
    have h1 := hh op (by simp)
    have h2 := @lastPromisc_none i h fun o ho => hh o (by simp [ho])
    cases op <;> simp_all [lastPromisc, Op.port]

theorem lastMac_none {i : Nat} : ∀ {h : List Op}, (∀ op ∈ h, op.port ≠ some i) → lastMac false i h = none
  | [], _ => rfl
  | op :: h, hh => by
    have h1 := hh op (by simp)
    have h2 := @lastMac_none i h fun o ho => hh o (by simp [ho])
    cases op <;> simp_all [lastMac, Op.port]

/-- In single address mode it does not matter which port. -/
theorem lastMac_single (i j : Nat) : ∀ h : List Op, lastMac true i h = lastMac true j h
  | [] => rfl
  | op :: h => by
    have := lastMac_single i j h
    cases op <;> simp_all [lastMac]

/-- A call that has no effect on what the history says. -/
theorem Abs.skip {single hw h} {s s' : Dl} (ha : Abs single hw h s) (op : Op)
    (hop : ∀ i, op.port = some i → i < s.ports.length)
    (e1 : s'.single = s.single) (e2 : s'.mac = s.mac) (e3 : s'.reg = s.reg)
    (e4 : ∀ i : Nat, (s'.ports[i]?).map fview = (s.ports[i]?).map fview) (e5 : s'.ports.length = s.ports.length)
    (e6 : s'.hwaddr = hwAt hw (op :: h))
    (f1 : made hw (op :: h) = made hw h)
    (f2 : ∀ k, holder hw k (op :: h) = holder hw k h)
    (f3 : ∀ i, lastMac single i (op :: h) = lastMac single i h)
    (f4 : ∀ i, i < s.ports.length → lastPromisc i (op :: h) = lastPromisc i h)
    (f5 : ∀ i a p, s.ports[i]? = some p →
      ((lastMc i a (op :: h) = some true ∧ IsGroup a) ↔ (lastMc i a h = some true ∧ IsGroup a))) :
    Abs single hw (op :: h) s' where
  sgl := e1.trans ha.sgl
  hwa := e6
  shared := by intro hs; rw [e2, f3]; exact ha.shared hs
  len := by rw [e5, f1, ha.len]
  old := by
    intro o ho i hi
    rw [e5]
    rcases List.mem_cons.1 ho with ho | ho
    · exact hop i (ho ▸ hi)
    · exact ha.old o ho i hi
  reg := by intro k; rw [e3, f2, ha.reg]
  port := by
    intro i p' hp'
    have h4 := e4 i
    rw [hp'] at h4
    cases hp : s.ports[i]? with
    | none => rw [hp] at h4; simp at h4
    | some p =>
      rw [hp] at h4
      simp only [Option.map_some, Option.some.injEq, fview, Prod.mk.injEq] at h4
      have hi : i < s.ports.length := (List.getElem?_eq_some_iff.1 hp).1
      have hh := ha.port i p hp
      refine ⟨?_, ?_, ?_, ?_⟩
      · have : macaddr s' p' = macaddr s p := by simp [macaddr, e1, e2, h4.1]
        rw [this, hh.mac]
        simp only [address, f1, f3]
      · rw [f1, hh.pad, h4.2.2.2.1]
      · rw [f4 i hi, ← hh.promisc, h4.2.2.1]
      · intro a
        rw [h4.2.1, hh.group, f5 i a p hp]

/-- A call that changes a port and takes nothing. -/
theorem Abs.change {single hw h} {s : Dl} (ha : Abs single hw h s) (op : Op) (j : Nat) (f : Port → Port)
    (hop : op.port = some j) (hj : j < s.ports.length)
    (f0 : hwAt hw (op :: h) = hwAt hw h)
    (f1 : made hw (op :: h) = made hw h)
    (f2 : ∀ k, holder hw k (op :: h) = holder hw k h)
    (f3 : single = true → lastMac single 0 (op :: h) = lastMac single 0 h)
    (g : ∀ i p, s.ports[i]? = some p →
      PortAbs single hw (op :: h) (modify s j f) i (if j = i then f p else p)) :
    Abs single hw (op :: h) (newfilter (modify s j f)) where
  sgl := ha.sgl
  hwa := by rw [f0]; exact ha.hwa
  shared := by intro hs; rw [f3 hs]; exact ha.shared hs
  len := by rw [f1, ← ha.len]; simp
  old := by
    intro o ho i hi
    simp only [newfilter_ports, modify_ports, List.length_modify]
    rcases List.mem_cons.1 ho with ho | ho
    · rw [ho, hop] at hi; cases hi; exact hj
    · exact ha.old o ho i hi
  reg := by intro k; rw [f2, ← ha.reg]; rfl
  port := by
    intro i p hp
    simp only [newfilter_ports, modify_ports, getElem?_modify'] at hp
    cases hq : s.ports[i]? with
    | none => rw [hq] at hp; split at hp <;> simp at hp
    | some q =>
      rw [hq] at hp
      have := g i q hq
      have e : p = if j = i then f q else q := by
        split at hp <;> simp_all
      rw [e]
      exact ⟨this.mac, this.pad, this.promisc, this.group⟩

theorem Abs.init (single : Bool) (hw : Bytes) : Abs single hw [] { single, hwaddr := hw } :=
  ⟨rfl, rfl, fun _ => rfl, rfl, by simp, by intro k; rfl, by simp⟩

/-- A key that is free is taken. -/
theorem Abs.take {single hw h} {s : Dl} (ha : Abs single hw h s) (op : Op) (j : Nat) (f : Port → Port) (k : Key)
    (hop : op.port = some j) (hj : j < s.ports.length) (hf : ∀ p, fview (f p) = fview p)
    (hw1 : ∀ k', op.wants k' = decide (k = k')) (hw2 : ∀ n, op.asker n = j)
    (f0 : hwAt hw (op :: h) = hwAt hw h)
    (f1 : made hw (op :: h) = made hw h)
    (f3 : ∀ i, lastMac single i (op :: h) = lastMac single i h)
    (f4 : ∀ i, lastPromisc i (op :: h) = lastPromisc i h)
    (f5 : ∀ i a, lastMc i a (op :: h) = lastMc i a h) :
    Abs single hw (op :: h) (newfilter { modify s j f with reg := s.reg ++ [(k, j)] }) where
  sgl := ha.sgl
  hwa := by rw [f0]; exact ha.hwa
  shared := by intro hs; rw [f3]; exact ha.shared hs
  len := by rw [f1, ← ha.len]; simp
  old := by
    intro o ho i hi
    simp only [newfilter_ports, modify_ports, List.length_modify]
    rcases List.mem_cons.1 ho with ho | ho
    · rw [ho, hop] at hi; cases hi; exact hj
    · exact ha.old o ho i hi
  reg := by
    intro k'
    simp only [newfilter_reg, lookup_append, holder, ha.reg, hw1, hw2, decide_eq_true_eq]
  port := by
    intro i p' hp'
    simp only [newfilter_ports, modify_ports] at hp'
    have h4 := map_modify_view s.ports j i f hf
    rw [hp'] at h4
    cases hp : s.ports[i]? with
    | none => rw [hp] at h4; simp at h4
    | some p =>
      rw [hp] at h4
      simp only [Option.map_some, Option.some.injEq, fview, Prod.mk.injEq] at h4
      have hh := ha.port i p hp
      refine ⟨?_, ?_, ?_, ?_⟩
      · have : macaddr (newfilter { modify s j f with reg := s.reg ++ [(k, j)] }) p' = macaddr s p := by
          simp [macaddr, h4.1]
        rw [this, hh.mac]
        simp only [address, f1, f3]
      · rw [f1, hh.pad, h4.2.2.2.1]
      · rw [f4, ← hh.promisc, h4.2.2.1]
      · intro a
        rw [h4.2.1, hh.group, f5]

theorem macaddr_modify (s : Dl) (j : Nat) (f : Port → Port) (p : Port) : macaddr (modify s j f) p = macaddr s p := rfl

theorem isGroup_iff {a : Bytes} : IsGroup a ↔ a.length = 6 ∧ isMulti a = true := Iff.rfl

theorem wants_type (i : Nat) (t : Bytes) (h2 : t.length = 2) (k : Key) :
    (Op.addProto i t).wants k = decide (Key.type t = k) := by
  cases k <;> simp [Op.wants, h2]

theorem wants_sap (i : Nat) (n : UInt8) (k : Key) : (Op.addSap i n).wants k = decide (Key.sap n = k) := by
  cases k <;> simp [Op.wants]

theorem holder_same {hw : Bytes} {k : Key} {h : List Op} {op : Op}
    (ho : op.wants k = true → (holder hw k h).isSome) : holder hw k (op :: h) = holder hw k h := by
  simp only [holder]
  cases hh : holder hw k h with
  | some i => rfl
  | none =>
    cases hw' : op.wants k with
    | true => simp [hh, hw'] at ho
    | false => simp

theorem Abs.step {single hw h} {s : Dl} (ha : Abs single hw h s) (hi : Own s) (op : Op)
    (hop : ∀ i, op.port = some i → i < s.ports.length) : Abs single hw (op :: h) (step s op) := by
  cases op with
  | create t pad =>
    have fail : (∀ t', t = some t' → t'.length = 2 → asked (.type t') h = true) →
        Abs single hw (.create t pad :: h) (newfilter s) := by
      intro ht
      refine ha.skip _ hop rfl rfl rfl (fun _ => rfl) rfl ?_ ?_ ?_ (fun _ => rfl) (fun _ _ => rfl) (fun _ _ _ _ => Iff.rfl)
      · simpa [hwAt] using ha.hwa
      · cases t with
        | none => rfl
        | some t =>
          simp only [made]
          rw [if_neg]
          rintro ⟨h2, h3⟩
          rw [ht t rfl h2] at h3
          simp at h3
      · intro k
        refine holder_same fun hk => ?_
        cases t with
        | none => simp [Op.wants] at hk
        | some t =>
          cases k with
          | sap n => simp [Op.wants] at hk
          | type u =>
            simp only [Op.wants, Bool.and_eq_true, decide_eq_true_eq] at hk
            have := ht t rfl hk.2
            rw [hk.1] at this
            cases hh : holder hw (.type u) h with
            | some i => rfl
            | none => rw [holder_none] at hh; rw [hh] at this; simp at this
    simp only [EthPort.step, create]
    cases t with
    | none => exact fail (by simp)
    | some t =>
      dsimp only
      split
      · rename_i h2
        exact fail (by intro t' e; cases e; intro h3; exact absurd h3 h2)
      · rename_i h2
        have h2 : t.length = 2 := by omega
        split
        · rename_i hs
          refine fail ?_
          intro t' e _
          cases e
          simp only [newfilter_reg, ha.reg] at hs
          cases hb : asked (.type t) h with
          | true => rfl
          | false => rw [← holder_none (hw := hw)] at hb; rw [hb] at hs; simp at hs
        · rename_i hs
          have hfree : holder hw (.type t) h = none := by
            simpa [ha.reg] using hs
          have hask : asked (.type t) h = false := holder_none.1 hfree
          have hm : made hw (.create (some t) pad :: h) = made hw h ++ [(hwAt hw h, pad)] := by
            simp [made, h2, hask]
          refine ⟨ha.sgl, ha.hwa, fun hs => ha.shared hs, ?_, ?_, ?_, ?_⟩
          · rw [hm]; simp [ha.len]
          · intro o ho i hii
            rcases List.mem_cons.1 ho with ho | ho
            · rw [ho] at hii; simp [Op.port] at hii
            · have := ha.old o ho i hii
              simp; omega
          · intro k
            simp only [newfilter_reg, lookup_append, holder, ha.reg, Op.asker, newfilter_ports, ha.len]
            congr 1
            cases k with
            | sap n => simp [Op.wants]
            | type u => simp [Op.wants, h2]
          · intro i p hp
            simp only [newfilter_ports, newfilter_hw] at hp
            by_cases hlt : i < s.ports.length
            · rw [List.getElem?_append_left hlt] at hp
              have hh := ha.port i p hp
              have hlt' : i < (made hw h).length := ha.len ▸ hlt
              refine ⟨?_, ?_, ?_, ?_⟩
              · have : macaddr s p = address single hw h i := hh.mac
                refine this.trans ?_
                simp only [address, hm, List.getElem?_append_left hlt', lastMac]
              · rw [hm, List.getElem?_append_left hlt', hh.pad]
              · exact hh.promisc
              · exact hh.group
            · rw [List.getElem?_append_right (by omega)] at hp
              have hi0 : i = s.ports.length := by
                by_cases hz : i - s.ports.length = 0
                · omega
                · rw [List.getElem?_eq_none (by simp; omega)] at hp; simp at hp
              subst hi0
              have hp' : p = { mac := s.hwaddr, proto := t, protoset := [t], pad } := by
                simp at hp; exact hp.symm
              have hno : ∀ o ∈ h, o.port ≠ some s.ports.length := by
                intro o ho e
                have := ha.old o ho _ e
                omega
              subst hp'
              refine ⟨?_, ?_, ?_, ?_⟩
              · simp only [address, lastMac, hm]
                cases hsg : single with
                | true =>
                  have hsh := ha.shared hsg
                  have hsg' := ha.sgl
                  rw [hsg, lastMac_single 0 s.ports.length] at hsh
                  simp only [macaddr, newfilter_single, newfilter_mac, hsg', hsg, if_true, hsh]
                  cases lastMac true s.ports.length h <;> rfl
                | false =>
                  have hsg' := ha.sgl
                  rw [lastMac_none hno]
                  simp [macaddr, hsg', hsg, ha.len, ha.hwa]
              · rw [hm, ha.len]; simp
              · exact (lastPromisc_none hno).symm
              · intro a
                simp [lastMc, lastMc_none hno]
  | setMac i a =>
    have fail : ¬ (a.length = 6 ∧ isMulti a = false) → Abs single hw (.setMac i a :: h) s := by
      intro hn
      refine ha.skip _ hop rfl rfl rfl (fun _ => rfl) rfl ha.hwa rfl (fun k => holder_same (by simp [Op.wants])) ?_
        (fun _ _ => rfl) (fun _ _ _ _ => Iff.rfl)
      intro j
      simp only [lastMac]
      rw [if_neg (fun hc => hn hc.2)]
    simp only [EthPort.step, setMac]
    split
    · rename_i h6; exact fail fun hc => h6 hc.1
    · rename_i h6
      have h6 : a.length = 6 := by omega
      split
      · rename_i hm; exact fail fun hc => by rw [hm] at hc; simp at hc
      · rename_i hm
        have hm : isMulti a = false := by simpa using hm
        split
        · rename_i hs
          rw [ha.sgl] at hs
          have hl : ∀ j, lastMac single j (.setMac i a :: h) = some a := by
            intro j; simp [lastMac, hs, h6, hm]
          refine ⟨ha.sgl, ha.hwa, fun _ => (hl 0).symm, ha.len, ?_, ?_, ?_⟩
          · intro o ho j hj
            rcases List.mem_cons.1 ho with ho | ho
            · exact hop j (ho ▸ hj)
            · exact ha.old o ho j hj
          · intro k; rw [holder_same (by simp [Op.wants])]; exact ha.reg k
          · intro j p hp
            have hh := ha.port j p hp
            refine ⟨?_, hh.pad, hh.promisc, hh.group⟩
            simp only [address, hl]; simp [macaddr, ha.sgl, hs]
        · rename_i hs
          rw [ha.sgl] at hs
          refine ha.change _ i _ rfl (hop i rfl) rfl rfl (fun k => holder_same (by simp [Op.wants]))
            (fun hc => absurd hc hs) ?_
          intro j p hp
          have hh := ha.port j p hp
          have hs : single = false := by simpa using hs
          by_cases hj : i = j
          · subst hj
            rw [if_pos rfl]
            refine ⟨?_, hh.pad, hh.promisc, hh.group⟩
            simp [macaddr, address, lastMac, ha.sgl, hs, h6, hm]
          · rw [if_neg hj]
            refine ⟨?_, hh.pad, hh.promisc, hh.group⟩
            have := hh.mac
            rw [macaddr_modify, this]
            have hl : lastMac single j (.setMac i a :: h) = lastMac single j h := by
              simp only [lastMac]
              rw [if_neg (by simp [hs, hj])]
            simp only [address, hl, made]
  | promisc i b =>
    refine ha.change _ i _ rfl (hop i rfl) rfl rfl (fun k => holder_same (by simp [Op.wants])) (fun _ => rfl) ?_
    intro j p hp
    have hh := ha.port j p hp
    by_cases hj : i = j
    · subst hj
      rw [if_pos rfl]
      exact ⟨hh.mac, hh.pad, by simp [lastPromisc], hh.group⟩
    · rw [if_neg hj]
      exact ⟨hh.mac, hh.pad, by simp [lastPromisc, hj, hh.promisc], hh.group⟩
  | addMc i a =>
    have fail : (¬ IsGroup a ∨ ∃ p, s.ports[i]? = some p ∧ a ∈ p.multicast) → Abs single hw (.addMc i a :: h) s := by
      intro hn
      refine ha.skip _ hop rfl rfl rfl (fun _ => rfl) rfl ha.hwa rfl (fun k => holder_same (by simp [Op.wants]))
        (fun _ => rfl) (fun _ _ => rfl) ?_
      intro j b p hp
      simp only [lastMc]
      split
      · rename_i hc
        obtain ⟨rfl, rfl⟩ := hc
        rcases hn with hn | ⟨q, hq, hm⟩
        · simp [hn]
        · have := ((ha.port i q hq).group a).1 hm
          simp [this]
      · exact Iff.rfl
    simp only [EthPort.step, addMc]
    split
    · rename_i h6; exact fail (.inl fun hc => h6 hc.1)
    · rename_i h6
      have h6 : a.length = 6 := by omega
      split
      · rename_i hm; exact fail (.inl fun hc => by have := hc.2; simp [this] at hm)
      · rename_i hm
        have hm : isMulti a = true := by simpa using hm
        split
        · rename_i hc
          refine fail (.inr ?_)
          cases hp : s.ports[i]? with
          | none => rw [hp] at hc; simp at hc
          | some p => exact ⟨p, rfl, by rw [hp] at hc; simpa using hc⟩
        · refine ha.change _ i _ rfl (hop i rfl) rfl rfl (fun k => holder_same (by simp [Op.wants])) (fun _ => rfl) ?_
          intro j p hp
          have hh := ha.port j p hp
          by_cases hj : i = j
          · subst hj
            rw [if_pos rfl]
            refine ⟨hh.mac, hh.pad, hh.promisc, ?_⟩
            intro b
            simp only [List.mem_append, List.mem_singleton, hh.group, lastMc]
            by_cases hb : a = b
            · subst hb; simp [IsGroup, h6, hm]
            · have hb' : ¬ b = a := fun e => hb e.symm
              simp [hb, hb']
          · rw [if_neg hj]
            refine ⟨hh.mac, hh.pad, hh.promisc, ?_⟩
            intro b
            simp only [hh.group, lastMc]
            rw [if_neg (by simp [hj])]
  | rmMc i a =>
    have fail : (a.length ≠ 6 ∨ ∀ p, s.ports[i]? = some p → a ∉ p.multicast) → Abs single hw (.rmMc i a :: h) s := by
      intro hn
      refine ha.skip _ hop rfl rfl rfl (fun _ => rfl) rfl ha.hwa rfl (fun k => holder_same (by simp [Op.wants]))
        (fun _ => rfl) (fun _ _ => rfl) ?_
      intro j b p hp
      simp only [lastMc]
      split
      · rename_i hc
        obtain ⟨rfl, rfl⟩ := hc
        rcases hn with hn | hn
        · simp [IsGroup, hn]
        · have := mt ((ha.port i p hp).group a).2 (hn p hp)
          simp only [Option.some.injEq, Bool.false_eq_true, false_and, false_iff]
          exact this
      · exact Iff.rfl
    simp only [EthPort.step, rmMc]
    split
    · rename_i h6; exact fail (.inl h6)
    · rename_i h6
      split
      · refine ha.change _ i _ rfl (hop i rfl) rfl rfl (fun k => holder_same (by simp [Op.wants])) (fun _ => rfl) ?_
        intro j p hp
        have hh := ha.port j p hp
        by_cases hj : i = j
        · subst hj
          rw [if_pos rfl]
          refine ⟨hh.mac, hh.pad, hh.promisc, ?_⟩
          intro b
          simp only [List.mem_filter, hh.group, lastMc]
          by_cases hb : a = b
          · subst hb; simp
          · have hb' : ¬ b = a := fun e => hb e.symm
            simp [hb, hb']
        · rw [if_neg hj]
          refine ⟨hh.mac, hh.pad, hh.promisc, ?_⟩
          intro b
          simp only [hh.group, lastMc]
          rw [if_neg (by simp [hj])]
      · rename_i hc
        refine fail (.inr ?_)
        intro p hp
        rw [hp] at hc
        simpa using hc
  | addProto i t =>
    have fail : (t.length = 2 → (holder hw (.type t) h).isSome) → Abs single hw (.addProto i t :: h) s := by
      intro hn
      refine ha.skip _ hop rfl rfl rfl (fun _ => rfl) rfl ha.hwa rfl ?_ (fun _ => rfl) (fun _ _ => rfl)
        (fun _ _ _ _ => Iff.rfl)
      intro k
      refine holder_same fun hk => ?_
      cases k with
      | sap n => simp [Op.wants] at hk
      | type u =>
        simp only [Op.wants, Bool.and_eq_true, decide_eq_true_eq] at hk
        rw [← hk.1]; exact hn hk.2
    simp only [EthPort.step, addProto]
    split
    · rename_i h2; exact fail fun hc => absurd hc h2
    · rename_i h2
      have h2 : t.length = 2 := by omega
      split
      · rename_i hc
        refine fail fun _ => ?_
        cases hp : s.ports[i]? with
        | none => rw [hp] at hc; simp at hc
        | some p =>
          rw [hp] at hc
          have := (hi i p hp).protos t (by simpa using hc)
          rw [← ha.reg, this]; rfl
      · split
        · rename_i hs; exact fail fun _ => by rw [← ha.reg]; exact hs
        · refine ha.take _ i _ (.type t) rfl (hop i rfl) (fun p => rfl) (wants_type i t h2) (fun n => rfl) rfl rfl
            (fun _ => rfl) (fun _ => rfl) (fun _ _ => rfl)
  | rmProto i t =>
    have same : ∀ s' : Dl, s'.single = s.single → s'.mac = s.mac → s'.reg = s.reg →
        (∀ j : Nat, (s'.ports[j]?).map fview = (s.ports[j]?).map fview) → s'.ports.length = s.ports.length →
        s'.hwaddr = s.hwaddr → Abs single hw (.rmProto i t :: h) s' := fun s' a b c d e f =>
      ha.skip _ hop a b c d e (f.trans ha.hwa) rfl (fun k => holder_same (by simp [Op.wants])) (fun _ => rfl)
        (fun _ _ => rfl) (fun _ _ _ _ => Iff.rfl)
    simp only [EthPort.step, rmProto]
    split
    · exact same s rfl rfl rfl (fun _ => rfl) rfl rfl
    · split
      · exact same _ rfl rfl rfl (fun j => map_modify_view _ _ _ _ fun p => rfl) (by simp) rfl
      · exact same s rfl rfl rfl (fun _ => rfl) rfl rfl
  | addSap i n =>
    have fail : (holder hw (.sap n) h).isSome → Abs single hw (.addSap i n :: h) s := by
      intro hn
      refine ha.skip _ hop rfl rfl rfl (fun _ => rfl) rfl ha.hwa rfl ?_ (fun _ => rfl) (fun _ _ => rfl)
        (fun _ _ _ _ => Iff.rfl)
      intro k
      refine holder_same fun hk => ?_
      cases k with
      | type u => simp [Op.wants] at hk
      | sap m =>
        simp only [Op.wants, decide_eq_true_eq] at hk
        rw [← hk]; exact hn
    simp only [EthPort.step, addSap]
    split
    · rename_i hc
      refine fail ?_
      cases hp : s.ports[i]? with
      | none => rw [hp] at hc; simp at hc
      | some p =>
        rw [hp] at hc
        have := (hi i p hp).saps n (by simpa using hc)
        rw [← ha.reg, this]; rfl
    · split
      · rename_i hs; exact fail (by rw [← ha.reg]; exact hs)
      · exact ha.take _ i _ (.sap n) rfl (hop i rfl) (fun p => rfl) (wants_sap i n) (fun n => rfl) rfl rfl
          (fun _ => rfl) (fun _ => rfl) (fun _ _ => rfl)
  | rmSap i n =>
    have same : ∀ s' : Dl, s'.single = s.single → s'.mac = s.mac → s'.reg = s.reg →
        (∀ j : Nat, (s'.ports[j]?).map fview = (s.ports[j]?).map fview) → s'.ports.length = s.ports.length →
        s'.hwaddr = s.hwaddr → Abs single hw (.rmSap i n :: h) s' := fun s' a b c d e f =>
      ha.skip _ hop a b c d e (f.trans ha.hwa) rfl (fun k => holder_same (by simp [Op.wants])) (fun _ => rfl)
        (fun _ _ => rfl) (fun _ _ _ _ => Iff.rfl)
    simp only [EthPort.step, rmSap]
    split
    · exact same _ rfl rfl rfl (fun j => map_modify_view _ _ _ _ fun p => rfl) (by simp) rfl
    · exact same s rfl rfl rfl (fun _ => rfl) rfl rfl
  | start info =>
    have e1 : (openDl s info).single = s.single := by unfold openDl; dsimp only; split <;> rfl
    have e2 : (openDl s info).mac = s.mac := by unfold openDl; dsimp only; split <;> rfl
    have e3 : (openDl s info).reg = s.reg := by unfold openDl; dsimp only; split <;> rfl
    have e4 : (openDl s info).ports = s.ports := by unfold openDl; dsimp only; split <;> rfl
    have e5 : (openDl s info).hwaddr = if s.hwaddr = nullId then info.getD nullId else s.hwaddr := by
      unfold openDl; dsimp only; split <;> rfl
    refine ha.skip _ hop e1 e2 e3 (fun _ => by simp only [EthPort.step, e4]) (by simp only [EthPort.step, e4]) ?_ rfl
      (fun k => holder_same (by simp [Op.wants])) (fun _ => rfl) (fun _ _ => rfl) (fun _ _ _ _ => Iff.rfl)
    simp only [EthPort.step, e5, hwAt, ha.hwa]
  | frame packet =>
    obtain ⟨a, b, c, d, e, _, _, _, f⟩ := receive_same s packet
    exact ha.skip _ hop a b c d e (f.trans ha.hwa) rfl (fun k => holder_same (by simp [Op.wants])) (fun _ => rfl)
      (fun _ _ => rfl) (fun _ _ _ _ => Iff.rfl)

theorem Reach.abs {single hw s h} (hr : Reach single hw s h) : Abs single hw h s := by
  induction hr with
  | init => exact Abs.init _ _
  | step op hr hop ih => exact ih.step hr.own op hop

end Verif.EthPort
