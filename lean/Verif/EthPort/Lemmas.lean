import Verif.EthPort.Spec
namespace Verif.EthPort

open Verif.Framing (Bytes)
open Verif.Framing.Eth (bytesLe isMulti)

@[simp] theorem newfilter_ports (s : Dl) : (newfilter s).ports = s.ports := rfl
@[simp] theorem newfilter_reg (s : Dl) : (newfilter s).reg = s.reg := rfl
@[simp] theorem newfilter_single (s : Dl) : (newfilter s).single = s.single := rfl
@[simp] theorem newfilter_mac (s : Dl) : (newfilter s).mac = s.mac := rfl
@[simp] theorem newfilter_hw (s : Dl) : (newfilter s).hwaddr = s.hwaddr := rfl
@[simp] theorem newfilter_opened (s : Dl) : (newfilter s).opened = s.opened := rfl
@[simp] theorem modify_reg (s : Dl) (i) (f) : (modify s i f).reg = s.reg := rfl
@[simp] theorem modify_single (s : Dl) (i) (f) : (modify s i f).single = s.single := rfl
@[simp] theorem modify_mac (s : Dl) (i) (f) : (modify s i f).mac = s.mac := rfl
@[simp] theorem modify_hw (s : Dl) (i) (f) : (modify s i f).hwaddr = s.hwaddr := rfl
@[simp] theorem modify_opened (s : Dl) (i) (f) : (modify s i f).opened = s.opened := rfl
@[simp] theorem modify_filterStr (s : Dl) (i) (f) : (modify s i f).filterStr = s.filterStr := rfl
@[simp] theorem modify_installed (s : Dl) (i) (f) : (modify s i f).installed = s.installed := rfl
@[simp] theorem modify_ports (s : Dl) (i) (f) : (modify s i f).ports = s.ports.modify i f := rfl

/-- What the filter depends on, and what does not change. -/
def fview (p : Port) : Bytes × List Bytes × Bool × Bool × Bytes := (p.mac, p.multicast, p.promisc, p.pad, p.proto)

theorem getElem?_modify' (l : List Port) (i j : Nat) (f : Port → Port) :
    (l.modify i f)[j]? = if i = j then l[j]?.map f else l[j]? := by
  rw [List.getElem?_modify]
  split <;> simp

theorem protomap_congr {s s' : Dl} (hs : s'.single = s.single) (hm : s'.mac = s.mac)
    (hp : ∀ i : Nat, (s'.ports[i]?).map fview = (s.ports[i]?).map fview) :
    ∀ (r : List (Key × Nat)) m, protomap s' r m = protomap s r m
  | [], m => rfl
  | (k, i) :: r, m => by
    have h := hp i
    simp only [protomap]
    cases h1 : s.ports[i]? with
    | none =>
      rw [h1] at h
      have h2 : s'.ports[i]? = none := by
        cases h2 : s'.ports[i]? with
        | none => rfl
        | some q => rw [h2] at h; simp at h
      rw [h2]; exact protomap_congr hs hm hp r m
    | some p =>
      rw [h1] at h
      cases h2 : s'.ports[i]? with
      | none => rw [h2] at h; simp at h
      | some q =>
        rw [h2] at h
        simp only [Option.map_some, Option.some.injEq, fview, Prod.mk.injEq] at h
        have e : macaddr s' q = macaddr s p := by simp [macaddr, hs, hm, h.1]
        simp only [e, h.2.1]
        exact protomap_congr hs hm hp r _

theorem mkFilter_congr {s s' : Dl} (hs : s'.single = s.single) (hm : s'.mac = s.mac) (hr : s'.reg = s.reg)
    (hp : ∀ i : Nat, (s'.ports[i]?).map fview = (s.ports[i]?).map fview) : mkFilter s' = mkFilter s := by
  have e : ∀ i : Nat, (s'.ports[i]?).map (·.promisc) = (s.ports[i]?).map (·.promisc) := by
    intro i
    have := congrArg (Option.map fun x : Bytes × List Bytes × Bool × Bool × Bytes => x.2.2.1) (hp i)
    simpa [Function.comp_def, fview] using this
  simp only [mkFilter, hr, e, protomap_congr hs hm hp]

theorem map_modify_view (l : List Port) (i j : Nat) (f : Port → Port) (hf : ∀ p, fview (f p) = fview p) :
    ((l.modify i f)[j]?).map fview = (l[j]?).map fview := by
  rw [getElem?_modify']
  split
  · cases l[j]? <;> simp [hf]
  · rfl

/-! ## The invariant -/

structure Inv (s : Dl) : Prop where
  idx : ∀ e ∈ s.reg, e.2 < s.ports.length
  nodup : (s.reg.map Prod.fst).Nodup
  filt : s.filterStr = some (mkFilter s) ∨ (s.filterStr = none ∧ s.reg = [])
  inst : s.opened = true → s.installed = some (mkFilter s) ∨ (s.installed = none ∧ mkFilter s = [])
  early : s.opened = false → s.installed = none

theorem lookup_none {r : List (Key × Nat)} {k : Key} : lookup r k = none ↔ k ∉ r.map Prod.fst := by
  simp only [lookup, Option.map_eq_none_iff, List.find?_eq_none, decide_eq_true_eq, List.mem_map, not_exists,
    not_and]

theorem lookup_some_mem {r : List (Key × Nat)} {k : Key} {i : Nat} (h : lookup r k = some i) : (k, i) ∈ r := by
  simp only [lookup, Option.map_eq_some_iff] at h
  obtain ⟨e, he, rfl⟩ := h
  have h1 := List.mem_of_find?_eq_some he
  have h2 := List.find?_some he
  simp only [decide_eq_true_eq] at h2
  obtain ⟨k', i'⟩ := e
  simp only at h2
  subst h2
  exact h1

theorem lookup_mem {r : List (Key × Nat)} (hn : (r.map Prod.fst).Nodup) {k : Key} {i : Nat} (h : (k, i) ∈ r) :
    lookup r k = some i := by
  induction r with
  | nil => simp at h
  | cons e r ih =>
    simp only [List.map_cons, List.nodup_cons] at hn
    simp only [lookup, List.find?_cons]
    by_cases he : e.1 = k
    · simp only [he, decide_true, Option.map_some, Option.some.injEq]
      rcases List.mem_cons.1 h with h | h
      · rw [← h]
      · exact absurd (List.mem_map.2 ⟨_, h, he.symm⟩) hn.1
    · simp only [he, decide_false]
      rcases List.mem_cons.1 h with h | h
      · rw [← h] at he; simp at he
      · exact ih hn.2 h

theorem lookup_append {r : List (Key × Nat)} {k k' : Key} {i : Nat} :
    lookup (r ++ [(k', i)]) k = (lookup r k).or (if k' = k then some i else none) := by
  simp only [lookup, List.find?_append, List.find?_cons, List.find?_nil]
  cases List.find? (fun e => decide (e.1 = k)) r with
  | some e => simp
  | none =>
    by_cases h : k' = k <;> simp [h]

theorem Inv.init (single : Bool) (hw : Bytes) : Inv { single, hwaddr := hw } :=
  ⟨by simp, by simp, .inr ⟨rfl, rfl⟩, by simp, by simp⟩

theorem mkFilter_newfilter (s : Dl) : mkFilter (newfilter s) = mkFilter s :=
  mkFilter_congr rfl rfl rfl fun _ => rfl

/-- After `newfilter` everything holds that is about the filter. -/
theorem Inv.newfilter {s : Dl} (h1 : ∀ e ∈ s.reg, e.2 < s.ports.length) (h2 : (s.reg.map Prod.fst).Nodup)
    (h3 : s.opened = false → s.installed = none) : Inv (newfilter s) := by
  refine ⟨h1, h2, .inl ?_, fun ho => .inl ?_, fun ho => ?_⟩
  · rw [mkFilter_newfilter]; rfl
  · rw [mkFilter_newfilter]
    have : s.opened = true := ho
    simp [EthPort.newfilter, this]
  · have : s.opened = false := ho
    simp [EthPort.newfilter, this, h3 this]

/-- A change of what the filter does not depend on. -/
theorem Inv.same {s s' : Dl} (h : Inv s) (hs : s'.single = s.single) (hm : s'.mac = s.mac) (hr : s'.reg = s.reg)
    (hp : ∀ i : Nat, (s'.ports[i]?).map fview = (s.ports[i]?).map fview) (hl : s'.ports.length = s.ports.length)
    (hf : s'.filterStr = s.filterStr) (hi : s'.installed = s.installed) (ho : s'.opened = s.opened) : Inv s' := by
  have e := mkFilter_congr hs hm hr hp
  exact ⟨by rw [hr, hl]; exact h.idx, by rw [hr]; exact h.nodup, by rw [hf, hr, e]; exact h.filt,
    by rw [ho, hi, e]; exact h.inst, by rw [ho, hi]; exact h.early⟩

theorem nodup_snoc {r : List (Key × Nat)} (h : (r.map Prod.fst).Nodup) {k : Key} {i : Nat} (hk : lookup r k = none) :
    ((r ++ [(k, i)]).map Prod.fst).Nodup := by
  rw [List.map_append, List.nodup_append]
  refine ⟨h, by simp, ?_⟩
  intro a ha b hb e
  simp only [List.map_cons, List.map_nil, List.mem_singleton] at hb
  subst hb; subst e
  exact lookup_none.1 hk ha

theorem count_same (s : Dl) (i : Nat) (packet : Bytes) :
    (count s i packet).single = s.single ∧ (count s i packet).mac = s.mac ∧ (count s i packet).reg = s.reg ∧
    (∀ j : Nat, ((count s i packet).ports[j]?).map fview = (s.ports[j]?).map fview) ∧
    (count s i packet).ports.length = s.ports.length ∧ (count s i packet).filterStr = s.filterStr ∧
    (count s i packet).installed = s.installed ∧ (count s i packet).opened = s.opened ∧
    (count s i packet).hwaddr = s.hwaddr := by
  unfold count
  dsimp only
  split <;> exact ⟨rfl, rfl, rfl, fun j => map_modify_view _ _ _ _ (fun p => rfl), by simp [modify], rfl, rfl, rfl, rfl⟩

theorem receive_same (s : Dl) (packet : Bytes) :
    (receive s packet).1.single = s.single ∧ (receive s packet).1.mac = s.mac ∧ (receive s packet).1.reg = s.reg ∧
    (∀ j : Nat, ((receive s packet).1.ports[j]?).map fview = (s.ports[j]?).map fview) ∧
    (receive s packet).1.ports.length = s.ports.length ∧ (receive s packet).1.filterStr = s.filterStr ∧
    (receive s packet).1.installed = s.installed ∧ (receive s packet).1.opened = s.opened ∧
    (receive s packet).1.hwaddr = s.hwaddr := by
  unfold receive
  split
  · simp
  · split
    · simp
    · split
      · simp
      · dsimp only
        split
        · simp
        · split
          · simp
          · split
            · exact count_same _ _ _
            · simp

theorem Inv.step {s : Dl} (h : Inv s) (op : Op) (hop : ∀ i, op.port = some i → i < s.ports.length) :
    Inv (EthPort.step s op) := by
  have hn : Inv (EthPort.newfilter s) := Inv.newfilter h.idx h.nodup h.early
  have hmod : ∀ i f, Inv (EthPort.newfilter (modify s i f)) := fun i f =>
    Inv.newfilter (by simpa using h.idx) h.nodup h.early
  cases op with
  | create t pad =>
    simp only [EthPort.step, create]
    split
    · exact hn
    · split
      · exact hn
      · split
        · exact hn
        · rename_i t _ hl
          refine Inv.newfilter ?_ ?_ hn.early
          · intro e he
            simp only [newfilter_reg, newfilter_ports, List.mem_append, List.mem_singleton, List.length_append,
              List.length_singleton] at he ⊢
            rcases he with he | he
            · have := h.idx e he; omega
            · rw [he]; simp
          · exact nodup_snoc h.nodup (by simpa using hl)
  | setMac i a =>
    simp only [EthPort.step, setMac]
    split
    · exact h
    · split
      · exact h
      · split
        · exact Inv.newfilter h.idx h.nodup h.early
        · exact hmod _ _
  | promisc i b => exact hmod _ _
  | addMc i a =>
    simp only [EthPort.step, addMc]
    split
    · exact h
    · split
      · exact h
      · split
        · exact h
        · exact hmod _ _
  | rmMc i a =>
    simp only [EthPort.step, rmMc]
    split
    · exact h
    · split
      · exact hmod _ _
      · exact h
  | addProto i t =>
    simp only [EthPort.step, addProto]
    split
    · exact h
    · split
      · exact h
      · split
        · exact h
        · rename_i hl
          refine Inv.newfilter ?_ (nodup_snoc h.nodup (by simpa using hl)) h.early
          intro e he
          simp only [modify_reg, modify_ports, List.length_modify, List.mem_append, List.mem_singleton] at he ⊢
          rcases he with he | he
          · exact h.idx e he
          · rw [he]; exact hop i rfl
  | rmProto i t =>
    simp only [EthPort.step, rmProto]
    split
    · exact h
    · split
      · exact h.same rfl rfl rfl (fun j => map_modify_view _ _ _ _ fun p => rfl) (by simp) rfl rfl rfl
      · exact h
  | addSap i n =>
    simp only [EthPort.step, addSap]
    split
    · exact h
    · split
      · exact h
      · rename_i hl
        refine Inv.newfilter ?_ (nodup_snoc h.nodup (by simpa using hl)) h.early
        intro e he
        simp only [modify_reg, modify_ports, List.length_modify, List.mem_append, List.mem_singleton] at he ⊢
        rcases he with he | he
        · exact h.idx e he
        · rw [he]; exact hop i rfl
  | rmSap i n =>
    simp only [EthPort.step, rmSap]
    split
    · exact h.same rfl rfl rfl (fun j => map_modify_view _ _ _ _ fun p => rfl) (by simp) rfl rfl rfl
    · exact h
  | start info =>
    have e : mkFilter (openDl s info) = mkFilter s := by
      unfold openDl
      dsimp only
      split <;> exact mkFilter_congr rfl rfl rfl fun _ => rfl
    have f : (openDl s info).filterStr = s.filterStr := by unfold openDl; dsimp only; split <;> rfl
    have r : (openDl s info).reg = s.reg := by unfold openDl; dsimp only; split <;> rfl
    have q : (openDl s info).ports = s.ports := by unfold openDl; dsimp only; split <;> rfl
    have ii : (openDl s info).installed = match s.filterStr with
             | none => s.installed
             | some f => if f.isEmpty then s.installed else some f := by
      unfold openDl; dsimp only; by_cases hw : s.hwaddr = nullId
      · rw [if_pos hw]; dsimp only; cases s.filterStr <;> rfl
      · rw [if_neg hw]; cases s.filterStr <;> rfl
    refine ⟨by simpa only [EthPort.step, r, q] using h.idx, by simpa only [EthPort.step, r] using h.nodup,
      by simpa only [EthPort.step, f, r, e] using h.filt, fun _ => ?_, ?_⟩
    · simp only [EthPort.step]
      rw [ii, e]
      have hi : s.installed = some (mkFilter s) ∨ s.installed = none := by
        cases ho : s.opened with
        | true => rcases h.inst ho with h | h; exact .inl h; exact .inr h.1
        | false => exact .inr (h.early ho)
      rcases h.filt with hf | ⟨hf, hr⟩
      · rw [hf]
        dsimp only
        split
        · rename_i hz
          have hz : mkFilter s = [] := by simpa using hz
          rcases hi with hi | hi
          · exact .inl hi
          · exact .inr ⟨hi, hz⟩
        · exact .inl rfl
      · rw [hf]
        have hz : mkFilter s = [] := by simp [mkFilter, hr, protomap]
        rcases hi with hi | hi
        · exact .inl hi
        · exact .inr ⟨hi, hz⟩
    · intro ho
      have : (openDl s info).opened = true := by unfold openDl; dsimp only
      simp only [EthPort.step] at ho
      rw [this] at ho; simp at ho
  | frame packet =>
    obtain ⟨a, b, c, d, e, f, g, i, _⟩ := receive_same s packet
    exact h.same a b c d e f g i

theorem Reach.inv {single hw s h} (hr : Reach single hw s h) : Inv s := by
  induction hr with
  | init => exact Inv.init _ _
  | step op _ hop ih => exact ih.step op hop

/-! ## What the ports have is registered -/

/-- The types and access points of port `i`. -/
structure OwnP (r : List (Key × Nat)) (i : Nat) (p : Port) : Prop where
  protos : ∀ t ∈ p.protoset, lookup r (.type t) = some i
  saps : ∀ n ∈ p.sapset, lookup r (.sap n) = some i
  prim : lookup r (.type p.proto) = some i

def Own (s : Dl) : Prop := ∀ i p, s.ports[i]? = some p → OwnP s.reg i p

theorem lookup_grow {r : List (Key × Nat)} {k k' : Key} {i j : Nat} (h : lookup r k = some i) :
    lookup (r ++ [(k', j)]) k = some i := by
  rw [lookup_append, h]; rfl

theorem OwnP.grow {r i p} (h : OwnP r i p) (k : Key) (j : Nat) : OwnP (r ++ [(k, j)]) i p :=
  ⟨fun t ht => lookup_grow (h.protos t ht), fun n hn => lookup_grow (h.saps n hn), lookup_grow h.prim⟩

/-- A change of a port that takes nothing. -/
theorem Own.modify {s : Dl} (h : Own s) (j : Nat) (f : Port → Port) (hf : ∀ p, OwnP s.reg j p → OwnP s.reg j (f p)) :
    Own (EthPort.modify s j f) := by
  intro i p hp
  simp only [modify_ports, getElem?_modify'] at hp
  split at hp
  · rename_i e
    subst e
    cases hq : s.ports[j]? with
    | none => rw [hq] at hp; simp at hp
    | some q => rw [hq] at hp; simp only [Option.map_some, Option.some.injEq] at hp; subst hp; exact hf q (h j q hq)
  · exact h i p hp

/-- A change that takes a free key. -/
theorem Own.take {s : Dl} (h : Own s) (j : Nat) (f : Port → Port) (k : Key)
    (hf : ∀ p, OwnP s.reg j p → OwnP (s.reg ++ [(k, j)]) j (f p)) :
    Own { EthPort.modify s j f with reg := s.reg ++ [(k, j)] } := by
  intro i p hp
  simp only [modify_ports, getElem?_modify'] at hp
  split at hp
  · rename_i e
    subst e
    cases hq : s.ports[j]? with
    | none => rw [hq] at hp; simp at hp
    | some q => rw [hq] at hp; simp only [Option.map_some, Option.some.injEq] at hp; subst hp; exact hf q (h j q hq)
  · exact (h i p hp).grow k j

theorem Own.count {s : Dl} (h : Own s) (i : Nat) (packet : Bytes) : Own (count s i packet) := by
  unfold EthPort.count
  dsimp only
  split
  · exact Own.modify (s := { s with mcPkts := s.mcPkts + 1 }) h i _ fun p hp => ⟨hp.protos, hp.saps, hp.prim⟩
  · exact Own.modify h i _ fun p hp => ⟨hp.protos, hp.saps, hp.prim⟩

theorem Own.receive {s : Dl} (h : Own s) (packet : Bytes) : Own (receive s packet).1 := by
  unfold EthPort.receive
  split
  · exact h
  · split
    · exact h
    · split
      · exact h
      · dsimp only
        split
        · exact h
        · split
          · exact h
          · split
            · exact h.count _ _
            · exact h

theorem lookup_new {r : List (Key × Nat)} {k : Key} {i : Nat} (h : lookup r k = none) :
    lookup (r ++ [(k, i)]) k = some i := by
  rw [lookup_append, h]; simp

theorem Own.step {s : Dl} (h : Own s) (op : Op) : Own (EthPort.step s op) := by
  cases op with
  | create t pad =>
    simp only [EthPort.step, create]
    split
    · exact h
    · split
      · exact h
      · split
        · exact h
        · rename_i t _ hl
          have hl : lookup s.reg (.type t) = none := by simpa using hl
          intro i p hp
          simp only [newfilter_ports, newfilter_reg] at hp ⊢
          by_cases hlt : i < s.ports.length
          · rw [List.getElem?_append_left hlt] at hp
            exact (h i p hp).grow _ _
          · rw [List.getElem?_append_right (by omega)] at hp
            have hi0 : i = s.ports.length := by
              by_cases hz : i - s.ports.length = 0
              · omega
              · rw [List.getElem?_eq_none (by simp; omega)] at hp; simp at hp
            subst hi0
            simp only [Nat.sub_self, List.getElem?_cons_zero, Option.some.injEq] at hp
            subst hp
            exact ⟨by intro u hu; simp only [List.mem_singleton] at hu; rw [hu]; exact lookup_new hl, by simp,
              lookup_new hl⟩
  | setMac i a =>
    simp only [EthPort.step, setMac]
    split
    · exact h
    · split
      · exact h
      · split
        · exact h
        · exact h.modify i _ fun p hp => ⟨hp.protos, hp.saps, hp.prim⟩
  | promisc i b => exact h.modify i _ fun p hp => ⟨hp.protos, hp.saps, hp.prim⟩
  | addMc i a =>
    simp only [EthPort.step, addMc]
    split
    · exact h
    · split
      · exact h
      · split
        · exact h
        · exact h.modify i _ fun p hp => ⟨hp.protos, hp.saps, hp.prim⟩
  | rmMc i a =>
    simp only [EthPort.step, rmMc]
    split
    · exact h
    · split
      · exact h.modify i _ fun p hp => ⟨hp.protos, hp.saps, hp.prim⟩
      · exact h
  | addProto i t =>
    simp only [EthPort.step, addProto]
    split
    · exact h
    · split
      · exact h
      · split
        · exact h
        · rename_i hl
          have hl : lookup s.reg (.type t) = none := by simpa using hl
          refine h.take i _ _ fun p hp => ⟨?_, (hp.grow _ _).saps, (hp.grow _ _).prim⟩
          intro u hu
          simp only [List.mem_append, List.mem_singleton] at hu
          rcases hu with hu | hu
          · exact lookup_grow (hp.protos u hu)
          · rw [hu]; exact lookup_new hl
  | rmProto i t =>
    simp only [EthPort.step, rmProto]
    split
    · exact h
    · split
      · exact h.modify i _ fun p hp => ⟨fun u hu => hp.protos u (List.mem_filter.1 hu).1, hp.saps, hp.prim⟩
      · exact h
  | addSap i n =>
    simp only [EthPort.step, addSap]
    split
    · exact h
    · split
      · exact h
      · rename_i hl
        have hl : lookup s.reg (.sap n) = none := by simpa using hl
        refine h.take i _ _ fun p hp => ⟨(hp.grow _ _).protos, ?_, (hp.grow _ _).prim⟩
        intro u hu
        simp only [List.mem_append, List.mem_singleton] at hu
        rcases hu with hu | hu
        · exact lookup_grow (hp.saps u hu)
        · rw [hu]; exact lookup_new hl
  | rmSap i n =>
    simp only [EthPort.step, rmSap]
    split
    · exact h.modify i _ fun p hp => ⟨hp.protos, fun u hu => hp.saps u (List.mem_filter.1 hu).1, hp.prim⟩
    · exact h
  | start info =>
    have e3 : (openDl s info).reg = s.reg := by unfold openDl; dsimp only; split <;> rfl
    have e4 : (openDl s info).ports = s.ports := by unfold openDl; dsimp only; split <;> rfl
    intro i p hp
    simp only [EthPort.step, e3, e4] at hp ⊢
    exact h i p hp
  | frame packet => exact h.receive packet

theorem Reach.own {single hw s h} (hr : Reach single hw s h) : Own s := by
  induction hr with
  | init => intro i p hp; simp at hp
  | step op _ _ ih => exact ih.step op

end Verif.EthPort
