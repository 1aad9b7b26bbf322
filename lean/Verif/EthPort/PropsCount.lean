import Verif.EthPort.Props
/-!
# C109: the line counter counts every frame once; C111: the receive thread of the UDP bridge
-/
namespace Verif.EthPort

open Verif.Framing (Bytes)
open Verif.Framing.Eth (bytesLe isMulti)

/-! ## The line counter -/

/-- A frame that passes the type and address filters at this point of the history. -/
def Counted (single : Bool) (hw : Bytes) (h : List Op) (packet : Bytes) : Prop :=
  ∃ f : Frame, f.Ok ∧ f.bytes = packet ∧ isMulti f.src = false ∧
    ∃ k i, f.key = some k ∧ holder hw k h = some i ∧ Listens single hw h i f.dest

open Classical in
/-- How many frames passed. -/
noncomputable def tally (single : Bool) (hw : Bytes) : List Op → Nat
  | [] => 0
  | .frame packet :: h => tally single hw h + if Counted single hw h packet then 1 else 0
  | _ :: h => tally single hw h

def term (s : Dl) (e : Key × Nat) : Nat :=
  match s.ports[e.2]? with
  | some p => if e.1 = .type p.proto then p.pkts else 0
  | none => 0

theorem linePkts_eq (s : Dl) : linePkts s = (s.reg.map (term s)).sum := rfl

theorem linePkts_same {s s' : Dl} (hr : s'.reg = s.reg) (ht : ∀ e ∈ s.reg, term s' e = term s e) :
    linePkts s' = linePkts s := by
  rw [linePkts_eq, linePkts_eq, hr, List.map_congr_left ht]

theorem linePkts_snoc {s s' : Dl} {e : Key × Nat} (hr : s'.reg = s.reg ++ [e])
    (ht : ∀ x ∈ s.reg, term s' x = term s x) (he : term s' e = 0) : linePkts s' = linePkts s := by
  rw [linePkts_eq, linePkts_eq, hr, List.map_append, List.sum_append, List.map_congr_left ht]
  simp [he]

theorem term_modify (s : Dl) (i : Nat) (f : Port → Port) (hf : ∀ p, (f p).proto = p.proto ∧ (f p).pkts = p.pkts)
    (e : Key × Nat) : term (modify s i f) e = term s e := by
  simp only [term, modify_ports, getElem?_modify']
  split
  · rename_i p h
    split at h
    · rename_i hj
      cases hq : s.ports[e.2]? with
      | none => rw [hq] at h; simp at h
      | some q =>
        rw [hq] at h
        simp only [Option.map_some, Option.some.injEq] at h
        subst h
        simp [hf]
    · rw [h]
  · rename_i h
    split at h
    · cases hq : s.ports[e.2]? with
      | none => rfl
      | some q => rw [hq] at h; simp at h
    · rw [h]

/-- Counting a frame adds one to the term of the primary type of the port. -/
theorem sum_bump {l : List (Key × Nat)} {g g' : Key × Nat → Nat} {x : Key × Nat} (hx : x ∈ l)
    (hn : (l.map Prod.fst).Nodup) (hg : ∀ e ∈ l, g' e = g e + if e = x then 1 else 0) :
    (l.map g').sum = (l.map g).sum + 1 := by
  induction l with
  | nil => simp at hx
  | cons e l ih =>
    simp only [List.map_cons, List.nodup_cons, List.sum_cons] at hn ⊢
    have he := hg e (by simp)
    by_cases hex : e = x
    · subst hex
      have : l.map g' = l.map g := by
        apply List.map_congr_left
        intro y hy
        rw [hg y (by simp [hy]), if_neg]
        · rfl
        · intro e'
          exact hn.1 (List.mem_map.2 ⟨y, hy, by rw [e']⟩)
      rw [this, he, if_pos rfl]; omega
    · have hxl : x ∈ l := by
        rcases List.mem_cons.1 hx with h | h
        · exact absurd h.symm hex
        · exact h
      rw [ih hxl hn.2 (fun y hy => hg y (by simp [hy])), he, if_neg hex]; omega

theorem linePkts_count {s : Dl} (hi : Inv s) (ho : Own s) {i : Nat} {p : Port} (hp : s.ports[i]? = some p)
    (packet : Bytes) : linePkts (count s i packet) = linePkts s + 1 := by
  have hreg : (count s i packet).reg = s.reg := (count_same s i packet).2.2.1
  have hports : (count s i packet).ports =
      s.ports.modify i fun p => { p with pkts := p.pkts + 1, bytes := p.bytes + packet.length } := by
    unfold count; dsimp only; split <;> rfl
  rw [linePkts_eq, linePkts_eq, hreg]
  refine sum_bump (x := (.type p.proto, i)) (lookup_some_mem (ho i p hp).prim) hi.nodup ?_
  rintro ⟨k, j⟩ he
  simp only [term, hports, getElem?_modify']
  by_cases hj : i = j
  · subst hj
    rw [if_pos rfl, hp]
    simp only [Option.map_some, Prod.mk.injEq, and_true]
    split <;> simp_all
  · rw [if_neg hj]
    have : ¬ ((k, j) = (Key.type p.proto, i)) := by rintro e; cases e; exact hj rfl
    rw [if_neg this]; rfl

theorem holder_len {hw : Bytes} {t : Bytes} {i : Nat} : ∀ {h : List Op}, holder hw (.type t) h = some i → t.length = 2
  | [], h => by simp [holder] at h
  | op :: l, h => by
    simp only [holder] at h
    cases hh : holder hw (.type t) l with
    | some j => exact holder_len hh
    | none =>
      rw [hh] at h
      simp only [Option.none_or] at h
      split at h
      · rename_i hw'
        cases op with
        | create o pad =>
          cases o with
          | none => simp [Op.wants] at hw'
          | some u =>
            simp only [Op.wants, Bool.and_eq_true, decide_eq_true_eq] at hw'
            rw [← hw'.1]; exact hw'.2
        | addProto j u =>
          simp only [Op.wants, Bool.and_eq_true, decide_eq_true_eq] at hw'
          rw [← hw'.1]; exact hw'.2
        | _ => simp [Op.wants] at hw'
      · simp at h

/-- A packet with at least 14 bytes is a frame. -/
theorem frame_of {packet : Bytes} (h : 14 ≤ packet.length) : ∃ f : Frame, f.Ok ∧ f.bytes = packet :=
  ⟨⟨packet.take 6, (packet.drop 6).take 6, (packet.drop 12).take 2, packet.drop 14⟩,
    ⟨by simp; omega, by simp; omega, by simp; omega⟩, (Verif.Framing.Eth.parts_of packet).symm⟩

theorem count_frame {single hw h s} (hr : Reach single hw s h) (packet : Bytes) :
    (Counted single hw h packet → linePkts (receive s packet).1 = linePkts s + 1) ∧
    (¬ Counted single hw h packet → linePkts (receive s packet).1 = linePkts s) := by
  have hi := hr.inv
  have ha := hr.abs
  have ho := hr.own
  constructor
  · rintro ⟨f, hf, rfl, hm, k, i, hk, hh, hl⟩
    obtain ⟨h1, h2, h3, h4⟩ := Frame.parts hf
    have hlk : lookup s.reg k = some i := by rw [ha.reg, hh]
    obtain ⟨p, hp⟩ : ∃ p, s.ports[i]? = some p := ⟨_, List.getElem?_eq_getElem (hi.idx _ (lookup_some_mem hlk))⟩
    simp only [receive, if_neg (Frame.bytes_ne hf), Frame.frameKey hf, hk, hlk, Option.bind_some, hp, Option.map_some,
      h1, h2]
    rw [if_neg (by simp [hf.2.1]), if_neg (by simp [hm]), if_pos ((accepts_iff ha hp _).2 hl)]
    exact linePkts_count hi ho hp _
  · intro hn
    unfold receive
    split
    · rfl
    · split
      · rfl
      · rename_i k hk
        split
        · rfl
        · rename_i i p hb
          dsimp only
          split
          · rfl
          · split
            · rfl
            · split
              · rename_i hsl hm hacc
                exfalso
                apply hn
                cases hlk : lookup s.reg k with
                | none => rw [hlk] at hb; simp at hb
                | some j =>
                  have hh : holder hw k h = some j := by rw [← ha.reg, hlk]
                  rw [hlk] at hb
                  simp only [Option.bind_some, Option.map_eq_some_iff, Prod.mk.injEq] at hb
                  obtain ⟨q, hq, rfl, rfl⟩ := hb
                  have hlen : 14 ≤ packet.length := by
                    cases k with
                    | sap n =>
                      simp only [frameKey] at hk
                      split at hk
                      · simp only [Option.map_eq_some_iff] at hk
                        obtain ⟨x, hx, _⟩ := hk
                        have := (List.getElem?_eq_some_iff.1 hx).1
                        omega
                      · simp at hk
                    | type t =>
                      have h2 := holder_len hh
                      simp only [frameKey] at hk
                      split at hk
                      · simp at hk
                      · simp only [Option.some.injEq, Key.type.injEq] at hk
                        rw [← hk] at h2
                        simp at h2
                        omega
                  obtain ⟨f, hf, rfl⟩ := frame_of hlen
                  obtain ⟨h1, h2, _, _⟩ := Frame.parts hf
                  rw [Frame.frameKey hf] at hk
                  rw [h1] at hacc
                  rw [h2] at hm
                  exact ⟨f, hf, rfl, by simpa using hm, k, _, hk, hh, (accepts_iff ha hq _).1 hacc⟩
              · rfl

/-- C109: the frames received on the line are the sum over the ports, each port once however many types it has: the
line counter is the number of frames that passed the type and address filters. -/
theorem line_counter {single hw s h} (hr : Reach single hw s h) : linePkts s = tally single hw h := by
  induction hr with
  | init => rfl
  | @step s h op hr hop ih =>
    have ha := hr.abs
    have hi := hr.inv
    have ho := hr.own
    have mod : ∀ i f, (∀ p, (f p).proto = p.proto ∧ (f p).pkts = p.pkts) →
        linePkts (modify s i f) = linePkts s := fun i f hf => linePkts_same rfl fun e _ => term_modify s i f hf e
    cases op with
    | create t pad =>
      simp only [step, create, tally, ← ih]
      split
      · rfl
      · split
        · rfl
        · split
          · rfl
          · refine linePkts_snoc (s := s) (e := (.type _, s.ports.length)) rfl ?_ ?_
            · intro e he
              have := hi.idx e he
              simp only [term, newfilter_ports]
              rw [List.getElem?_append_left this]
            · simp [term]
    | setMac i a =>
      simp only [step, setMac, tally, ← ih]
      split
      · rfl
      · split
        · rfl
        · split
          · rfl
          · exact mod i _ fun p => ⟨rfl, rfl⟩
    | promisc i b =>
      simp only [step, tally, ← ih]
      exact mod i _ fun p => ⟨rfl, rfl⟩
    | addMc i a =>
      simp only [step, addMc, tally, ← ih]
      split
      · rfl
      · split
        · rfl
        · split
          · rfl
          · exact mod i _ fun p => ⟨rfl, rfl⟩
    | rmMc i a =>
      simp only [step, rmMc, tally, ← ih]
      split
      · rfl
      · split
        · exact mod i _ fun p => ⟨rfl, rfl⟩
        · rfl
    | addProto i t =>
      simp only [step, addProto, tally, ← ih]
      split
      · rfl
      · split
        · rfl
        · split
          · rfl
          · rename_i hl
            have hl : lookup s.reg (.type t) = none := by simpa using hl
            refine linePkts_snoc (s := s) (e := (.type t, i)) rfl (fun e _ =>
              term_modify s i (fun p => { p with protoset := p.protoset ++ [t] }) (fun p => ⟨rfl, rfl⟩) e) ?_
            refine (term_modify s i (fun p => { p with protoset := p.protoset ++ [t] }) (fun p => ⟨rfl, rfl⟩)
              (.type t, i)).trans ?_
            simp only [term]
            cases hp : s.ports[i]? with
            | none => rfl
            | some p =>
              have hprim := (ho i p hp).prim
              dsimp only
              rw [if_neg]
              intro e
              simp only [Key.type.injEq] at e
              rw [← e, hl] at hprim
              simp at hprim
    | rmProto i t =>
      simp only [step, rmProto, tally, ← ih]
      split
      · rfl
      · split
        · exact mod i _ fun p => ⟨rfl, rfl⟩
        · rfl
    | addSap i n =>
      simp only [step, addSap, tally, ← ih]
      split
      · rfl
      · split
        · rfl
        · refine linePkts_snoc (s := s) (e := (.sap n, i)) rfl (fun e _ =>
            term_modify s i (fun p => { p with sapset := p.sapset ++ [n] }) (fun p => ⟨rfl, rfl⟩) e) ?_
          refine (term_modify s i (fun p => { p with sapset := p.sapset ++ [n] }) (fun p => ⟨rfl, rfl⟩)
            (.sap n, i)).trans ?_
          simp only [term]
          cases s.ports[i]? <;> simp
    | rmSap i n =>
      simp only [step, rmSap, tally, ← ih]
      split
      · exact mod i _ fun p => ⟨rfl, rfl⟩
      · rfl
    | start info =>
      have e3 : (openDl s info).reg = s.reg := by unfold openDl; dsimp only; split <;> rfl
      have e4 : (openDl s info).ports = s.ports := by unfold openDl; dsimp only; split <;> rfl
      simp only [step, tally, ← ih]
      exact linePkts_same e3 fun e _ => by simp only [term, e4]
    | frame packet =>
      have hc := count_frame hr packet
      simp only [step, tally, ← ih]
      split
      · rename_i h; exact hc.1 h
      · rename_i h; exact hc.2 h

/-! ## The receive thread of the UDP bridge -/

theorem receive_congr {s s' : Dl} (hs : s'.single = s.single) (hm : s'.mac = s.mac) (hr : s'.reg = s.reg)
    (hp : ∀ i : Nat, (s'.ports[i]?).map fview = (s.ports[i]?).map fview) (packet : Bytes) :
    (receive s' packet).2 = (receive s packet).2 := by
  unfold receive
  split
  · rfl
  · split
    · rfl
    · rename_i k hk
      rw [hr]
      cases hl : lookup s.reg k with
      | none => rfl
      | some i =>
        simp only [Option.bind_some]
        have h := hp i
        cases h1 : s.ports[i]? with
        | none =>
          rw [h1] at h
          cases h2 : s'.ports[i]? with
          | none => rfl
          | some q => rw [h2] at h; simp at h
        | some p =>
          rw [h1] at h
          cases h2 : s'.ports[i]? with
          | none => rw [h2] at h; simp at h
          | some q =>
            rw [h2] at h
            simp only [Option.map_some, Option.some.injEq, fview, Prod.mk.injEq] at h
            have e : macaddr s' q = macaddr s p := by simp [macaddr, hs, hm, h.1]
            have e1 : accepts s' q (packet.take 6) = accepts s p (packet.take 6) := by
              simp only [accepts, e, h.2.1, h.2.2.1]
            have e2 : payload q i packet = payload p i packet := by simp only [payload, h.2.2.2.1]
            simp only [Option.map_some, e1, e2]
            split
            · rfl
            · split
              · rfl
              · split <;> rfl

/-- Frames of at least 16 bytes do no harm. -/
theorem receive_noerr (s : Dl) {packet : Bytes} (h : 16 ≤ packet.length) : (receive s packet).2 ≠ .error := by
  obtain ⟨x, hx⟩ : ∃ x, packet[14]? = some x := ⟨_, List.getElem?_eq_getElem (by omega)⟩
  obtain ⟨y, hy⟩ : ∃ y, packet[15]? = some y := ⟨_, List.getElem?_eq_getElem (by omega)⟩
  unfold receive
  split
  · simp
  · split
    · rename_i hk
      simp only [frameKey] at hk
      split at hk
      · rw [hx] at hk; simp at hk
      · simp at hk
    · split
      · simp
      · dsimp only
        split
        · rename_i hc; simp at hc; omega
        · split
          · simp
          · split
            · dsimp only [payload]
              rw [hx, hy]
              dsimp only
              split
              · split <;> simp
              · simp
            · simp

/-- What `receive` hands on. -/
def handed : Rx → List (Nat × Bytes × Bytes)
  | .deliver i src p => [(i, src, p)]
  | _ => []

/-- C111: as long as no datagram is of 4 bytes or less, whoever sends it, and those of the peer are of 16 bytes at
least, the receive thread goes on, and what the frames of the peer say is handed on, in order. Partial: without the
first condition it is not so (`bridge_stopped`). -/
theorem bridge_delivers_partial (ds : List Dgram)
    (hd : ∀ d ∈ ds, 4 < d.data.length ∧ (d.fromPeer = true → 16 ≤ d.data.length)) :
    ∀ s, (bridgeRun s ds).2 =
      (ds.flatMap fun d => if d.fromPeer then handed (receive s d.data).2 else [], true) := by
  induction ds with
  | nil => intro s; rfl
  | cons d ds ih =>
    intro s
    have hd1 := hd d (by simp)
    have ih := ih fun x hx => hd x (by simp [hx])
    simp only [bridgeRun, List.flatMap_cons]
    rw [if_neg (by omega)]
    cases hp : d.fromPeer with
    | false => simpa using ih s
    | true =>
      simp only [Bool.not_true, Bool.false_eq_true, if_false, if_true]
      have h16 := hd1.2 hp
      obtain ⟨b, hb⟩ : ∃ b, d.data[6]? = some b := ⟨_, List.getElem?_eq_getElem (by omega)⟩
      rw [hb]
      dsimp only
      have hne := receive_noerr s h16
      split
      · rename_i hodd
        have : handed (receive s d.data).2 = [] := by
          have hm : isMulti ((d.data.drop 6).take 6) = true := by
            have hc : ∃ l, (d.data.drop 6).take 6 = b :: l := by
              have := List.drop_eq_getElem_cons (l := d.data) (i := 6) (by omega)
              rw [this]
              have hb' := (List.getElem?_eq_some_iff.1 hb).2
              rw [hb']
              exact ⟨_, rfl⟩
            obtain ⟨l, hl⟩ := hc
            rw [hl]
            simp [isMulti, hodd]
          unfold receive
          split
          · rfl
          · split
            · rfl
            · split
              · rfl
              · dsimp only
                split
                · rfl
                · first | rfl | (rw [if_pos hm]; rfl)
        rw [this]
        simpa using ih s
      · have hsame := receive_same s d.data
        have hcongr : ∀ q, (receive (receive s d.data).1 q).2 = (receive s q).2 :=
          receive_congr hsame.1 hsame.2.1 hsame.2.2.1 hsame.2.2.2.1
        have ih' := ih (receive s d.data).1
        simp only [hcongr] at ih'
        generalize hg : receive s d.data = r at *
        obtain ⟨s', rx⟩ := r
        cases rx with
        | error => exact absurd rfl hne
        | ignore => simpa [handed] using ih'
        | deliver i src p =>
          simp only at ih' ⊢
          have e1 := congrArg Prod.fst ih'
          have e2 := congrArg Prod.snd ih'
          simp only at e1 e2
          rw [e1, e2]
          rfl

/-- C111 (finding): a datagram of 4 bytes or less, from anybody, ends the receive thread: nothing that comes after it
is received, from the peer either. -/
theorem bridge_stopped (pre post : List Dgram) (d : Dgram) (hd : d.data.length ≤ 4) :
    ∀ s, (bridgeRun s (pre ++ d :: post)).2.1 = (bridgeRun s pre).2.1 ∧
      (bridgeRun s (pre ++ d :: post)).2.2 = false := by
  induction pre with
  | nil => intro s; simp [bridgeRun, hd]
  | cons x pre ih =>
    intro s
    simp only [List.cons_append, bridgeRun]
    split
    · exact ⟨rfl, rfl⟩
    · split
      · exact ih s
      · split
        · exact ⟨rfl, rfl⟩
        · split
          · exact ih s
          · split
            · exact ⟨rfl, rfl⟩
            · exact ih _
            · rename_i s' i src p _
              have := ih s'
              exact ⟨by simp [this.1], this.2⟩

end Verif.EthPort
