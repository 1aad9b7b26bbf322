import Verif.Intercept.Model
import Verif.NspPkt.Props

/-!
# C56: Phase II intercept
-/
namespace Verif.Intercept

open Verif.Fields (Bytes)
open Verif.Nsp (Msg Body)
open Verif.NspPkt (decode Dec)

/-! ## Without intercept -/

/-- **C56, no intercept, receiving.**  A packet is passed up exactly if it has no route header, or one
that names the neighbour (or nobody) as source and this node (or nobody) as destination; it is then
from the neighbour, for this node, with its content unchanged. -/
theorem no_recv_iff (e : Env) (hs : e.self ≠ 0) (hr : e.rid ≠ 0) (db : Conns) (p : P2) (d : Data) :
    (recv .no e db p).2 = .up d ↔
      d.src = e.rid ∧ d.dst = e.self ∧ d.rts = false ∧
      (p = .bare d.payload ∨ ∃ dst src, p = .hdr dst src d.payload ∧
        (src = [] ∨ src = e.rname) ∧ (dst = [] ∨ dst = e.name)) := by
  obtain ⟨ds, dd, dr, dp⟩ := d
  cases p with
  | bare payload =>
    simp only [recv, noroutehdr, Recv.up.injEq, Data.mk.injEq, P2.bare.injEq, reduceCtorEq, false_and,
      exists_false, or_false]
    constructor
    · rintro ⟨h1, h2, h3, h4⟩; exact ⟨h1.symm, h2.symm, h3.symm, h4⟩
    · rintro ⟨h1, h2, h3, h4⟩; exact ⟨h1.symm, h2.symm, h3.symm, h4⟩
  | hdr dst src payload =>
    simp only [recv, mapsrc, mapdst, usable, reduceCtorEq, false_or, P2.hdr.injEq]
    by_cases h1 : src = [] ∨ src = e.rname
    · by_cases h2 : dst = [] ∨ dst = e.name
      · rw [if_pos h1, if_pos h2]
        simp only [Option.filter, ne_eq, hr, hs, not_false_eq_true, decide_true, if_true,
          Recv.up.injEq, Data.mk.injEq]
        constructor
        · rintro ⟨a, b, c, f⟩; exact ⟨a.symm, b.symm, c.symm, dst, src, ⟨rfl, rfl, f⟩, h1, h2⟩
        · rintro ⟨a, b, c, _, _, ⟨_, _, f⟩, _⟩; exact ⟨a.symm, b.symm, c.symm, f⟩
      · rw [if_pos h1, if_neg h2]
        simp only [Option.filter, ne_eq, hr, not_false_eq_true, decide_true, if_true]
        constructor
        · intro h; split at h <;> cases h
        · rintro ⟨_, _, _, _, _, ⟨rfl, rfl, _⟩, _, h⟩; exact absurd h h2
    · rw [if_neg h1]
      simp only [Option.filter]
      constructor
      · intro h; split at h <;> cases h
      · rintro ⟨_, _, _, _, _, ⟨rfl, rfl, _⟩, h, _⟩; exact absurd h h1

/-- **C56, no intercept, sending.**  A packet is sent to the neighbour exactly if it is from this node
to the neighbour and is not a returned one; it goes without route header and unchanged. -/
theorem no_send_iff (e : Env) (db : Conns) (d : Data) (p : P2) :
    (send .no e db d).2 = .sent p ↔
      d.rts = false ∧ d.src = e.self ∧ d.dst = e.rid ∧ p = .bare d.payload := by
  unfold send
  cases hr : d.rts with
  | true => simp [makedcData, replySend]
  | false =>
    simp only [if_neg Bool.false_ne_true]
    by_cases h : d.dst ≠ e.rid ∨ d.src ≠ e.self
    · rw [if_pos h]
      constructor
      · intro h'; cases h'
      · rintro ⟨_, h1, h2, _⟩; rcases h with h | h
        · exact absurd h2 h
        · exact absurd h1 h
    · rw [if_neg h]
      have h1 : d.dst = e.rid := Classical.byContradiction fun x => h (.inl x)
      have h2 : d.src = e.self := Classical.byContradiction fun x => h (.inr x)
      simp [h1, h2, eq_comm]

/-! ## Full intercept -/

/-- A connect or connect confirm sent by the neighbour with a good route header opens its link, to the
node named. -/
def Opens (e : Env) (a d : Nat) : Act → Prop
  | .recv (.hdr dst src payload) =>
    (src = [] ∨ src = e.rname) ∧ e.rid ≠ 0 ∧
    ((dst = [] ∧ d = e.self) ∨ (dst ≠ [] ∧ e.byName dst = some d)) ∧ d ≠ 0 ∧
    ∃ c m, decode payload = .ok (.msg c m) ∧ isConn m.body = true ∧ m.src = a
  | _ => False

/-- A disconnect of that link address sent by the neighbour with a good route header, or a disconnect
carrying that number in either address sent to the neighbour, ends it. -/
def Ends (e : Env) (a : Nat) : Act → Prop
  | .recv (.hdr dst src payload) =>
    (src = [] ∨ src = e.rname) ∧ e.rid ≠ 0 ∧
    ((dst = [] ∧ e.self ≠ 0) ∨ (dst ≠ [] ∧ ∃ d, e.byName dst = some d ∧ d ≠ 0)) ∧
    ∃ c m, decode payload = .ok (.msg c m) ∧ isDisc m.body = true ∧ m.src = a
  | .send d => d.rts = false ∧ d.dst = e.rid ∧
    ∃ c m, decode d.payload = .ok (.msg c m) ∧ isDisc m.body = true ∧ (m.src = a ∨ m.dst = a)
  | _ => False

private theorem usable_some {x : Option Nat} {n : Nat} : usable x = some n ↔ x = some n ∧ n ≠ 0 := by
  unfold usable
  rw [Option.filter_eq_some_iff]
  simp

/-- A header the full intercept accepts. -/
private theorem full_hdr (e : Env) (src dst : Name) (s d : Nat) :
    (usable (mapsrc .full e src) = some s ∧ usable (mapdst .full e dst) = some d) ↔
    (src = [] ∨ src = e.rname) ∧ s = e.rid ∧ e.rid ≠ 0 ∧
    ((dst = [] ∧ d = e.self) ∨ (dst ≠ [] ∧ e.byName dst = some d)) ∧ d ≠ 0 := by
  rw [usable_some, usable_some]
  unfold mapsrc mapdst
  by_cases h1 : src = [] ∨ src = e.rname
  · by_cases h2 : dst = []
    · simp only [h1, h2, if_true, Option.some.injEq, true_and, not_true_eq_false, false_and, or_false,
        ne_eq]
      constructor
      · rintro ⟨⟨rfl, a⟩, rfl, b⟩; exact ⟨rfl, a, rfl, b⟩
      · rintro ⟨rfl, a, rfl, b⟩; exact ⟨⟨rfl, a⟩, rfl, b⟩
    · simp only [h1, h2, if_true, if_false, Option.some.injEq, true_and, false_and, false_or,
        not_false_eq_true, ne_eq]
      constructor
      · rintro ⟨⟨rfl, a⟩, b, c⟩; exact ⟨rfl, a, b, c⟩
      · rintro ⟨rfl, a, b, c⟩; exact ⟨⟨rfl, a⟩, b, c⟩
  · simp [h1]

/-- The latest thing said about a link. -/
inductive Latest (e : Env) : List Act → Nat → Option Nat → Prop
  | never {as a} (h : ∀ x ∈ as, (∀ d, ¬ Opens e a d x)) : Latest e as a none
  | opened {pre x post a d} (h : Opens e a d x)
      (hp : ∀ y ∈ post, (∀ d', ¬ Opens e a d' y) ∧ ¬ Ends e a y) : Latest e (pre ++ x :: post) a (some d)
  | ended {pre x post a} (h : Ends e a x)
      (hp : ∀ y ∈ post, (∀ d', ¬ Opens e a d' y)) : Latest e (pre ++ x :: post) a none

/-- What one action does to the entry of a link. -/
private theorem step_entry (e : Env) (db : Conns) (x : Act) (a : Nat) :
    (∃ d, Opens e a d x ∧ ¬ Ends e a x ∧ step .full e db x a = some d) ∨
    (Ends e a x ∧ (∀ d, ¬ Opens e a d x) ∧ step .full e db x a = none) ∨
    ((∀ d, ¬ Opens e a d x) ∧ ¬ Ends e a x ∧ step .full e db x a = db a) := by
  cases x with
  | recv p =>
    cases p with
    | bare payload => exact .inr (.inr ⟨fun d h => h, fun h => h, rfl⟩)
    | hdr dst src payload =>
      by_cases hacc : ∃ s d, usable (mapsrc .full e src) = some s ∧ usable (mapdst .full e dst) = some d
      · obtain ⟨s, d, h1, h2⟩ := hacc
        simp only [step, recv, h1, h2]
        obtain ⟨g1, g2, g3, g4, g5⟩ := (full_hdr e src dst s d).mp ⟨h1, h2⟩
        have hd : ∀ d', ((dst = [] ∧ d' = e.self) ∨ (dst ≠ [] ∧ e.byName dst = some d')) → d' = d := by
          rintro d' (⟨k1, k2⟩ | ⟨k1, k2⟩) <;> rcases g4 with ⟨k3, k4⟩ | ⟨k3, k4⟩
          · rw [k2, k4]
          · exact absurd k1 k3
          · exact absurd k3 k1
          · rw [k2] at k4; exact Option.some.inj k4
        have hd2 : (dst = [] ∧ e.self ≠ 0) ∨ (dst ≠ [] ∧ ∃ d, e.byName dst = some d ∧ d ≠ 0) := by
          rcases g4 with ⟨k3, k4⟩ | ⟨k3, k4⟩
          · exact .inl ⟨k3, k4 ▸ g5⟩
          · exact .inr ⟨k3, d, k4, g5⟩
        simp only [routehdr, Opens, Ends]
        cases hdec : decode payload with
        | error _ =>
          refine .inr (.inr ⟨?_, ?_, rfl⟩)
          · rintro d' ⟨_, _, _, _, c, m, h, _⟩; cases h
          · rintro ⟨_, _, _, c, m, h, _⟩; cases h
        | ok dd =>
          cases dd with
          | bare =>
            refine .inr (.inr ⟨?_, ?_, rfl⟩)
            · rintro d' ⟨_, _, _, _, c, m, h, _⟩; cases h
            · rintro ⟨_, _, _, c, m, h, _⟩; cases h
          | msg c m =>
            simp only
            have excl : isConn m.body = true → isDisc m.body = false := by
              cases m.body <;> simp [isConn, isDisc]
            by_cases hc : isConn m.body = true
            · rw [if_pos hc]
              by_cases ha : m.src = a
              · refine .inl ⟨d, ⟨g1, g3, g4, g5, c, m, rfl, hc, ha⟩, ?_, ?_⟩
                · rintro ⟨_, _, _, c', m', h, hdisc, _⟩
                  cases h; rw [excl hc] at hdisc; cases hdisc
                · simp [Conns.set, ha]
              · refine .inr (.inr ⟨?_, ?_, ?_⟩)
                · rintro d' ⟨_, _, _, _, c', m', h, _, h'⟩; cases h; exact ha h'
                · rintro ⟨_, _, _, c', m', h, _, h'⟩; cases h; exact ha h'
                · simp [Conns.set, Ne.symm ha]
            · rw [if_neg hc]
              have hno : ∀ d', ¬ ((src = [] ∨ src = e.rname) ∧ e.rid ≠ 0 ∧
                  ((dst = [] ∧ d' = e.self) ∨ (dst ≠ [] ∧ e.byName dst = some d')) ∧ d' ≠ 0 ∧
                  ∃ c' m', (Except.ok (Dec.msg c m) : Except NspPkt.PErr Dec) = .ok (.msg c' m') ∧
                    isConn m'.body = true ∧ m'.src = a) := by
                rintro d' ⟨_, _, _, _, c', m', h, h', _⟩; cases h; exact hc h'
              by_cases hdisc : isDisc m.body = true
              · rw [if_pos hdisc]
                by_cases ha : m.src = a
                · refine .inr (.inl ⟨⟨g1, g3, hd2, c, m, rfl, hdisc, ha⟩, hno, ?_⟩)
                  simp [Conns.set, ha]
                · refine .inr (.inr ⟨hno, ?_, ?_⟩)
                  · rintro ⟨_, _, _, c', m', h, _, h'⟩; cases h; exact ha h'
                  · simp [Conns.set, Ne.symm ha]
              · rw [if_neg hdisc]
                refine .inr (.inr ⟨hno, ?_, rfl⟩)
                rintro ⟨_, _, _, c', m', h, h', _⟩; cases h; exact hdisc h'
      · have hdb : step .full e db (.recv (.hdr dst src payload)) = db := by
          simp only [step, recv]
          split
          · rename_i s d h1 h2; exact absurd ⟨s, d, h1, h2⟩ hacc
          · split <;> rfl
        rw [hdb]
        refine .inr (.inr ⟨?_, ?_, rfl⟩)
        · rintro d ⟨h1, h2, h3, h4, _⟩
          exact hacc ⟨e.rid, d, (full_hdr e src dst _ d).mpr ⟨h1, rfl, h2, h3, h4⟩⟩
        · rintro ⟨h1, h2, h3, _⟩
          rcases h3 with ⟨k1, k2⟩ | ⟨k1, d, k2, k3⟩
          · exact hacc ⟨e.rid, e.self, (full_hdr e src dst _ _).mpr ⟨h1, rfl, h2, .inl ⟨k1, rfl⟩, k2⟩⟩
          · exact hacc ⟨e.rid, d, (full_hdr e src dst _ _).mpr ⟨h1, rfl, h2, .inr ⟨k1, k2⟩, k3⟩⟩
  | send d =>
    have hno : ∀ d', ¬ Opens e a d' (.send d) := fun d' h => h
    simp only [step, send]
    cases hr : d.rts with
    | true =>
      refine .inr (.inr ⟨hno, ?_, rfl⟩)
      rintro ⟨h, _⟩; rw [hr] at h; cases h
    | false =>
      simp only [if_neg Bool.false_ne_true]
      by_cases hdst : d.dst = e.rid
      · rw [if_neg (fun h => h hdst)]
        cases hdec : decode d.payload with
        | error _ =>
          refine .inr (.inr ⟨hno, ?_, rfl⟩)
          rintro ⟨_, _, c, m, h, _⟩; rw [hdec] at h; cases h
        | ok x =>
          have h1 : (if d.src ≠ e.self ∧ isAck x = false then (forgetDec db x, withHdr e d)
              else (forgetDec db x, Send.sent (.bare d.payload))).1 = forgetDec db x := by
            split <;> rfl
          simp only
          rw [h1]
          cases x with
          | bare =>
            refine .inr (.inr ⟨hno, ?_, rfl⟩)
            rintro ⟨_, _, c, m, h, _⟩; rw [hdec] at h; cases h
          | msg c m =>
            simp only [forgetDec, forget]
            by_cases hd : isDisc m.body = true
            · rw [if_pos hd]
              by_cases ha : m.src = a ∨ m.dst = a
              · refine .inr (.inl ⟨⟨hr, hdst, c, m, hdec, hd, ha⟩, hno, ?_⟩)
                rcases ha with ha | ha
                · simp only [Conns.set]; split
                  · rfl
                  · rw [if_pos ha.symm]
                · simp only [Conns.set, if_pos ha.symm]
              · refine .inr (.inr ⟨hno, ?_, ?_⟩)
                · rintro ⟨_, _, c', m', h, _, h'⟩; rw [hdec] at h; cases h; exact ha h'
                · have h1 : a ≠ m.src := fun h => ha (.inl h.symm)
                  have h2 : a ≠ m.dst := fun h => ha (.inr h.symm)
                  simp [Conns.set, h1, h2]
            · rw [if_neg hd]
              refine .inr (.inr ⟨hno, ?_, rfl⟩)
              rintro ⟨_, _, c', m', h, h', _⟩; rw [hdec] at h; cases h; exact hd h'
      · rw [if_pos hdst]
        refine .inr (.inr ⟨hno, ?_, rfl⟩)
        rintro ⟨_, h, _⟩; exact hdst h

/-- The table holds the latest thing said about each link. -/
theorem table_latest (e : Env) (as : List Act) (a : Nat) : Latest e as a (run .full e as a) := by
  have key : ∀ n (as : List Act), as.length = n → Latest e as a (run .full e as a) := by
    intro n
    induction n with
    | zero =>
      intro as h
      rw [List.length_eq_zero_iff] at h
      subst h
      exact .never (fun x hx => by cases hx)
    | succ n ih =>
      intro as h
      rcases List.eq_nil_or_concat as with rfl | ⟨bs, b, rfl⟩
      · cases h
      · rw [List.concat_eq_append] at *
        have hi := ih bs (by simpa using h)
        have hr : run .full e (bs ++ [b]) = step .full e (run .full e bs) b := by
          simp [run, List.foldl_append]
        rw [hr]
        rcases step_entry e (run .full e bs) b a with ⟨d, h1, h2, h3⟩ | ⟨h1, h2, h3⟩ | ⟨h1, h2, h3⟩
        · rw [h3]; exact .opened (post := []) h1 (fun y hy => by cases hy)
        · rw [h3]; exact .ended (post := []) h1 (fun y hy => by cases hy)
        · rw [h3]
          generalize run .full e bs a = r at hi
          cases hi with
          | never h =>
            refine .never (fun x hx => ?_)
            rcases List.mem_append.mp hx with hx | hx
            · exact h x hx
            · rw [List.mem_singleton.mp hx]; exact h1
          | @opened pre x post a d h hp =>
            rw [List.append_assoc, List.cons_append]
            refine .opened h (fun y hy => ?_)
            rcases List.mem_append.mp hy with hy | hy
            · exact hp y hy
            · rw [List.mem_singleton.mp hy]; exact ⟨h1, h2⟩
          | @ended pre x post a h hp =>
            rw [List.append_assoc, List.cons_append]
            refine .ended h (fun y hy => ?_)
            rcases List.mem_append.mp hy with hy | hy
            · exact hp y hy
            · rw [List.mem_singleton.mp hy]; exact h1
  exact key _ as rfl

/-- **C56, full intercept, no route header.**  A packet without route header is always passed up, from
the neighbour and unchanged.  If it is a data, interrupt, link service or ack packet of a link which
the neighbour last opened to some node, with no disconnect since, it goes to that node; any other
goes to this node. -/
theorem full_bare (e : Env) (as : List Act) (payload : Bytes) :
    ∃ d, (recv .full e (run .full e as) (.bare payload)).2 = .up ⟨e.rid, d, false, payload⟩ ∧
      ((∃ c m, decode payload = .ok (.msg c m) ∧ m.body.isAckHdr = true ∧ Latest e as m.src (some d)) ∨
       (d = e.self ∧ ∀ c m, decode payload = .ok (.msg c m) → m.body.isAckHdr = true →
         Latest e as m.src none)) := by
  refine ⟨_, rfl, ?_⟩
  unfold noroutehdr
  simp only
  split
  · rename_i c m hdec
    split
    · rename_i hack
      have hl := table_latest e as m.src
      cases hr : run .full e as m.src with
      | none =>
        rw [hr] at hl
        refine .inr ⟨rfl, fun c' m' h _ => ?_⟩
        rw [hdec] at h; cases h; exact hl
      | some d =>
        rw [hr] at hl
        exact .inl ⟨c, m, hdec, hack, hl⟩
    · rename_i hack
      refine .inr ⟨rfl, fun c' m' h h' => ?_⟩
      rw [hdec] at h; cases h; exact absurd h' hack
  · rename_i hno
    refine .inr ⟨rfl, fun c' m' h _ => ?_⟩
    exact absurd h (hno c' m')

/-- **C56, full intercept, route header.**  Passed up exactly if it names the neighbour (or nobody) as
source and a known node (or nobody, then this node) as destination; it goes to that node, from the
neighbour: a Phase II neighbour cannot send in the name of another node. -/
theorem full_hdr_iff (e : Env) (db : Conns) (dst src : Name) (payload : Bytes) (d : Data) :
    (recv .full e db (.hdr dst src payload)).2 = .up d ↔
      d.payload = payload ∧ d.rts = false ∧ (src = [] ∨ src = e.rname) ∧ d.src = e.rid ∧ e.rid ≠ 0 ∧
      ((dst = [] ∧ d.dst = e.self) ∨ (dst ≠ [] ∧ e.byName dst = some d.dst)) ∧ d.dst ≠ 0 := by
  simp only [recv]
  obtain ⟨ds, dd, dr, dp⟩ := d
  split
  · rename_i s t h1 h2
    obtain ⟨g1, g2, g3, g4, g5⟩ := (full_hdr e src dst s t).mp ⟨h1, h2⟩
    simp only [Recv.up.injEq, Data.mk.injEq]
    constructor
    · rintro ⟨rfl, rfl, rfl, rfl⟩; exact ⟨rfl, rfl, g1, g2, g3, g4, g5⟩
    · rintro ⟨rfl, rfl, _, rfl, _, k, k'⟩
      refine ⟨g2, ?_, rfl, rfl⟩
      rcases g4 with ⟨a, b⟩ | ⟨a, b⟩ <;> rcases k with ⟨c, f⟩ | ⟨c, f⟩
      · rw [b, f]
      · exact absurd a c
      · exact absurd c a
      · rw [b] at f; exact Option.some.inj f
  · rename_i hno
    constructor
    · intro h; split at h <;> cases h
    · rintro ⟨rfl, rfl, h1, h2, h3, h4, h5⟩
      obtain ⟨a, b⟩ := (full_hdr e src dst ds dd).mpr ⟨h1, h2, h3, h4, h5⟩
      exact absurd b (hno _ _ a)

/-- **C56, full intercept, sending.**  A packet is sent to the neighbour only if it is for the
neighbour and its content is a correct NSP packet; the content is unchanged.  The route header, with
the names of the source and of the neighbour, is there exactly if the packet is from another node and
is a connect, disconnect or connect acknowledgement. -/
theorem full_send (e : Env) (db : Conns) (d : Data) (p : P2) (h : (send .full e db d).2 = .sent p) :
    d.rts = false ∧ d.dst = e.rid ∧ ∃ x, decode d.payload = .ok x ∧
      ((p = .bare d.payload ∧ (d.src = e.self ∨ isAck x = true)) ∨
       (∃ s t, e.byId d.src = some s ∧ e.byId e.rid = some t ∧
         p = .hdr (t.getD []) (s.getD []) d.payload ∧ d.src ≠ e.self ∧ isAck x = false)) := by
  unfold send at h
  cases hr : d.rts with
  | true => rw [hr] at h; cases h
  | false =>
    rw [hr] at h
    simp only [if_neg Bool.false_ne_true] at h
    by_cases hd : d.dst = e.rid
    · rw [if_neg (fun h => h hd)] at h
      cases hdec : decode d.payload with
      | error _ => rw [hdec] at h; cases h
      | ok x =>
        rw [hdec] at h
        refine ⟨rfl, hd, x, rfl, ?_⟩
        simp only at h
        split at h
        · rename_i hc
          right
          simp only [withHdr, hd] at h
          split at h
          · rename_i s t h1 h2
            cases h
            exact ⟨s, t, h1, h2, rfl, hc.1, hc.2⟩
          · cases h
        · rename_i hc
          left
          cases h
          refine ⟨rfl, ?_⟩
          by_cases hs : d.src = e.self
          · exact .inl hs
          · right
            cases hx : isAck x with
            | true => rfl
            | false => exact absurd ⟨hs, hx⟩ hc
    · rw [if_pos hd] at h; cases h

/-! ## Endnode intercept -/

/-- **C56, endnode intercept.**  Whatever is passed up is for this node, unchanged; without header, or
with an empty source name, it is from the neighbour, otherwise from the node named. -/
theorem endnode_recv_iff (e : Env) (hs : e.self ≠ 0) (hr : e.rid ≠ 0) (db : Conns) (p : P2) (d : Data) :
    (recv .endnode e db p).2 = .up d ↔
      d.dst = e.self ∧ d.rts = false ∧
      ((p = .bare d.payload ∧ d.src = e.rid) ∨
       ∃ dst src, p = .hdr dst src d.payload ∧ (dst = [] ∨ dst = e.name) ∧
        ((src = [] ∧ d.src = e.rid) ∨ (src ≠ [] ∧ e.byName src = some d.src ∧ d.src ≠ 0))) := by
  obtain ⟨ds, dd, dr, dp⟩ := d
  cases p with
  | bare payload =>
    simp only [recv, noroutehdr, Recv.up.injEq, Data.mk.injEq, P2.bare.injEq, reduceCtorEq, false_and,
      exists_false, or_false]
    constructor
    · rintro ⟨h1, h2, h3, h4⟩; exact ⟨h2.symm, h3.symm, h4, h1.symm⟩
    · rintro ⟨h1, h2, h3, h4⟩; exact ⟨h4.symm, h1.symm, h2.symm, h3⟩
  | hdr dst src payload =>
    simp only [recv, reduceCtorEq, false_and, false_or, P2.hdr.injEq]
    split
    · rename_i s t h1 h2
      rw [usable_some] at h1 h2
      simp only [mapsrc, mapdst] at h1 h2
      simp only [Recv.up.injEq, Data.mk.injEq]
      have hdst : dst = [] ∨ dst = e.name := Classical.byContradiction fun hx => by
        rw [if_neg hx] at h2; cases h2.1
      rw [if_pos hdst] at h2
      have h2' : e.self = t := Option.some.inj h2.1
      constructor
      · rintro ⟨rfl, rfl, rfl, rfl⟩
        refine ⟨h2'.symm, rfl, dst, src, ⟨rfl, rfl, rfl⟩, hdst, ?_⟩
        by_cases hsrc : src = []
        · rw [if_pos hsrc] at h1; exact .inl ⟨hsrc, (Option.some.inj h1.1).symm⟩
        · rw [if_neg hsrc] at h1; exact .inr ⟨hsrc, h1⟩
      · rintro ⟨rfl, rfl, _, _, ⟨rfl, rfl, rfl⟩, _, h⟩
        refine ⟨?_, h2'.symm, rfl, rfl⟩
        rcases h with ⟨a, b⟩ | ⟨a, b, _⟩
        · rw [if_pos a] at h1; rw [b]; exact (Option.some.inj h1.1).symm
        · rw [if_neg a, b] at h1; exact (Option.some.inj h1.1).symm
    · rename_i hno
      constructor
      · intro h; split at h <;> cases h
      · rintro ⟨rfl, rfl, _, _, ⟨rfl, rfl, rfl⟩, h1, h2⟩
        exfalso
        refine hno ds e.self ?_ ?_
        · rw [usable_some]
          simp only [mapsrc]
          rcases h2 with ⟨a, b⟩ | ⟨a, b, c⟩
          · rw [if_pos a, b]; exact ⟨rfl, hr⟩
          · rw [if_neg a]; exact ⟨b, c⟩
        · rw [usable_some]
          simp only [mapdst]
          rw [if_pos h1]; exact ⟨rfl, hs⟩

/-- **C56, endnode intercept, sending.**  Only packets from this node are sent; to the neighbour
without header, to any other node with the names of this node and the destination. -/
theorem endnode_send_iff (e : Env) (db : Conns) (d : Data) (p : P2) :
    (send .endnode e db d).2 = .sent p ↔
      d.rts = false ∧ d.src = e.self ∧
      ((d.dst = e.rid ∧ p = .bare d.payload) ∨
       (d.dst ≠ e.rid ∧ ∃ s t, e.byId e.self = some s ∧ e.byId d.dst = some t ∧
         p = .hdr (t.getD []) (s.getD []) d.payload)) := by
  unfold send
  cases hr : d.rts with
  | true => simp [makedcData, replySend]
  | false =>
    simp only [if_neg Bool.false_ne_true]
    by_cases h : d.src = e.self
    · rw [if_neg (fun x => x h)]
      by_cases h2 : d.dst = e.rid
      · rw [if_neg (fun x => x h2)]
        simp [h, h2, eq_comm]
      · rw [if_pos h2]
        simp only [withHdr, h]
        split
        · rename_i s t h3 h4
          simp only [Send.sent.injEq, true_and, h2, false_and, false_or, not_false_eq_true, h3, h4,
            Option.some.injEq, ne_eq]
          constructor
          · intro h; exact ⟨s, t, rfl, rfl, h.symm⟩
          · rintro ⟨_, _, rfl, rfl, h⟩; exact h.symm
        · rename_i hno
          constructor
          · intro h; cases h
          · rintro ⟨_, _, ⟨h, _⟩ | ⟨_, s, t, h3, h4, _⟩⟩
            · exact absurd h h2
            · exact absurd h4 (hno s t h3)
    · rw [if_pos h]
      simp [h]

/-! ## Through an intercept router -/

/-- **C56, end to end.**  A connect of the neighbour `e1.rid` of a router's circuit, addressed by name
to the neighbour of another circuit of the router, is sent there with a header that its endnode
intercept `e3` takes as coming from the first node, for itself, unchanged — given that the two nodes
have distinct entries in the router's database and the receiver knows the first by the same name. -/
theorem through_router (e1 e2 e3 : Env) (db1 db2 db3 : Conns) (src : Name) (payload : Bytes)
    (x : Dec) (hdec : decode payload = .ok x) (hx : isAck x = false)
    (hsrc : src = [] ∨ src = e1.rname) (h1 : e1.rid ≠ 0) (h2 : e2.rid ≠ 0)
    (hroot : e1.rid ≠ e2.self)
    (hn1 : e1.byName e3.name = some e2.rid) (hn : e3.name ≠ [])
    (hi1 : e2.byId e1.rid = some (some e1.rname)) (hi2 : e2.byId e2.rid = some (some e3.name))
    (hne : e1.rname ≠ []) (hb : e3.byName e1.rname = some e1.rid) (hs3 : e3.self ≠ 0) (hr3 : e3.rid ≠ 0) :
    ∃ d p d', (recv .full e1 db1 (.hdr e3.name src payload)).2 = .up d ∧
      (send .full e2 db2 d).2 = .sent p ∧ (recv .endnode e3 db3 p).2 = .up d' ∧
      d'.src = e1.rid ∧ d'.dst = e3.self ∧ d'.payload = payload := by
  refine ⟨⟨e1.rid, e2.rid, false, payload⟩, .hdr e3.name e1.rname payload,
    ⟨e1.rid, e3.self, false, payload⟩, ?_, ?_, ?_, rfl, rfl, rfl⟩
  · rw [full_hdr_iff]
    exact ⟨rfl, rfl, hsrc, rfl, h1, .inr ⟨hn, hn1⟩, h2⟩
  · unfold send
    simp only [if_neg Bool.false_ne_true]
    rw [if_neg (fun h => h rfl), hdec]
    simp only
    rw [if_pos ⟨hroot, hx⟩]
    simp [withHdr, hi1, hi2]
  · rw [endnode_recv_iff e3 hs3 hr3]
    exact ⟨rfl, rfl, .inr ⟨_, _, rfl, .inr rfl, .inr ⟨hne, hb, h1⟩⟩⟩

/-! ## Replies and exceptions -/

/-- **C56, replies.**  A packet whose names are not acceptable is answered by at most one disconnect
confirm with its link addresses exchanged (and, if the neighbour uses headers, its names exchanged);
a disconnect confirm is never answered. -/
theorem reply_swaps (k : Kind) (e : Env) (db : Conns) (dst src : Name) (payload : Bytes) (r : Reply)
    (h : (recv k e db (.hdr dst src payload)).2 = .back (some r)) :
    ∃ c m, decode payload = .ok (.msg c m) ∧ (∀ reason, m.body ≠ .discConf reason) ∧
      r.dstaddr = m.src ∧ r.srcaddr = m.dst ∧
      r.header = (if e.rint then some (src, dst) else none) := by
  simp only [recv] at h
  split at h
  · cases h
  · simp only [makedcHdr] at h
    cases hdec : decode payload with
    | error _ => rw [hdec] at h; cases h
    | ok x =>
      rw [hdec] at h
      simp only at h
      cases hdc : isDiscConf x with
      | true => rw [hdc] at h; simp at h
      | false =>
        rw [hdc] at h
        simp only [if_neg Bool.false_ne_true] at h
        cases x with
        | bare => simp [linkAddrs] at h
        | msg c m =>
          simp only [linkAddrs] at h
          by_cases ha : m.body = .ackConn
          · rw [if_pos ha] at h; simp at h
          · rw [if_neg ha] at h
            simp only [Recv.back.injEq, Option.some.injEq] at h
            subst h
            refine ⟨c, m, rfl, fun reason hr => ?_, rfl, rfl, rfl⟩
            obtain ⟨_, _, _, _, b⟩ := m
            simp only at hr
            subst hr
            simp [isDiscConf] at hdc

/-- **Finding.**  Receiving raises an exception, which ends the node, exactly for a header with names
that are not acceptable and content that is empty or a connect acknowledgement. -/
theorem recv_raises_iff (k : Kind) (e : Env) (db : Conns) (p : P2) :
    (∃ x, (recv k e db p).2 = .raises x) ↔
    ∃ dst src payload, p = .hdr dst src payload ∧
      (usable (mapsrc k e src) = none ∨ usable (mapdst k e dst) = none) ∧
      (payload = [] ∨ ∃ c m, decode payload = .ok (.msg c m) ∧ m.body = .ackConn) := by
  cases p with
  | bare payload =>
    constructor
    · rintro ⟨x, h⟩; cases h
    · rintro ⟨_, _, _, h, _⟩; cases h
  | hdr dst src payload =>
    have bare_nil : decode payload = .ok .bare → payload = [] := by
      intro h
      cases payload with
      | nil => rfl
      | cons b tl =>
        exfalso
        simp only [decode, bind, Except.bind] at h
        cases h1 : NspPkt.findclass b with
        | error _ => rw [h1] at h; cases h
        | ok c =>
          rw [h1] at h
          simp only at h
          cases h2 : NspPkt.bodyDec c b.toNat tl with
          | error _ => rw [h2] at h; cases h
          | ok y =>
            rw [h2] at h
            obtain ⟨m, rest⟩ := y
            simp only at h
            split at h <;> cases h
    simp only [recv, P2.hdr.injEq]
    split
    · rename_i s d h1 h2
      constructor
      · rintro ⟨x, h⟩; cases h
      · rintro ⟨_, _, _, ⟨rfl, rfl, rfl⟩, h | h, _⟩
        · rw [h1] at h; cases h
        · rw [h2] at h; cases h
    · rename_i hno
      have hbad : usable (mapsrc k e src) = none ∨ usable (mapdst k e dst) = none := by
        cases h1 : usable (mapsrc k e src) with
        | none => exact .inl rfl
        | some s =>
          cases h2 : usable (mapdst k e dst) with
          | none => exact .inr rfl
          | some d => exact absurd h2 (hno s d h1)
      constructor
      · rintro ⟨x, h⟩
        refine ⟨dst, src, payload, ⟨rfl, rfl, rfl⟩, hbad, ?_⟩
        simp only [makedcHdr] at h
        cases hdec : decode payload with
        | error _ => rw [hdec] at h; cases h
        | ok y =>
          rw [hdec] at h
          cases y with
          | bare => exact .inl (bare_nil hdec)
          | msg c m =>
            right
            refine ⟨c, m, rfl, Classical.byContradiction fun ha => ?_⟩
            simp only [linkAddrs, if_neg ha] at h
            cases hdc : isDiscConf (.msg c m) <;> rw [hdc] at h <;> cases h
      · rintro ⟨_, _, _, ⟨rfl, rfl, rfl⟩, _, h⟩
        rcases h with rfl | ⟨c, m, hdec, ha⟩
        · exact ⟨.attributeError, rfl⟩
        · refine ⟨.attributeError, ?_⟩
          have hdc : isDiscConf (.msg c m) = false := by
            obtain ⟨_, _, _, _, b⟩ := m
            simp only at ha
            subst ha; rfl
          simp [makedcHdr, hdec, hdc, linkAddrs, ha]

/-- **Finding.**  Any packet returned to sender that routing sends towards a Phase II neighbour ends
the node, in every mode: the node table that `makedc` uses is never set. -/
theorem returned_packet_stops (k : Kind) (e : Env) (db : Conns) (d : Data) (h : d.rts = true) :
    (send k e db d).2 = .raises .attributeError := by
  simp [send, h, makedcData, replySend]

/-- **Finding.**  With full intercept, a packet for the neighbour that needs a route header, from a
node which is not in the node database, ends the node. -/
theorem unknown_source_stops (e : Env) (db : Conns) (d : Data) (h1 : d.rts = false)
    (h2 : d.dst = e.rid) (h3 : d.src ≠ e.self) (h4 : e.byId d.src = none) {x : Dec}
    (h5 : decode d.payload = .ok x) (h6 : isAck x = false) :
    (send .full e db d).2 = .raises .keyError := by
  unfold send
  rw [h1]
  simp only [if_neg Bool.false_ne_true]
  rw [if_neg (fun h => h h2), h5]
  simp only
  rw [if_pos ⟨h3, h6⟩]
  simp [withHdr, h4]

/-! ## Cases -/

/-- A node 5 "US" with neighbour 7 "PHTWO"; node 9 "FAR" is in the database, 11 has no name. -/
def ex : Env where
  self := 5
  name := [85, 83]
  rid := 7
  rname := [80, 72]
  rint := true
  byName := fun n => if n = [70, 65, 82] then some 9 else if n = [80, 72] then some 7 else none
  byId := fun i => if i = 9 then some (some [70, 65, 82]) else if i = 7 then some (some [80, 72])
    else if i = 11 then some none else none

/-- A connect from link 100, a data message from link 100 to 200, a disconnect from 100 of the far
node to the neighbour's link 300. -/
def ci : Bytes := [0x18, 0, 0, 100, 0, 1, 0, 16, 2]
def data : Bytes := [0x60, 200, 0, 100, 0, 1, 0]
def disc : Bytes := [0x38, 44, 1, 100, 0, 0, 0, 0]

example : (recv .full ex (run .full ex [.recv (.hdr [70, 65, 82] [] ci)]) (.bare data)).2 =
    .up ⟨7, 9, false, data⟩ ∧
    (recv .full ex (run .full ex []) (.bare data)).2 = .up ⟨7, 5, false, data⟩ := by
  constructor <;> decide

/-- **Finding.**  A disconnect of another link that carries, as the remote end's number, the number of
an open link of the neighbour makes intercept forget that link: its data then goes to this node
instead of the node it was opened to. -/
theorem other_disconnect_misroutes :
    (recv .full ex (run .full ex [.recv (.hdr [70, 65, 82] [] ci), .send ⟨11, 7, false, disc⟩])
      (.bare data)).2 = .up ⟨7, 5, false, data⟩ := by decide

/-- **Finding.**  A node known only by number is announced to the neighbour with an empty name, which
its endnode intercept takes for the router itself. -/
theorem unnamed_source_is_router :
    (send .full ex (fun _ => none) ⟨11, 7, false, disc⟩).2 = .sent (.hdr [80, 72] [] disc) ∧
    (recv .endnode { ex with self := 7, name := [80, 72], rid := 5, rname := [85, 83] } (fun _ => none)
      (.hdr [80, 72] [] disc)).2 = .up ⟨5, 7, false, disc⟩ := by
  constructor <;> decide

example : (recv .no ex (fun _ => none) (.hdr [70] [] ci)).2 = .back (some ⟨100, 0, some ([], [70])⟩) := by
  decide

example : (recv .no ex (fun _ => none) (.hdr [70] [] [])).2 = .raises .attributeError := by decide

/-- C56: which of the three intercept modes a link gets: end node if we ask for the service and the
neighbour offers it, serving if we offer it and the neighbour asks, none otherwise; asking comes first. -/
theorem choose_iff (offer request asks offers : Bool) :
    (choose offer request asks offers = .endnode ↔ request = true ∧ offers = true) ∧
    (choose offer request asks offers = .full ↔
      offer = true ∧ asks = true ∧ ¬ (request = true ∧ offers = true)) ∧
    (choose offer request asks offers = .no ↔
      ¬ (request = true ∧ offers = true) ∧ ¬ (offer = true ∧ asks = true)) := by
  revert offer request asks offers
  decide

end Verif.Intercept
