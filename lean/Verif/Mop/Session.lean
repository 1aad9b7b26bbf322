import Verif.Mop.Console

/-!
# Invariant of a console session
-/

namespace Verif.Mop

/-- `Stutter rs sh`: `sh` is `rs` without the empty entries, where every entry may occur several
times in a row. -/
inductive Stutter : List Bytes → List Bytes → Prop
  | nil : Stutter [] []
  | empty {rs sh} : Stutter rs sh → Stutter (rs ++ [[]]) sh
  | fresh {rs sh r} : r ≠ [] → Stutter rs sh → Stutter (rs ++ [r]) (sh ++ [r])
  | again {rs sh r} : r ≠ [] → Stutter (rs ++ [r]) sh → Stutter (rs ++ [r]) (sh ++ [r])

/-- Message number `i`, counted from 1, of a list of payloads. -/
def msgAt (P : List Bytes) (i : Nat) : Bool × Bytes := (decide (i % 2 = 1), P.getD (i - 1) [])

theorem msgAt_append {P : List Bytes} {p : Bytes} {i : Nat} (h1 : 1 ≤ i) (h : i ≤ P.length) :
    msgAt (P ++ [p]) i = msgAt P i := by
  unfold msgAt
  rw [List.getD_eq_getElem?_getD, List.getD_eq_getElem?_getD, List.getElem?_append_left (by omega)]

theorem msgAt_last (P : List Bytes) (p : Bytes) :
    msgAt (P ++ [p]) (P.length + 1) = (decide ((P.length + 1) % 2 = 1), p) := by
  simp [msgAt]

theorem par_ne (n : Nat) : (!decide (n % 2 = 1)) = decide ((n + 1) % 2 = 1) := by
  rcases Nat.mod_two_eq_zero_or_one n with h | h
  · have : (n + 1) % 2 = 1 := by omega
    simp [h, this]
  · have : (n + 1) % 2 = 0 := by omega
    simp [h, this]

theorem par_eq_iff (i n : Nat) : decide (i % 2 = 1) = decide (n % 2 = 1) ↔ i % 2 = n % 2 := by
  rcases Nat.mod_two_eq_zero_or_one n with h | h <;> rcases Nat.mod_two_eq_zero_or_one i with h' | h' <;>
    simp [h, h']

/-- `P` are the payloads of the polls made, `R` the responses made, `k` is the number of the last
response accepted by the client, `ci` and `ri` are the numbers of the messages on the way. -/
structure SInv (x : Session) (P : List Bytes) (k : Nat) (ci ri : List Nat) : Prop where
  one : 1 ≤ P.length
  cseq : x.client.seq = decide (P.length % 2 = 1)
  sseq : x.server.seq = decide (x.taken.length % 2 = 1)
  lag : x.taken.length = P.length ∨ x.taken.length + 1 = P.length
  resp : x.server.resp = if x.taken.length = 0 then none else some (msgAt x.taken x.taken.length)
  out : x.server.out = some []
  msg : (x.client.msg = none ∧ k = P.length ∧ x.taken.length = P.length) ∨
    (x.client.msg = some (P.getD (P.length - 1) []) ∧ k + 1 = P.length)
  cmds : x.cmds = ci.map (msgAt P)
  cle : ∀ i ∈ ci, 1 ≤ i ∧ x.taken.length ≤ i ∧ i ≤ P.length
  csort : ci.Pairwise (· ≤ ·)
  resps : x.resps = ri.map (msgAt x.taken)
  rle : ∀ i ∈ ri, 1 ≤ i ∧ k ≤ i ∧ i ≤ x.taken.length
  rsort : ri.Pairwise (· ≤ ·)
  posted : x.posted = P.flatten ++ x.client.pend
  typed : x.typed ++ x.server.inp = (P.take x.taken.length).flatten
  shown : Stutter (x.taken.take k) x.client.shown

theorem pairwise_snoc {l : List Nat} {n : Nat} (h : l.Pairwise (· ≤ ·)) (hn : ∀ i ∈ l, i ≤ n) :
    (l ++ [n]).Pairwise (· ≤ ·) := by
  rw [List.pairwise_append]
  exact ⟨h, by simp, by intro a ha b hb; simp at hb; subst hb; exact hn a ha⟩

/-- A session whose client polls (again). -/
def polled (x : Session) (c : Client) : Session :=
  { x with client := (sendPoll c).1, cmds := x.cmds ++ (sendPoll c).2 }

/-- `sendPoll` from a client that differs from that of the session in what does not matter here. -/
theorem sinv_poll {x : Session} {P : List Bytes} {k : Nat} {ci ri : List Nat} (h : SInv x P k ci ri) :
    ∃ P' k' ci', SInv (polled x x.client) P' k' ci' ri := by
  cases hm : x.client.msg with
  | some p =>
    rcases h.msg with ⟨h1, _⟩ | ⟨h1, h2⟩
    · rw [h1] at hm; cases hm
    rw [hm] at h1
    injection h1 with e
    have hsp : sendPoll x.client = (x.client, [msgAt P P.length]) := by
      unfold sendPoll; rw [hm]; simp only; rw [h.cseq, e]; rfl
    refine ⟨P, k, ci ++ [P.length], ?_⟩
    unfold polled
    rw [hsp]
    have := h.one
    have := h.lag
    exact ⟨h.one, h.cseq, h.sseq, h.lag, h.resp, h.out, h.msg, by simp [h.cmds],
      by intro i hi; rcases List.mem_append.mp hi with hi | hi
         · exact h.cle i hi
         · simp at hi; subst hi; simp only; omega,
      pairwise_snoc h.csort (fun i hi => (h.cle i hi).2.2), h.resps, h.rle, h.rsort, h.posted, h.typed,
      h.shown⟩
  | none =>
    have h23 : k = P.length ∧ x.taken.length = P.length := by
      rcases h.msg with ⟨_, h2⟩ | ⟨h1, _⟩
      · exact h2
      · rw [h1] at hm; cases hm
    obtain ⟨h2, h3⟩ := h23
    have hsp : sendPoll x.client =
        ({ x.client with retries := 5, seq := !x.client.seq,
                         msg := some (x.client.pend.take x.client.cmdsize),
                         pend := x.client.pend.drop x.client.cmdsize },
          [(!x.client.seq, x.client.pend.take x.client.cmdsize)]) := by
      unfold sendPoll; rw [hm]
    have hq : (!x.client.seq) = decide ((P.length + 1) % 2 = 1) := by rw [h.cseq]; exact par_ne _
    refine ⟨P ++ [x.client.pend.take x.client.cmdsize], k, ci ++ [P.length + 1], ?_⟩
    unfold polled
    rw [hsp]
    simp only [hq]
    refine ⟨by simp, by simp, h.sseq, by simp; omega, h.resp, h.out, ?_, ?_, ?_, ?_, h.resps, h.rle,
      h.rsort, ?_, ?_, h.shown⟩
    · right
      refine ⟨by simp, by simp; omega⟩
    · simp only [List.map_append, h.cmds]
      congr 1
      · apply List.map_congr_left
        intro i hi
        exact (msgAt_append (h.cle i hi).1 (h.cle i hi).2.2).symm
      · simp [msgAt_last]
    · intro i hi
      rw [List.length_append]
      rcases List.mem_append.mp hi with hi | hi
      · have := h.cle i hi; simp only [List.length_cons, List.length_nil]; omega
      · simp at hi; subst hi; simp; omega
    · exact pairwise_snoc h.csort (fun i hi => by have := h.cle i hi; omega)
    · simp [h.posted]
    · rw [h.typed]
      simp only [h3]
      rw [List.take_append_of_le_length (Nat.le_refl _)]

/-- Fields of the client that do not take part. -/
theorem SInv.client {x : Session} {P : List Bytes} {k : Nat} {ci ri : List Nat} (h : SInv x P k ci ri)
    (c : Client) (h1 : c.seq = x.client.seq) (h2 : c.msg = x.client.msg) (h3 : c.pend = x.client.pend)
    (h4 : c.shown = x.client.shown) : SInv { x with client := c } P k ci ri :=
  ⟨h.one, h1.trans h.cseq, h.sseq, h.lag, h.resp, h.out, by simp only [h2]; exact h.msg, h.cmds, h.cle,
    h.csort, h.resps, h.rle, h.rsort, by simp only [h3]; exact h.posted, h.typed,
    by simp only [h4]; exact h.shown⟩

theorem sinv_again {x : Session} {P : List Bytes} {k : Nat} {ci ri : List Nat} (h : SInv x P k ci ri) :
    ∃ P' k' ci', SInv { x with client := (again x.client).1, cmds := x.cmds ++ (again x.client).2 }
      P' k' ci' ri := by
  by_cases hr : x.client.retries - 1 ≠ 0
  · have e : again x.client = sendPoll { x.client with retries := x.client.retries - 1 } := by
      unfold again; rw [if_pos hr]
    rw [e]
    exact sinv_poll (h.client { x.client with retries := x.client.retries - 1 } rfl rfl rfl rfl)
  · have e : again x.client = ({ x.client with retries := 0, closed := true }, []) := by
      unfold again; rw [if_neg hr]
    rw [e]
    simp only [List.append_nil]
    exact ⟨P, k, ci, h.client _ rfl rfl rfl rfl⟩

theorem sinv_post {x : Session} {P : List Bytes} {k : Nat} {ci ri : List Nat} (h : SInv x P k ci ri)
    (b : Bytes) : ∃ P' k' ci',
      SInv { x with client := (onPost x.client b).1, cmds := x.cmds ++ (onPost x.client b).2,
                    posted := x.posted ++ b } P' k' ci' ri := by
  have h' : SInv { x with client := { x.client with pend := x.client.pend ++ b },
                          posted := x.posted ++ b } P k ci ri :=
    ⟨h.one, h.cseq, h.sseq, h.lag, h.resp, h.out, h.msg, h.cmds, h.cle, h.csort, h.resps, h.rle, h.rsort,
      by simp [h.posted], h.typed, h.shown⟩
  by_cases hc : x.client.pend ≠ [] ∨ x.client.msg ≠ none
  · have e : onPost x.client b = ({ x.client with pend := x.client.pend ++ b }, []) := by
      unfold onPost; rw [if_pos hc]
    rw [e]
    simp only [List.append_nil]
    exact ⟨P, k, ci, h'⟩
  · have e : onPost x.client b = sendPoll { x.client with pend := x.client.pend ++ b } := by
      unfold onPost; rw [if_neg hc]
      have : x.client.pend = [] := Classical.byContradiction fun hn => hc (Or.inl hn)
      rw [this]; rfl
    rw [e]
    exact sinv_poll h'

theorem take_succ_getD (R : List Bytes) (k : Nat) (h : k < R.length) :
    R.take (k + 1) = R.take k ++ [R.getD k []] := by
  rw [List.take_succ_eq_append_getElem h]
  simp [List.getD_eq_getElem?_getD, h]

theorem sinv_resp {x : Session} {P : List Bytes} {k : Nat} {ci ri : List Nat} {q : Bool} {p : Bytes}
    {l : List (Bool × Bytes)} (h : SInv x P k ci ri) (hx : x.resps = (q, p) :: l) :
    ∃ P' k' ci' ri', SInv { x with client := (onResponse x.client q p).1,
                                   cmds := x.cmds ++ (onResponse x.client q p).2, resps := l }
      P' k' ci' ri' := by
  cases ri with
  | nil => rw [h.resps] at hx; simp at hx
  | cons i ri =>
    rw [h.resps, List.map_cons] at hx
    injection hx with hq hl
    obtain ⟨i1, i2, i3⟩ := h.rle i (by simp)
    have hsort := h.rsort
    rw [List.pairwise_cons] at hsort
    have hkn : k = P.length ∨ k + 1 = P.length := by
      rcases h.msg with ⟨_, h2, _⟩ | ⟨_, h2⟩ <;> omega
    have hq1 : q = decide (i % 2 = 1) := by simp only [msgAt] at hq; injection hq with a _; exact a.symm
    have hq2 : p = x.taken.getD (i - 1) [] := by
      simp only [msgAt] at hq; injection hq with _ a; exact a.symm
    have hlag := h.lag
    by_cases hs : q = x.client.seq
    · -- the expected response
      have hin : i = P.length := by
        rw [hq1, h.cseq, par_eq_iff] at hs
        omega
      have hmn : x.taken.length = P.length := by omega
      have hsh : Stutter (x.taken.take P.length)
          (if p = [] then x.client.shown else x.client.shown ++ [p]) := by
        have e : x.taken.take P.length = x.taken.take (P.length - 1) ++ [p] := by
          have := take_succ_getD x.taken (P.length - 1) (by have := h.one; omega)
          rw [show P.length - 1 + 1 = P.length by have := h.one; omega] at this
          rw [this, hq2, hin]
        rcases hkn with hk | hk
        · have hst := h.shown
          rw [hk] at hst
          by_cases hp : p = []
          · rw [if_pos hp]; exact hst
          · rw [if_neg hp]
            rw [e] at hst ⊢
            exact .again hp hst
        · have hst := h.shown
          rw [show k = P.length - 1 by omega] at hst
          rw [e]
          by_cases hp : p = []
          · rw [if_pos hp, hp]; exact .empty hst
          · rw [if_neg hp]; exact .fresh hp hst
      have h' : SInv { x with
          client := { x.client with
            retries := 5, msg := none, shown := if p = [] then x.client.shown else x.client.shown ++ [p] },
          resps := l } P P.length ci ri :=
        ⟨h.one, h.cseq, h.sseq, h.lag, h.resp, h.out, Or.inl ⟨rfl, rfl, hmn⟩, h.cmds, h.cle, h.csort,
          hl.symm, by
            intro j hj
            have a := h.rle j (by simp [hj])
            have b := hsort.1 j hj
            exact ⟨a.1, by omega, a.2.2⟩,
          hsort.2, h.posted, h.typed, hsh⟩
      by_cases hp : x.client.pend = []
      · have e : onResponse x.client q p = ({ x.client with
            retries := 5, msg := none, shown := if p = [] then x.client.shown else x.client.shown ++ [p] },
            []) := by
          unfold onResponse; rw [if_pos hs]; simp only; rw [if_pos hp]
        rw [e]
        simp only [List.append_nil]
        exact ⟨_, _, _, _, h'⟩
      · have e : onResponse x.client q p = sendPoll { x.client with
            retries := 5, msg := none, shown := if p = [] then x.client.shown else x.client.shown ++ [p] }
            := by
          unfold onResponse; rw [if_pos hs]; simp only; rw [if_neg hp]
        rw [e]
        obtain ⟨P', k', ci', hi⟩ := sinv_poll h'
        exact ⟨P', k', ci', ri, hi⟩
    · have e : onResponse x.client q p = again x.client := by unfold onResponse; rw [if_neg hs]
      rw [e]
      have h' : SInv { x with resps := l } P k ci ri :=
        ⟨h.one, h.cseq, h.sseq, h.lag, h.resp, h.out, h.msg, h.cmds, h.cle, h.csort, hl.symm,
          fun j hj => h.rle j (by simp [hj]), hsort.2, h.posted, h.typed, h.shown⟩
      obtain ⟨P', k', ci', hi⟩ := sinv_again h'
      exact ⟨P', k', ci', ri, hi⟩

theorem sinv_cmd {x : Session} {P : List Bytes} {k : Nat} {ci ri : List Nat} {q : Bool} {p : Bytes}
    {l : List (Bool × Bytes)} (h : SInv x P k ci ri) (hx : x.cmds = (q, p) :: l) (a : Nat)
    (rd : Option Bytes) :
    ∃ ci' ri', SInv { x with server := (command x.server q p (some a) rd).1, cmds := l,
                             resps := x.resps ++ responses (command x.server q p (some a) rd).2,
                             typed := x.typed ++ typedOf (command x.server q p (some a) rd).2,
                             taken := x.taken ++ takenOf (command x.server q p (some a) rd).2 }
      P k ci' ri' := by
  cases ci with
  | nil => rw [h.cmds] at hx; simp at hx
  | cons i ci =>
    rw [h.cmds, List.map_cons] at hx
    injection hx with hq hl
    obtain ⟨i1, i2, i3⟩ := h.cle i (by simp)
    have hsort := h.csort
    rw [List.pairwise_cons] at hsort
    have hq1 : q = decide (i % 2 = 1) := by simp only [msgAt] at hq; injection hq with a _; exact a.symm
    have hq2 : p = P.getD (i - 1) [] := by
      simp only [msgAt] at hq; injection hq with _ a; exact a.symm
    have hlag := h.lag
    have hkm : k ≤ x.taken.length := by rcases h.msg with ⟨_, h2, _⟩ | ⟨_, h2⟩ <;> omega
    by_cases hs : q = x.server.seq
    · -- a repeated command
      have him : i = x.taken.length := by
        rw [hq1, h.sseq, par_eq_iff] at hs; omega
      have hresp : x.server.resp = some (msgAt x.taken x.taken.length) := by
        rw [h.resp, if_neg (by omega)]
      have e : command x.server q p (some a) rd = ({ x.server with timer := true },
          [.response x.server.remote (msgAt x.taken x.taken.length).1
            (msgAt x.taken x.taken.length).2]) := by
        unfold command
        rw [if_pos hs, hresp]
        simp only [hresp]
      rw [e]
      simp only [responses, typedOf, takenOf, List.append_nil]
      refine ⟨ci, ri ++ [x.taken.length], h.one, h.cseq, h.sseq, h.lag, h.resp, h.out, h.msg, hl.symm,
        fun j hj => h.cle j (by simp [hj]), hsort.2, by simp [h.resps], ?_,
        pairwise_snoc h.rsort (fun j hj => (h.rle j hj).2.2), h.posted, h.typed, h.shown⟩
      intro j hj
      rcases List.mem_append.mp hj with hj | hj
      · exact h.rle j hj
      · simp at hj; subst hj; simp only; omega
    · -- the next command
      have him : i = x.taken.length + 1 := by
        rw [hq1, h.sseq, par_eq_iff] at hs; omega
      have hn : P.length = x.taken.length + 1 := by omega
      have e : command x.server q p (some a) rd = ({ x.server with
            timer := true, inp := (x.server.inp ++ p).drop a, seq := !x.server.seq, out := some [],
            resp := some (!x.server.seq, ptyRead 0 rd) },
          [.typed ((x.server.inp ++ p).take a), .taken (ptyRead 0 rd),
            .response x.server.remote (!x.server.seq) (ptyRead 0 rd)]) := by
        unfold command
        rw [if_neg hs, h.out]
        simp [ptyWrite]
      have hq' : (!x.server.seq) = decide ((x.taken.length + 1) % 2 = 1) := by rw [h.sseq]; exact par_ne _
      rw [e]
      simp only [responses, typedOf, takenOf, List.append_nil, hq']
      have hk : k < x.taken.length + 1 := by omega
      have hmsg : x.client.msg = some (P.getD (P.length - 1) []) ∧ k + 1 = P.length := by
        rcases h.msg with ⟨_, h2, _⟩ | h2
        · omega
        · exact h2
      refine ⟨ci, ri ++ [x.taken.length + 1], h.one, h.cseq, by simp, by simp; omega, ?_, rfl,
        Or.inr hmsg, hl.symm, ?_, hsort.2, ?_, ?_, ?_, h.posted, ?_, ?_⟩
      · rw [if_neg (by simp)]
        rw [List.length_append, List.length_cons, List.length_nil, msgAt_last]
      · intro j hj
        have b := hsort.1 j hj
        have c := h.cle j (by simp [hj])
        simp only [List.length_append, List.length_cons, List.length_nil]
        omega
      · simp only [List.map_append, h.resps]
        congr 1
        · apply List.map_congr_left
          intro j hj
          have := h.rle j hj
          exact (msgAt_append this.1 this.2.2).symm
        · simp [msgAt_last]
      · intro j hj
        simp only [List.length_append, List.length_cons, List.length_nil]
        rcases List.mem_append.mp hj with hj | hj
        · have := h.rle j hj; omega
        · simp at hj; subst hj; omega
      · exact pairwise_snoc h.rsort (fun j hj => by have := (h.rle j hj).2.2; omega)
      · simp only [List.length_append, List.length_cons, List.length_nil]
        rw [List.append_assoc, List.take_append_drop, ← List.append_assoc, h.typed,
          take_succ_getD P x.taken.length (by omega)]
        simp only [List.flatten_append, List.flatten_cons, List.flatten_nil, List.append_nil]
        rw [hq2, him]; simp
      · rw [List.take_append_of_le_length (by omega)]; exact h.shown

theorem sinv_step {x : Session} {P : List Bytes} {k : Nat} {ci ri : List Nat} (h : SInv x P k ci ri)
    (e : SEv) : ∃ P' k' ci' ri', SInv (sstep x e) P' k' ci' ri' := by
  cases e with
  | post b =>
    unfold sstep; dsimp only
    by_cases hc : x.client.closed = true
    · rw [if_pos hc]; exact ⟨_, _, _, _, h⟩
    · rw [if_neg hc]
      obtain ⟨P', k', ci', hi⟩ := sinv_post h b
      exact ⟨P', k', ci', ri, hi⟩
  | clientTimeout =>
    unfold sstep; dsimp only
    by_cases hc : x.client.closed = true
    · rw [if_pos hc]; exact ⟨_, _, _, _, h⟩
    · rw [if_neg hc]
      obtain ⟨P', k', ci', hi⟩ := sinv_again h
      exact ⟨P', k', ci', ri, hi⟩
  | cmdArrives a rd =>
    unfold sstep; dsimp only
    split
    · exact ⟨_, _, _, _, h⟩
    · rename_i q p l hx
      obtain ⟨ci', ri', hi⟩ := sinv_cmd h hx a rd
      exact ⟨P, k, ci', ri', hi⟩
  | cmdLost =>
    refine ⟨P, k, ci.tail, ri, h.one, h.cseq, h.sseq, h.lag, h.resp, h.out, h.msg, ?_, ?_, ?_, h.resps,
      h.rle, h.rsort, h.posted, h.typed, h.shown⟩
    · simp only [sstep, h.cmds, List.map_tail]
    · intro i hi; exact h.cle i (List.mem_of_mem_tail hi)
    · exact List.Pairwise.tail h.csort
  | cmdRepeated =>
    unfold sstep; dsimp only
    split
    · exact ⟨_, _, _, _, h⟩
    · rename_i m l hx
      cases ci with
      | nil => rw [h.cmds] at hx; simp at hx
      | cons i ci =>
        rw [h.cmds, List.map_cons] at hx
        injection hx with e1 e2
        refine ⟨P, k, i :: i :: ci, ri, h.one, h.cseq, h.sseq, h.lag, h.resp, h.out, h.msg, ?_, ?_, ?_,
          h.resps, h.rle, h.rsort, h.posted, h.typed, h.shown⟩
        · simp only [← e1, ← e2, List.map_cons]
        · intro j hj
          refine h.cle j ?_
          simp at hj ⊢; exact hj
        · have hs := h.csort
          rw [List.pairwise_cons] at hs
          rw [List.pairwise_cons, List.pairwise_cons]
          refine ⟨?_, hs.1, hs.2⟩
          intro j hj
          rcases List.mem_cons.mp hj with hj | hj
          · exact Nat.le_of_eq hj.symm
          · exact hs.1 j hj
  | respArrives =>
    unfold sstep; dsimp only
    split
    · exact ⟨_, _, _, _, h⟩
    · rename_i q p l hx
      by_cases hc : x.client.closed = true
      · rw [if_pos hc]
        cases ri with
        | nil => rw [h.resps] at hx; simp at hx
        | cons i ri =>
          rw [h.resps, List.map_cons] at hx
          injection hx with e1 e2
          exact ⟨P, k, ci, ri, h.one, h.cseq, h.sseq, h.lag, h.resp, h.out, h.msg, h.cmds, h.cle, h.csort,
            e2.symm, fun j hj => h.rle j (by simp [hj]), List.Pairwise.tail h.rsort, h.posted, h.typed,
            h.shown⟩
      · rw [if_neg hc]
        exact sinv_resp h hx
  | respLost =>
    refine ⟨P, k, ci, ri.tail, h.one, h.cseq, h.sseq, h.lag, h.resp, h.out, h.msg, h.cmds, h.cle, h.csort,
      ?_, ?_, ?_, h.posted, h.typed, h.shown⟩
    · simp only [sstep, h.resps, List.map_tail]
    · intro i hi; exact h.rle i (List.mem_of_mem_tail hi)
    · exact List.Pairwise.tail h.rsort
  | respRepeated =>
    unfold sstep; dsimp only
    split
    · exact ⟨_, _, _, _, h⟩
    · rename_i m l hx
      cases ri with
      | nil => rw [h.resps] at hx; simp at hx
      | cons i ri =>
        rw [h.resps, List.map_cons] at hx
        injection hx with e1 e2
        refine ⟨P, k, ci, i :: i :: ri, h.one, h.cseq, h.sseq, h.lag, h.resp, h.out, h.msg, h.cmds, h.cle,
          h.csort, ?_, ?_, ?_, h.posted, h.typed, h.shown⟩
        · simp only [← e1, ← e2, List.map_cons]
        · intro j hj
          refine h.rle j ?_
          simp at hj ⊢; exact hj
        · have hs := h.rsort
          rw [List.pairwise_cons] at hs
          rw [List.pairwise_cons, List.pairwise_cons]
          refine ⟨?_, hs.1, hs.2⟩
          intro j hj
          rcases List.mem_cons.mp hj with hj | hj
          · exact Nat.le_of_eq hj.symm
          · exact hs.1 j hj

theorem sinv_new (src : Bytes) (n : Nat) : SInv (newSession src n) [[]] 0 [1] [] := by
  refine ⟨by simp, by rfl, by rfl, Or.inr rfl, by rfl, by rfl, Or.inr ⟨?_, rfl⟩, ?_, ?_, by simp, rfl,
    by simp, by simp, ?_, rfl, .nil⟩
  · simp [newSession, newClient, sendPoll]
  · simp [newSession, newClient, sendPoll, msgAt]
  · intro i hi; simp at hi; subst hi; simp [newSession]
  · simp [newSession, newClient, sendPoll]

theorem sinv_run (src : Bytes) (n : Nat) (es : List SEv) :
    ∃ P k ci ri, SInv (srun (newSession src n) es) P k ci ri := by
  suffices H : ∀ x, (∃ P k ci ri, SInv x P k ci ri) → ∃ P k ci ri, SInv (srun x es) P k ci ri from
    H _ ⟨_, _, _, _, sinv_new src n⟩
  induction es with
  | nil => intro x h; exact h
  | cons e es ih =>
    rintro x ⟨P, k, ci, ri, h⟩
    exact ih (sstep x e) (sinv_step h e)

end Verif.Mop
