import Verif.Ddcmp.Inv
import Verif.Ddcmp.Startup
import Verif.Ddcmp.Hostile
/-!
# C27, C28, C59, C62: the DDCMP protocol between two stations, and against any peer

A schedule is any list of actions (client sends, timeouts, arrivals, losses, damaged frames,
noise) at either end; channels are first-in first-out.
-/
namespace Verif.Ddcmp

/-- C27.  From the moment both ends connect, under every schedule, with every pair of window
sizes: the code never fails an assertion, the link is never reported down, and what each client
has received is at all times an initial segment of what the other client's `send` has taken. -/
theorem delivers_in_order (qp qq : Nat) (h1 : 1 ≤ qp) (h2 : qp ≤ 255) (h3 : 1 ≤ qq)
    (h4 : qq ≤ 255) (xs : List (Bool × Act)) :
    ∃ p q, run qp qq init xs = some (p, q) ∧
      q.delivered <+: p.accepted ∧ p.delivered <+: q.accepted ∧ p.downs = 0 ∧ q.downs = 0 := by
  obtain ⟨⟨p, q⟩, e, g⟩ := run_good (good_init h1 h2 h3 h4) xs
  obtain ⟨A, lo, lf, B, lo', lf', hf, hi⟩ := g
  refine ⟨p, q, e, ?_, ?_, hi.h1.downs, hi.h2.downs⟩
  · have e1 := hi.d1.acc
    have e2 := hi.d1.pref
    change p.accepted = p.sent ++ p.notsent at e1
    change q.delivered = p.sent.take q.delivered.length at e2
    rw [e1, e2]
    exact (List.take_prefix _ _).trans (List.prefix_append _ _)
  · have e1 := hi.d2.acc
    have e2 := hi.d2.pref
    change q.accepted = q.sent ++ q.notsent at e1
    change p.delivered = q.sent.take p.delivered.length at e2
    rw [e1, e2]
    exact (List.take_prefix _ _).trans (List.prefix_append _ _)

/-- What was delivered stays delivered. -/
theorem delivered_grows {qp qq} {s t : Stn × Stn} (hg : Good qp qq s.1 s.2)
    {xs : List (Bool × Act)} (h : run qp qq s xs = some t) :
    s.2.delivered.length ≤ t.2.delivered.length := by
  induction xs generalizing s with
  | nil => simp [run] at h; subst h; exact Nat.le_refl _
  | cons x xs ih =>
    simp only [run, Option.bind_eq_some_iff] at h
    obtain ⟨s1, e1, e2⟩ := h
    obtain ⟨s1', e1', g1⟩ := step_good hg x
    rw [e1] at e1'; simp at e1'; subst e1'
    refine Nat.le_trans ?_ (ih g1 e2)
    obtain ⟨b, x⟩ := x
    cases b with
    | true =>
      have := del_act (p' := s1.1) (q' := s1.2) e1
      rw [this.1]; exact Nat.le_refl _
    | false =>
      simp only [step, Option.map_eq_some_iff] at e1
      obtain ⟨⟨q1, p1⟩, e1, rfl⟩ := e1
      exact (del_act e1).2 g1.downs.2

/-- Specification: the messages the client at one end offers in a schedule, in order. -/
def offered (side : Bool) : List (Bool × Act) → List Msg
  | [] => []
  | (b, .send m) :: xs => if b = side then m :: offered side xs else offered side xs
  | _ :: xs => offered side xs

theorem offered_step {qp qq} {s s' : Stn × Stn} {x : Bool × Act}
    (h : step qp qq s x = some s') (side : Bool) :
    ∃ l, l.Sublist (offered side [x]) ∧
      ((if side then s'.1 else s'.2).accepted = (if side then s.1 else s.2).accepted ++ l ∨
       (if side then s'.1 else s'.2).accepted = []) := by
  obtain ⟨b, x⟩ := x
  cases b with
  | true =>
    obtain ⟨h1, h2⟩ := acc_act (p' := s'.1) (q' := s'.2) h
    cases side with
    | false => exact ⟨[], by simp, Or.inl (by simpa using h1)⟩
    | true =>
      rcases h2 with h2 | h2 | ⟨m, rfl, h2⟩
      · exact ⟨[], by simp, Or.inl (by simpa using h2)⟩
      · exact ⟨[], by simp, Or.inr (by simpa using h2)⟩
      · exact ⟨[m], by simp [offered], Or.inl (by simpa using h2)⟩
  | false =>
    simp only [step, Option.map_eq_some_iff] at h
    obtain ⟨⟨p1, q1⟩, e1, rfl⟩ := h
    obtain ⟨h1, h2⟩ := acc_act e1
    cases side with
    | true => exact ⟨[], by simp, Or.inl (by simpa using h1)⟩
    | false =>
      rcases h2 with h2 | h2 | ⟨m, rfl, h2⟩
      · exact ⟨[], by simp, Or.inl (by simpa using h2)⟩
      · exact ⟨[], by simp, Or.inr (by simpa using h2)⟩
      · exact ⟨[m], by simp [offered], Or.inl (by simpa using h2)⟩

theorem offered_cons (side : Bool) (x : Bool × Act) (xs : List (Bool × Act)) :
    offered side (x :: xs) = offered side [x] ++ offered side xs := by
  obtain ⟨b, x⟩ := x
  cases x <;> simp [offered]
  split <;> simp

theorem accepted_sublist {qp qq} (side : Bool) (xs : List (Bool × Act)) {s s' : Stn × Stn}
    (h : run qp qq s xs = some s') (pre : List Msg)
    (hs : (if side then s.1 else s.2).accepted.Sublist pre) :
    (if side then s'.1 else s'.2).accepted.Sublist (pre ++ offered side xs) := by
  induction xs generalizing s pre with
  | nil => simp [run] at h; subst h; simpa [offered] using hs
  | cons x xs ih =>
    simp only [run, Option.bind_eq_some_iff] at h
    obtain ⟨s1, e1, e2⟩ := h
    rw [offered_cons, ← List.append_assoc]
    apply ih e2
    obtain ⟨l, h1, h2⟩ := offered_step e1 side
    rcases h2 with h2 | h2
    · rw [h2]; exact List.Sublist.append hs h1
    · rw [h2]; exact List.nil_sublist _

/-- C27: nothing is invented: the messages taken at an end are among those its client offered,
in the same order and with the same multiplicity. -/
theorem accepted_from_client (qp qq : Nat) (xs : List (Bool × Act)) (p q : Stn)
    (h : run qp qq init xs = some (p, q)) :
    p.accepted.Sublist (offered true xs) ∧ q.accepted.Sublist (offered false xs) := by
  constructor
  · simpa using accepted_sublist true xs h [] (by simp [init, connected, emit])
  · simpa using accepted_sublist false xs h [] (by simp [init, connected, emit])

/-- Fields of a station that describe the transmit side of C28, as a specification:
number of messages sent and not yet acknowledged. -/
def outstanding (p : Stn) : Nat := (p.n + 256 - p.a) % 256

/-- C28.  Under every schedule: at most `qmax` messages are outstanding; every message that was
sent and that the peer has not handed up yet is in the retransmission buffer at its sequence
number, with its payload; a buffer slot is occupied exactly if its number is between the last
acknowledged and the last sent; messages are sent in the order they were taken; and a message
waits unsent only while the window is full. -/
theorem window_and_buffer (qp qq : Nat) (h1 : 1 ≤ qp) (h2 : qp ≤ 255) (h3 : 1 ≤ qq)
    (h4 : qq ≤ 255) (xs : List (Bool × Act)) (p q : Stn)
    (hrun : run qp qq init xs = some (p, q)) :
    outstanding p ≤ qp ∧
    (∀ i, q.delivered.length < i → i ≤ p.sent.length →
      ∃ m, p.accepted[i-1]? = some m ∧ p.unack (i % 256) = some (i % 256, m)) ∧
    (∀ j, j < 256 → ((p.unack j).isSome = true ↔
      ∃ i, 1 ≤ i ∧ i ≤ outstanding p ∧ j = (p.a + i) % 256)) ∧
    p.accepted = p.sent ++ p.notsent ∧
    (p.notsent ≠ [] → outstanding p = qp) := by
  obtain ⟨⟨p', q'⟩, e, g⟩ := run_good (good_init h1 h2 h3 h4) xs
  rw [hrun] at e
  simp only [Option.some.injEq, Prod.mk.injEq] at e
  obtain ⟨rfl, rfl⟩ := e
  obtain ⟨A, lo, lf, B, lo', lf', hf, hi⟩ := g
  simp only at hf hi
  have han := hi.an
  have hwin := hi.d1.win
  have hc := chain_le hi.d1.bwd
  have halo := hi.d1.alo
  have hout : outstanding p = p.sent.length - A := by
    unfold outstanding
    rw [hi.d1.pn, hi.d1.pa]; omega
  refine ⟨by omega, ?_, ?_, hi.d1.acc, ?_⟩
  · intro i hi1 hi2
    obtain ⟨m, e1, e2⟩ := hi.d1.held i (by omega) hi2
    refine ⟨m, ?_, e2⟩
    rw [hi.d1.acc, List.getElem?_append_left (by omega)]
    exact e1
  · intro j hj
    rw [hout, hi.d1.pa]
    constructor
    · intro hs
      refine Classical.byContradiction fun hcon => ?_
      -- the true number of slot `j` in the 256 numbers after `A`
      have hex : ∃ i, 1 ≤ i ∧ i ≤ 256 ∧ j = (A + i) % 256 := by
        by_cases hle : j ≤ A % 256
        · exact ⟨256 + j - A % 256, by omega, by omega, by omega⟩
        · exact ⟨j - A % 256, by omega, by omega, by omega⟩
      obtain ⟨i, hi1, hi2, hi3⟩ := hex
      by_cases hle : i ≤ p.sent.length - A
      · exact hcon ⟨i, hi1, hle, by omega⟩
      · have := hi.d1.free (A + i) (by omega) (by omega)
        rw [← hi3] at this
        rw [this] at hs; simp at hs
    · rintro ⟨i, hi1, hi2, hi3⟩
      obtain ⟨m, _, e2⟩ := hi.d1.held (A + i) (by omega) (by omega)
      have : j = (A + i) % 256 := by omega
      rw [this, e2]; rfl
  · intro hn
    have := hf hn
    omega

/-- C59.  The protocol cannot get stuck: whatever happened so far, there is a continuation
without any client activity (timeouts, arrivals and losses only) after which both ends run and
each client has received everything the other client's `send` has taken. -/
theorem never_stuck (qp qq : Nat) (h1 : 1 ≤ qp) (h2 : qp ≤ 255) (h3 : 1 ≤ qq) (h4 : qq ≤ 255)
    (xs : List (Bool × Act)) (p q : Stn) (hrun : run qp qq init xs = some (p, q)) :
    ∃ ys p' q', (∀ y ∈ ys, ∀ m, y.2 ≠ .send m) ∧ run qp qq init (xs ++ ys) = some (p', q') ∧
      p'.st = .running ∧ q'.st = .running ∧
      q'.delivered = p.accepted ∧ p'.delivered = q.accepted := by
  obtain ⟨s, e, g⟩ := run_good (good_init h1 h2 h3 h4) xs
  rw [hrun] at e
  simp only [Option.some.injEq] at e
  subst e
  simp only at g
  obtain ⟨p1, q1, r1, hp1, hq1⟩ := start_up g
  have g1 := reach_good r1 g
  obtain ⟨p2, q2, r2, hp2, hq2, hd2⟩ := deliver_all g1 hp1 hq1
  have g2 := reach_good r2 g1
  obtain ⟨q3, p3, r3, hq3, hp3, hd3⟩ := deliver_all g2.symm hq2 hp2
  have r3' := r3.swap
  have g3 := reach_good r3' g2
  obtain ⟨a1, b1⟩ := reach_accepted r1 g
  obtain ⟨a2, b2⟩ := reach_accepted r2 g1
  obtain ⟨a3, b3⟩ := reach_accepted r3' g2
  simp only at a1 b1 a2 b2 a3 b3 hd3
  obtain ⟨ys, hq, hr⟩ := (r1.trans r2).trans r3'
  refine ⟨ys, p3, q3, hq, by rw [run_append, hrun]; exact hr, hp3, hq3, ?_, ?_⟩
  · -- delivery at `q` only grew in the second phase, and it is bounded by what was accepted
    have hle : q2.delivered.length ≤ q3.delivered.length := by
      obtain ⟨zs, _, hz⟩ := r3'
      exact delivered_grows g2 hz
    obtain ⟨A, lo, lf, B, lo', lf', hf, hi⟩ := g3
    have e1 := hi.d1.acc
    have e2 := hi.d1.pref
    simp only at e1 e2
    have hpre : q3.delivered <+: p3.accepted := by
      rw [e1, e2]; exact (List.take_prefix _ _).trans (List.prefix_append _ _)
    rw [a3, a2, a1] at hpre
    rw [hd2, a1] at hle
    exact hpre.eq_of_length_le hle
  · rw [hd3, b2, b1]

/-- Start up with one Start lost, then two messages of which the first is damaged: the second is
refused, the first is retransmitted after the NAK and both arrive. -/
def demo : List (Bool × Act) :=
  [(true, .lose), (false, .recv), (true, .recv), (false, .recv), (false, .recv), (true, .recv),
   (true, .send [1]), (true, .send [2]), (false, .recv), (false, .badData),
   (false, .recv), (true, .recv), (true, .recv), (false, .recv), (false, .recv)]

/-- Non-vacuity: the run above reaches a state with a non-empty delivered log, and the
intermediate states have a damaged and a refused frame. -/
example : (run 7 7 init demo).map (fun s => (s.2.delivered, s.1.accepted)) =
    some ([[1], [2]], [[1], [2]]) := by decide

example : (run 1 7 init (demo.take 8)).map (fun s => (s.1.sent, s.1.notsent, outstanding s.1)) =
    some ([[1]], [[2]], 1) := by decide

/-! ### C62: against any peer -/

/-- Specification: how many of the messages sent were acknowledged. -/
def acked (s : Stn) : Nat := s.sent.length - outstanding s

theorem Buf.outstanding {qmax A : Nat} {s : Stn} (h : Buf qmax A s) (hq : qmax ≤ 255) :
    Ddcmp.outstanding s = s.sent.length - A ∧ acked s = A := by
  have e : Ddcmp.outstanding s = s.sent.length - A := h.pend hq
  refine ⟨e, ?_⟩
  have := h.le
  unfold acked; omega

/-- C62.  Whatever frames, errors and timeouts a station sees, with whatever numbers, and whatever
its client sends: no assertion fails, at most `qmax` messages are outstanding, every message taken
and not acknowledged is either in the buffer under its number or in the queue, in order, and a
message waits only while the window is full. -/
theorem any_peer_safe (qmax : Nat) (hq : qmax ≤ 255) (es : List Ev) (he : ∀ e ∈ es, e.ok) :
    ∃ s, runOne qmax (connected [] 0) es = some s ∧ outstanding s ≤ qmax ∧
      s.accepted = s.sent ++ s.notsent ∧ (s.notsent ≠ [] → outstanding s = qmax) ∧
      ∀ i, acked s < i → i ≤ s.sent.length →
        ∃ m, s.accepted[i-1]? = some m ∧ s.unack (i % 256) = some (i % 256, m) := by
  obtain ⟨s, e1, h⟩ := runOne_safe hq (safe_connected qmax [] 0) es he
  obtain ⟨A, hA, hF⟩ := h.buf
  obtain ⟨o1, o2⟩ := hA.outstanding hq
  have hw := hA.win
  refine ⟨s, e1, by omega, hA.acc, fun hn => by have := hF hn; omega, fun i h1 h2 => ?_⟩
  obtain ⟨m, f1, f2⟩ := hA.held i (by omega) h2
  refine ⟨m, ?_, f2⟩
  rw [hA.acc, List.getElem?_append_left (by omega)]
  exact f1

/-- C62.  What one work item does to a running station, at any moment, whoever sent it: an
acknowledgement number releases the messages up to the one it names if that one is outstanding, and
otherwise none; nothing else releases a message; a data frame is handed to the client exactly if it
has the number after the last one handed up; the link stays up.  (A Start restarts the link.) -/
theorem any_peer_item (qmax : Nat) (hq : qmax ≤ 255) (es : List Ev) (he : ∀ e ∈ es, e.ok) (s : Stn)
    (hs : runOne qmax (connected [] 0) es = some s) (hr : s.st = .running) (i : Input) (hi : i.ok)
    (hstart : i ≠ .packet .start) :
    ∃ s' k, handle qmax s i = some s' ∧ acked s' = acked s + k ∧
      (∀ r, i.resp = some r → Releases (acked s) s.sent.length r k) ∧ (i.resp = none → k = 0) ∧
      s'.delivered = s.delivered ++ i.news s.delivered.length ∧ s.sent <+: s'.sent ∧
      s'.accepted = s.accepted ∧ s'.st = .running ∧ s'.downs = s.downs := by
  obtain ⟨s0, e1, h⟩ := runOne_safe hq (safe_connected qmax [] 0) es he
  rw [hs] at e1
  simp only [Option.some.injEq] at e1
  subst e1
  obtain ⟨A, hA, hF⟩ := h.buf
  obtain ⟨s', f1, f2⟩ := running_eff hq hA hF hr hi hstart
  obtain ⟨k, hk, hk2⟩ := f2.buf
  obtain ⟨_, o2⟩ := hA.outstanding hq
  obtain ⟨_, o4⟩ := hk.1.outstanding hq
  refine ⟨s', k, by simp only [handle, hr]; exact f1, by omega, ?_, ?_, f2.del, f2.sent, ?_, f2.st, f2.downs⟩
  · intro r hr'
    rw [hr'] at hk2
    rw [o2]; exact hk2
  · intro hr'
    rw [hr'] at hk2; exact hk2
  · rcases acc_running f1 with h | ⟨h, _⟩
    · exact h
    · exact absurd h hstart

/-- Non-vacuity: a peer that starts up, then acknowledges a message never sent, then the first of
two, then sends frames out of order. -/
def rude : List Ev :=
  [.input (.packet .stack), .client [1], .client [2], .input (.packet (.ack 9)), .input (.packet (.ack 1)),
   .input (.packet (.data 2 200 [8])), .input (.packet (.data 1 1 [7])), .input (.err 2 (some 3))]

example : (∀ e ∈ rude, e.ok) ∧
    (runOne 7 (connected [] 0) rude).map (fun s => (acked s, outstanding s, s.delivered, s.st)) =
      some (1, 1, [[7]], .running) := by
  constructor
  · simp [rude, Ev.ok, Input.ok, Frame.ok]
  · decide

end Verif.Ddcmp
