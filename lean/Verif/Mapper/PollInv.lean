import Verif.Mapper.Finish

/-!
# The invariant of a poller
-/

namespace Verif.Mapper

/-- What pollers let be seen. -/
def Out.isSaw : Out → Prop
  | .saw _ | .sawAdj _ _ _ => True
  | _ => False

/-- A poller that has not reported will act again: it has not begun, it waits
for an answer to its attempt to connect, or its timer runs. -/
def Poller.Waits (p : Poller) : Prop :=
  p.st = .s0 ∨ (p.st = .connecting ∧ p.live = true ∧ p.conn = true) ∨
  (p.st = .polling ∧ p.timer = true)

/-- The constants of a poll. -/
structure K where
  C : Prop
  full : Bool
  ts : Nat
  T : Nat
  L : List Out
  cur : Nat
  id : Id
  N : List Id
  todo : List Id
  nx : Nat

structure WC (k : K) (w : W) : Prop where
  mi : MI k.C k.full k.ts k.T w.m (k.L ++ w.out)
  cur : w.p.cur = k.cur
  lt : k.cur < w.m.next
  ts : w.p.ts = k.ts
  id : w.p.id = k.id
  outs : k.full = true → ∀ r c j, Out.sawAdj r c j ∈ w.out → j ∈ w.p.todo
  nodes : k.full = true → ∀ e, e ∈ w.m.nodes → e.1 ∈ k.N ∨ e.1 ∈ w.p.todo
  saws : ∀ o, o ∈ w.out → o.isSaw
  mono : ∀ i, i ∈ k.todo → i ∈ w.p.todo
  next : k.nx ≤ w.m.next

def Act (k : K) (w : W) : Prop :=
  WC k w ∧ w.p.dones = 0 ∧ w.q = [] ∧ w.p.st ≠ .s0

def Fin (k : K) (w : W) : Prop :=
  WC k w ∧ ((w.p.dones = 0 ∧ w.q = [] ∧ w.p.Waits ∧ (w.p.timer = true → w.p.st = .polling)) ∨
    (w.p.dones = 1 ∧ w.q = [(k.id, w.p.todo)] ∧ w.p.timer = false ∧ w.p.st ≠ .s0))

theorem WC.setp {k : K} {w : W} (h : WC k w) (p : Poller) (h1 : p.cur = w.p.cur)
    (h2 : p.ts = w.p.ts) (h3 : p.id = w.p.id) (h4 : p.todo = w.p.todo) :
    WC k { w with p := p } where
  mi := h.mi
  cur := h1.trans h.cur
  lt := h.lt
  ts := h2.trans h.ts
  id := h3.trans h.id
  outs := by simp only [h4]; exact h.outs
  nodes := by simp only [h4]; exact h.nodes
  saws := h.saws
  mono := by simp only [h4]; exact h.mono
  next := h.next

theorem Act.setp {k : K} {w : W} (h : Act k w) (p : Poller) (h1 : p.cur = w.p.cur)
    (h2 : p.ts = w.p.ts) (h3 : p.id = w.p.id) (h4 : p.todo = w.p.todo)
    (h5 : p.dones = w.p.dones) (h6 : p.st = w.p.st) :
    Act k { w with p := p } :=
  ⟨h.1.setp p h1 h2 h3 h4, by simp only [h5]; exact h.2.1, h.2.2.1, by simp only [h6]; exact h.2.2.2⟩

/-- Attributes of the node. -/
theorem Act.setn {k : K} {w : W} (h : Act k w) (f : MNode → MNode)
    (h1 : ∀ n, (f n).id = n.id) (h2 : ∀ n, (f n).it = n.it)
    (h3 : ∀ n e, e ∈ (f n).adj → e ∈ n.adj)
    (h4 : ∀ n, (n.adj.map Prod.fst).Nodup → ((f n).adj.map Prod.fst).Nodup) :
    Act k { w with m := w.m.mod w.p.cur f } :=
  ⟨⟨h.1.mi.mod_keep _ f (h1 _) (h2 _) (h3 _) (h4 _ (h.1.mi.keys _)), h.1.cur, h.1.lt, h.1.ts,
    h.1.id, h.1.outs, h.1.nodes, h.1.saws, h.1.mono, h.1.next⟩, h.2⟩

theorem fin_finished {k : K} {w : W} (h : Act k w) (e : Env) : Fin k (w.finished e) := by
  obtain ⟨h1, h2, h3, h4⟩ := h
  unfold W.finished
  simp only
  split
  · refine ⟨h1.setp _ rfl rfl rfl rfl |> fun h => ⟨h.mi, h.cur, h.lt, h.ts, h.id, h.outs, h.nodes, h.saws, h.mono, h.next⟩,
      Or.inr ⟨by simp [h2], by simp [h3, h1.id], rfl, h4⟩⟩
  · refine ⟨h1.setp _ rfl rfl rfl rfl |> fun h => ⟨h.mi, h.cur, h.lt, h.ts, h.id, h.outs, h.nodes, h.saws, h.mono, h.next⟩,
      Or.inr ⟨by simp [h2], by simp [h3, h1.id], rfl, h4⟩⟩

theorem fin_next {k : K} {w : W} (h : Act k w) (e : Env) (r : Req) : Fin k (w.next e r) := by
  unfold W.next
  split
  · exact ⟨h.1.setp _ rfl rfl rfl rfl, Or.inl ⟨h.2.1, h.2.2.1, Or.inr (Or.inr ⟨rfl, rfl⟩), fun _ => rfl⟩⟩
  · exact fin_finished h e

theorem act_seen {k : K} {w : W} (h : Act k w) : Act k w.seen := by
  obtain ⟨h1, h2⟩ := h
  refine ⟨⟨?_, h1.cur, h1.lt, h1.ts, h1.id, ?_, h1.nodes, ?_, h1.mono, h1.next⟩, h2⟩
  · have := h1.mi.seen w.p.cur (by rw [h1.cur]; exact h1.lt)
    simp only [W.seen, h1.ts]
    rw [List.append_assoc] at this; exact this
  · intro hf r c j hm
    simp only [W.seen, List.mem_append, List.mem_singleton] at hm
    rcases hm with hm | hm
    · exact h1.outs hf r c j hm
    · cases hm
  · intro o ho
    simp only [W.seen, List.mem_append, List.mem_singleton] at ho
    rcases ho with ho | ho
    · exact h1.saws o ho
    · rw [ho]; trivial

theorem fin_procexec {k : K} {w : W} (h : Act k w) (e : Env) (rs : List Reply) :
    Fin k (w.procexec e rs) := by
  unfold W.procexec
  simp only
  refine fin_next ?_ e .knocirc
  split
  · exact h.setn _ (fun _ => rfl) (fun _ => rfl) (fun _ _ h => h) (fun _ h => h)
  · exact h

theorem fin_procp2exec {k : K} {w : W} (h : Act k w) (e : Env) (rs : List Reply) :
    Fin k (w.procp2exec e rs) := by
  unfold W.procp2exec
  simp only
  refine fin_next ?_ e .p2line
  split
  · exact h.setn _ (fun _ => rfl) (fun _ => rfl) (fun _ _ h => h) (fun _ h => h)
  · exact h

theorem act_neighbour {k : K} {w : W} (h : Act k w) (area : Bool) (circ : String) (j : Id) :
    Act k (w.neighbour k.full area circ j) := by
  obtain ⟨h1, h2⟩ := h
  have hm := h1.mi.seenAdj w.p.cur (by rw [h1.cur]; exact h1.lt) circ j
  rw [← h1.ts, List.append_assoc] at hm
  rw [h1.ts] at hm
  have hm2 : MI k.C k.full k.ts k.T (if area && decide (j / 1024 ≠ w.p.id / 1024)
      then (w.m.adjUpdate w.p.cur circ j true k.ts).1.mod w.p.cur fun n => { n with typ := some 3 }
      else (w.m.adjUpdate w.p.cur circ j true k.ts).1) (k.L ++ (w.out ++ [.sawAdj w.p.cur circ j])) := by
    split
    · exact hm.mod_keep _ _ rfl rfl (fun _ h => h) (hm.keys _)
    · exact hm
  have htodo : ∀ (b : Bool), ∀ x, x ∈ w.p.todo →
      x ∈ (if b then { w.p with todo := w.p.todo ++ [j] } else w.p).todo := by
    intro b x hx; cases b
    · exact hx
    · simp [hx]
  refine ⟨⟨?_, ?_, ?_, ?_, ?_, ?_, ?_, ?_, ?_, ?_⟩, ?_⟩
  · simp only [W.neighbour, h1.ts]; exact hm2
  · simp only [W.neighbour]; split <;> exact h1.cur
  · simp only [W.neighbour]
    split <;> exact h1.lt
  · simp only [W.neighbour]; split <;> exact h1.ts
  · simp only [W.neighbour]; split <;> exact h1.id
  · intro hf r c j' hmem
    simp only [W.neighbour, List.mem_append, List.mem_singleton, Out.sawAdj.injEq] at hmem ⊢
    rcases hmem with hmem | hmem
    · exact htodo _ _ (h1.outs hf r c j' hmem)
    · simp [hf, hmem.2.2]
  · intro hf e he
    have he' : e ∈ w.m.nodes := by
      simp only [W.neighbour] at he
      split at he <;> exact he
    rcases h1.nodes hf e he' with hn | hn
    · exact Or.inl hn
    · exact Or.inr (htodo _ _ hn)
  · intro o ho
    simp only [W.neighbour, List.mem_append, List.mem_singleton] at ho
    rcases ho with ho | ho
    · exact h1.saws o ho
    · rw [ho]; trivial
  · exact fun i hi => htodo _ _ (h1.mono i hi)
  · simp only [W.neighbour]
    split <;> exact h1.next
  · simp only [W.neighbour]
    split <;> exact h2

theorem fin_procknocirc {k : K} {w : W} (h : Act k w) (e : Env) (own : Id) (rs : List Reply) :
    Fin k (w.procknocirc e k.full own rs) := by
  unfold W.procknocirc
  simp only
  generalize hcs : rs.map Reply.circ = cs
  have h1 : Act k (rs.foldl (fun w r => match r.adjacent with
    | none => w
    | some j => w.neighbour k.full true r.circ j) w) := by
    clear hcs
    induction rs generalizing w with
    | nil => exact h
    | cons r q ih =>
      rw [List.foldl_cons]
      refine ih ?_
      split
      · exact h
      · exact act_neighbour h _ _ _
  have h2 := h1.setn (fun n => { n with adj := n.adj.filter fun a => cs.contains a.1.1 })
    (fun _ => rfl) (fun _ => rfl) (fun _ _ h => (List.mem_filter.1 h).1)
    (fun n hn => hn.sublist (List.filter_sublist.map Prod.fst))
  split
  · exact fin_finished h2 e
  · exact fin_next h2 e _

theorem fin_procp2line {k : K} {w : W} (h : Act k w) (e : Env) (rs : List Reply) :
    Fin k (w.procp2line e k.full rs) := by
  unfold W.procp2line
  simp only
  refine fin_finished ?_ e
  induction rs generalizing w with
  | nil => exact h
  | cons r q ih =>
    rw [List.foldl_cons]
    refine ih ?_
    split
    · exact h
    · exact act_neighbour h _ _ _

theorem fin_procactnode {k : K} {w : W} (h : Act k w) (e : Env) (rs : List Reply) :
    Fin k (w.procactnode e k.full rs) := by
  unfold W.procactnode
  simp only
  refine fin_finished ?_ e
  induction rs generalizing w with
  | nil => exact h
  | cons r q ih =>
    rw [List.foldl_cons]
    refine ih ?_
    split
    · exact h
    · obtain ⟨h1, h2⟩ := h
      obtain ⟨ha, hb, hc⟩ := h1.mi.mapnode r.node r.nodename
      have hs := ha.seen _ hb
      rw [List.append_assoc] at hs
      have htodo : ∀ x, x ∈ w.p.todo →
          x ∈ (if k.full = true then { w.p with todo := w.p.todo ++ [r.node] } else w.p).todo := by
        intro x hx; split
        · simp [hx]
        · exact hx
      refine ⟨⟨?_, ?_, ?_, ?_, ?_, ?_, ?_, ?_, ?_, ?_⟩, ?_⟩
      · simp only [h1.ts]; exact hs
      · simp only; split <;> exact h1.cur
      · exact Nat.lt_of_lt_of_le h1.lt hc
      · simp only; split <;> exact h1.ts
      · simp only; split <;> exact h1.id
      · intro hf r' c j hm
        simp only [List.mem_append, List.mem_singleton] at hm
        rcases hm with hm | hm
        · exact htodo _ (h1.outs hf r' c j hm)
        · cases hm
      · intro hf x hx
        rcases mapnode_mem hx with hx | hx
        · rcases h1.nodes hf x hx with hn | hn
          · exact Or.inl hn
          · exact Or.inr (htodo _ hn)
        · exact Or.inr (by simp [hf, hx])
      · intro o ho
        simp only [List.mem_append, List.mem_singleton] at ho
        rcases ho with ho | ho
        · exact h1.saws o ho
        · rw [ho]; trivial
      · exact fun i hi => htodo _ (h1.mono i hi)
      · exact Nat.le_trans h1.next hc
      · simp only; split <;> exact h2

theorem fin_handle {k : K} {w : W} (h : Act k w) (e : Env) (own : Id) :
    Fin k (w.handle e k.full own) := by
  unfold W.handle
  simp only
  split
  · exact fin_procexec h e _
  · exact fin_procp2exec h e _
  · exact fin_procknocirc h e own _
  · exact fin_procp2line h e _
  · exact fin_procactnode h e _

theorem fin_polling_wait {k : K} {w : W} (h : WC k w) (h1 : w.p.dones = 0) (h2 : w.q = [])
    (h3 : w.p.st = .polling) (h4 : w.p.timer = true) : Fin k w :=
  ⟨h, Or.inl ⟨h1, h2, Or.inr (Or.inr ⟨h3, h4⟩), fun _ => h3⟩⟩

theorem fin_data2 {k : K} {w : W} (h : Act k w) (h3 : w.p.st = .polling) (h4 : w.p.timer = true)
    (c : Dec) (e : Env) (own : Id) (msg : List UInt8) :
    Fin k (w.data2 c e k.full own msg) := by
  have hgo : ∀ (n : Int) (w : W), Act k w → w.p.st = .polling →
      Fin k (if n ≠ 0 then { w with p := { w.p with resp := some n, timer := true } }
        else W.handle e k.full own { w with p := { w.p with resp := some n } }) := by
    intro n w h h3
    split
    · exact fin_polling_wait (h.1.setp _ rfl rfl rfl rfl) h.2.1 h.2.2.1 h3 rfl
    · refine fin_handle ?_ e own; exact h.setp _ rfl rfl rfl rfl rfl rfl
  unfold W.data2
  simp only
  split
  · split
    · exact fin_polling_wait (h.1.setp _ rfl rfl rfl rfl) h.2.1 h.2.2.1 h3 h4
    · split
      · exact fin_finished h e
      · split
        · exact fin_finished h e
        · exact hgo _ w h h3
  · split
    · exact fin_finished h e
    · next r _ => refine hgo _ { w with p := { w.p with replies := w.p.replies ++ [r] } } ?_ h3; exact h.setp _ rfl rfl rfl rfl rfl rfl

theorem fin_data4 {k : K} {w : W} (h : Act k w) (h3 : w.p.st = .polling) (h4 : w.p.timer = true)
    (c : Dec) (e : Env) (own : Id) (msg : List UInt8) :
    Fin k (w.data4 c e k.full own msg) := by
  unfold W.data4
  split
  · exact fin_polling_wait (h.1.setp _ rfl rfl rfl rfl) h.2.1 h.2.2.1 h3 h4
  · split
    · exact fin_handle h e own
    · split
      · exact fin_finished h e
      · split
        · split
          · exact fin_polling_wait (h.1.setp _ rfl rfl rfl rfl) h.2.1 h.2.2.1 h3 h4
          · exact fin_polling_wait (h.1.setp _ rfl rfl rfl rfl) h.2.1 h.2.2.1 h3 rfl
        · split
          · exact fin_finished h e
          · simp only
            split
            · exact fin_polling_wait (h.1.setp _ rfl rfl rfl rfl) h.2.1 h.2.2.1 h3 rfl
            · refine fin_handle ?_ e own; exact h.setp _ rfl rfl rfl rfl rfl rfl

theorem fin_polling {k : K} {w : W} (h : Act k w) (h3 : w.p.st = .polling) (h4 : w.p.timer = true)
    (c : Dec) (e : Env) (own : Id) (i : Itm) : Fin k (w.polling c e k.full own i) := by
  unfold W.polling
  split
  · split
    · exact fin_data2 h h3 h4 c e own _
    · exact fin_data4 h h3 h4 c e own _
  · refine fin_finished ?_ e; exact h.setp _ rfl rfl rfl rfl rfl rfl
  · exact fin_finished h e

/-- A poller that has not reported, between events. -/
def Rest (k : K) (w : W) : Prop :=
  WC k w ∧ w.p.dones = 0 ∧ w.q = [] ∧ w.p.Waits ∧ (w.p.timer = true → w.p.st = .polling)

theorem Rest.fin {k : K} {w : W} (h : Rest k w) : Fin k w := ⟨h.1, Or.inl h.2⟩

theorem fin_item {k : K} {w : W} (h : Rest k w) (c : Dec) (e : Env) (own : Id) (i : Itm)
    (hi : w.p.st = .connecting → i ≠ .disconnect) : Fin k (w.item c e k.full own i) := by
  obtain ⟨h1, h2, h3, h4, h5⟩ := h
  unfold W.item
  split
  · exact ⟨h1, Or.inl ⟨h2, h3, h4, h5⟩⟩
  · simp only
    rcases h4 with hs | ⟨hs, hl, hc⟩ | ⟨hs, ht⟩
    · -- not begun
      cases i <;> simp only [hs] <;>
        exact ⟨h1.setp _ rfl rfl rfl rfl, Or.inl ⟨h2, h3, Or.inl (by first | exact hs | rfl), by
          intro ht; have := h5 ht; rw [hs] at this; exact absurd this (by decide)⟩⟩
    · have ha : Act k w := ⟨h1, h2, h3, by rw [hs]; simp⟩
      cases i with
      | accept d =>
        simp only [hs, W.connecting]
        refine fin_next ?_ e _; exact (act_seen ha).setp _ rfl rfl rfl rfl rfl rfl
      | reject reason =>
        simp only [hs, W.connecting]
        refine fin_finished ?_ e
        split
        · exact ha.setp _ rfl rfl rfl rfl rfl hs.symm
        · have h0 := ha.setp { w.p with live := false, st := .connecting } rfl rfl rfl rfl rfl hs.symm
          exact (act_seen h0).setp _ rfl rfl rfl rfl rfl rfl
      | data m => simp only [hs, W.connecting]; exact ⟨h1, Or.inl ⟨h2, h3, Or.inr (Or.inl ⟨hs, hl, hc⟩), h5⟩⟩
      | disconnect => exact absurd rfl (hi hs)
      | other => simp only [hs, W.connecting]; exact ⟨h1, Or.inl ⟨h2, h3, Or.inr (Or.inl ⟨hs, hl, hc⟩), h5⟩⟩
    · have ha : Act k w := ⟨h1, h2, h3, by rw [hs]; simp⟩
      cases i <;> simp only [hs] <;>
        (refine fin_polling ?_ ?_ ?_ c e own _
         rotate_left; first | rfl | exact hs
         exact ht
         exact ha.setp _ rfl rfl rfl rfl rfl (by first | rfl | exact hs.symm))

theorem fin_timeout {k : K} {w : W} (h : Rest k w) (e : Env) : Fin k (w.timeout e) := by
  obtain ⟨h1, h2, h3, h4, h5⟩ := h
  unfold W.timeout
  split
  · exact ⟨h1, Or.inl ⟨h2, h3, h4, h5⟩⟩
  · next ht =>
    have ht : w.p.timer = true := by simpa using ht
    have hs := h5 ht
    simp only [hs]
    refine fin_finished ?_ e; exact Act.setp ⟨h1, h2, h3, by rw [hs]; simp⟩ _ rfl rfl rfl rfl rfl hs.symm

theorem fin_start {k : K} {w : W} (h : Rest k w) :
    Fin k (if w.p.st = .s0 then w.start else w) := by
  obtain ⟨h1, h2, h3, h4, h5⟩ := h
  split
  · next hs =>
    refine ⟨h1.setp _ rfl rfl rfl rfl, Or.inl ⟨h2, h3, Or.inr (Or.inl ⟨rfl, rfl, rfl⟩), ?_⟩⟩
    intro ht
    exact absurd (h5 ht) (by rw [hs]; simp)
  · exact ⟨h1, Or.inl ⟨h2, h3, h4, h5⟩⟩

end Verif.Mapper
