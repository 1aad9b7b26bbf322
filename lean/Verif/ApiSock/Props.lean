import Verif.ApiSock.Lemmas

/-!
# Requests at the API socket (C98)
-/

namespace Verif.ApiSock

/-- Whatever the pieces in which it arrives, the requests are the lines of the stream up to the first
empty one; an unfinished line at the end is not a request. -/
theorem requests_are_lines (chunks : List Bytes) (hc : ∀ c ∈ chunks, c ≠ []) :
    requests [] chunks = (lines [] chunks.flatten).takeWhile (· ≠ []) := by
  have : ∀ (n : Nat) (p : Bytes) (cs : List Bytes), p.length + (cs.map List.length).sum ≤ n → (∀ c ∈ cs, c ≠ []) →
      requests p cs = (lines [] (p ++ cs.flatten)).takeWhile (· ≠ []) := by
    intro n
    induction n with
    | zero =>
      intro p cs hn hcs
      have h := readline_lines p cs hcs
      unfold requests
      split
      · rename_i hr; rw [hr] at h; simp [h]
      · rename_i l p' cs' hr
        have := readline_shorter hr
        omega
    | succ n ih =>
      intro p cs hn hcs
      have h := readline_lines p cs hcs
      unfold requests
      split
      · rename_i hr; rw [hr] at h; simp [h]
      · rename_i l p' cs' hr
        rw [hr] at h
        have hs := readline_shorter hr
        rw [h.1]
        split
        · rename_i hl; simp [hl]
        · rename_i hl
          rw [ih p' cs' (by omega) h.2]
          simp [hl]
  simpa using this _ [] chunks (Nat.le_refl _) hc

/-! ## One request -/

/-- A request for a subsystem is passed to it: the node, the type (or `get`), the tag and all other entries. -/
theorem passed_on (v : Server) (prev : Option (Option Dict)) (d : Dict) (a : Ans) (n k : Str) (h : To v d n k) :
    ∃ args r, turn v prev (.dict d) a = .ret [.call n k (typeOf d) (tagOf d) args] r ∧
      ∀ j, get args j = if j = kTag ∨ j = kSystem ∨ j = kApi ∨ j = kType then none else get d j := by
  obtain ⟨apis, hf, hk, k0, k1, k2⟩ := h
  refine ⟨argsOf d, ?_⟩
  rw [turn_full _ _ _ _ (not_bare hk (by decide)), hk, choose_for v d n apis _ _ _ _ _ hf (by simp [Val.truth, k0])]
  simp only [Option.getD_some, callNode, nodeApi, if_neg k1, if_pos k2]
  exact ⟨_, rfl, get_argsOf d⟩

/-- Nothing else is passed to a subsystem, and no request to two. -/
theorem called_only (v : Server) (prev : Option (Option Dict)) (q : Req) (a : Ans) (o : List Out)
    (h : (∃ r, turn v prev q a = .ret o r) ∨ turn v prev q a = .raises o) :
    o = [] ∨ ∃ d n k args, q = .dict d ∧ To v d n k ∧ o = [.call n k (typeOf d) (tagOf d) args] := by
  cases q with
  | fails => rcases h with ⟨_, h⟩ | h <;> cases h; exact .inl rfl
  | text s =>
    simp only [turn] at h
    by_cases hs : s = wBad
    · rw [if_pos hs] at h
      cases prev with
      | none => rcases h with ⟨_, h⟩ | h <;> cases h; exact .inl rfl
      | some r => rcases h with ⟨_, h⟩ | h <;> cases h; exact .inl rfl
    · rw [if_neg hs] at h
      rcases h with ⟨_, h⟩ | h <;> cases h; exact .inl rfl
  | value => rcases h with ⟨_, h⟩ | h <;> cases h; exact .inl rfl
  | dict d =>
    by_cases hb : Bare d
    · rw [turn_bare v prev d a hb] at h
      rcases h with ⟨_, h⟩ | h <;> cases h; exact .inl rfl
    · rw [turn_full v prev d a hb] at h
      have hc : (∃ r, choose v ((systemOf v d).getD .null) ((get d kApi).getD .null) (typeOf d) (tagOf d) (argsOf d) a
            = .ret o r) ∨
          choose v ((systemOf v d).getD .null) ((get d kApi).getD .null) (typeOf d) (tagOf d) (argsOf d) a
            = .raises o := by
        cases hc : choose v ((systemOf v d).getD .null) ((get d kApi).getD .null) (typeOf d) (tagOf d) (argsOf d) a with
        | ret o' r' =>
          rw [hc] at h
          rcases h with ⟨r, h⟩ | h <;> cases h
          exact .inl ⟨_, rfl⟩
        | raises o' =>
          rw [hc] at h
          rcases h with ⟨r, h⟩ | h <;> cases h
          exact .inr rfl
      clear h
      have quiet : ∀ r : Option Dict, ((∃ r', Res.ret [] r = .ret o r') ∨ Res.ret [] r = .raises o) → o = [] := by
        rintro r (⟨_, h⟩ | h) <;> cases h; rfl
      have quiet' : ((∃ r', Res.raises [] = .ret o r') ∨ Res.raises [] = .raises o) → o = [] := by
        rintro (⟨_, h⟩ | h) <;> cases h; rfl
      cases hs : systemOf v d with
      | none => rw [hs] at hc; exact .inl (quiet _ hc)
      | some x =>
        rw [hs] at hc
        cases x with
        | null => exact .inl (quiet _ hc)
        | list n => exact .inl (quiet' hc)
        | other b n =>
          cases b with
          | true => exact .inl (quiet' hc)
          | false => exact .inl (quiet _ hc)
        | text s =>
          simp only [Option.getD_some, choose] at hc
          by_cases h0 : s = []
          · rw [if_pos h0] at hc; exact .inl (quiet _ hc)
          · rw [if_neg h0] at hc
            cases ht : ((get d kApi).getD .null).truth with
            | false => simp only [ht, Bool.not_false, if_true] at hc; exact .inl (quiet _ hc)
            | true =>
              simp only [ht, Bool.not_true, Bool.false_eq_true, if_false] at hc
              cases hn : v.node (upper s) with
              | none => rw [hn] at hc; exact .inl (quiet _ hc)
              | some apis =>
                rw [hn] at hc
                cases hg : get d kApi with
                | none => rw [hg] at ht; cases ht
                | some p =>
                  rw [hg] at hc ht
                  simp only [Option.getD_some, callNode] at hc
                  cases p with
                  | null => cases ht
                  | list i => exact .inl (quiet' hc)
                  | other b i => exact .inl (quiet _ hc)
                  | text k =>
                    simp only [nodeApi] at hc
                    by_cases hw : k = wNode
                    · simp only [hw, if_true] at hc
                      by_cases hty : typeOf d = .text wGet
                      · simp only [hty, if_true] at hc; exact .inl (quiet _ hc)
                      · simp only [hty, if_false] at hc; exact .inl (quiet _ hc)
                    · simp only [hw, if_false] at hc
                      by_cases hm : k ∈ apis
                      · simp only [hm, if_true] at hc
                        refine .inr ⟨d, upper s, k, argsOf d, rfl, ⟨apis, ⟨s, hs, h0, capitals_iff.2 rfl, hn⟩, hg, ?_, hw, hm⟩, ?_⟩
                        · intro e; rw [e] at ht; simp [Val.truth] at ht
                        · rcases hc with ⟨_, h⟩ | h <;> cases h; rfl
                      · simp only [hm, if_false] at hc; exact .inl (quiet _ hc)

/-- What a subsystem answers is sent, with the tag of the request, and says which system and subsystem it is
from; nothing else is changed.  No answer, no reply. -/
theorem answer_sent (v : Server) (prev : Option (Option Dict)) (d : Dict) (a : Ans) (n k : Str) (h : To v d n k) :
    ∃ o r, turn v prev (.dict d) a = .ret o r ∧
      match a with
      | .nothing => sends r = []
      | .dict [] => sends r = []
      | .dict (x :: y) => ∃ z, sends r = [.reply z] ∧ get z kSystem = systemOf v d ∧ get z kApi = some (.text k) ∧
          get z kTag = (tagOf d).or (get (x :: y) kTag) ∧
          ∀ j, j ≠ kSystem → j ≠ kApi → j ≠ kTag → get z j = get (x :: y) j
      | .raises => ∃ z, sends r = [.reply z] ∧ get z kSystem = systemOf v d ∧ get z kApi = some (.text k) ∧
          get z kTag = tagOf d ∧ get z kError = some apiException := by
  obtain ⟨apis, hf, hk, k0, k1, k2⟩ := h
  have hsys : some ((systemOf v d).getD .null) = systemOf v d := by
    obtain ⟨s, h1, _⟩ := hf; rw [h1]; rfl
  rw [turn_full _ _ _ _ (not_bare hk (by decide)), hk, choose_for v d n apis _ _ _ _ _ hf (by simp [Val.truth, k0])]
  simp only [Option.getD_some, callNode, nodeApi, if_neg k1, if_pos k2]
  refine ⟨_, _, rfl, ?_⟩
  cases a with
  | nothing => rfl
  | raises =>
    obtain ⟨y, h1, h2, h3, h4, h5⟩ := named_some ((systemOf v d).getD .null) (.text k)
      [(kError, apiException), (kException, .text [])] (by simp)
    obtain ⟨z, g1, g2, g3, g4⟩ := tagged_some (tagOf d) y h2
    refine ⟨z, ?_, ?_, ?_, ?_, ?_⟩
    · simp only [answer, h1, g1, g2]
    · rw [g3 _ (by decide), h3, hsys]
    · rw [g3 _ (by decide), h4]
    · rw [g4, h5 _ (by decide) (by decide)]
      cases tagOf d <;> rfl
    · rw [g3 _ (by decide), h5 _ (by decide) (by decide)]; rfl
  | dict x =>
    cases x with
    | nil => rfl
    | cons x y0 =>
      obtain ⟨y, h1, h2, h3, h4, h5⟩ := named_some ((systemOf v d).getD .null) (.text k) (x :: y0) (by simp)
      obtain ⟨z, g1, g2, g3, g4⟩ := tagged_some (tagOf d) y h2
      refine ⟨z, ?_, ?_, ?_, ?_, ?_⟩
      · simp only [answer, h1, g1, g2]
      · rw [g3 _ (by decide), h3, hsys]
      · rw [g3 _ (by decide), h4]
      · rw [g4, h5 _ (by decide) (by decide)]
      · intro j j1 j2 j3
        rw [g3 _ j3, h5 _ j1 j2]

/-- A dictionary with more than a tag which is for no subsystem, and does not end the connection, is answered at
once, with its tag: by an error, or by the list of nodes if that is asked for. -/
theorem answered_at_once (v : Server) (prev : Option (Option Dict)) (d : Dict) (a : Ans) (hb : ¬ Bare d)
    (hn : ∀ n k, ¬ To v d n k) (hf : ¬ Fatal v prev.isNone (.dict d)) :
    ∃ r z, turn v prev (.dict d) a = .ret [] r ∧ sends r = [.reply z] ∧ get z kTag = tagOf d ∧
      ((∃ e, get z kError = some e) ∨
        (get d kApi = some (.text wNode) ∧ typeOf d = .text wGet ∧ get z kNodenames = some v.names)) := by
  simp only [Fatal, not_and, not_or, not_exists] at hf
  have hf := hf hb
  have fin : ∀ y : Dict, y ≠ [] → get y kTag = none → (∃ e, get y kError = some e) ∨
        (get d kApi = some (.text wNode) ∧ typeOf d = .text wGet ∧ get y kNodenames = some v.names) →
      ∃ z, sends (tagged (tagOf d) (some y)) = [.reply z] ∧ get z kTag = tagOf d ∧
      ((∃ e, get z kError = some e) ∨
        (get d kApi = some (.text wNode) ∧ typeOf d = .text wGet ∧ get z kNodenames = some v.names)) := by
    intro y hy ht he
    obtain ⟨z, g1, g2, g3, g4⟩ := tagged_some (tagOf d) y hy
    refine ⟨z, by rw [g1, g2], by rw [g4, ht]; cases tagOf d <;> rfl, ?_⟩
    rw [g3 _ (by decide), g3 _ (by decide)]
    exact he
  rw [turn_full v prev d a hb]
  cases hs : systemOf v d with
  | none =>
    obtain ⟨z, h1, h2⟩ := fin [(kError, noSystem)] (by simp) (by decide) (.inl ⟨noSystem, by decide⟩)
    exact ⟨_, z, rfl, h1, h2⟩
  | some x =>
    cases x with
    | null =>
      obtain ⟨z, h1, h2⟩ := fin [(kError, noSystem)] (by simp) (by decide) (.inl ⟨noSystem, by decide⟩)
      exact ⟨_, z, rfl, h1, h2⟩
    | list n => exact absurd hs (hf.1 n).2
    | other b n =>
      cases b with
      | true => exact absurd hs (hf.1 n).1
      | false =>
        obtain ⟨z, h1, h2⟩ := fin [(kError, noSystem)] (by simp) (by decide) (.inl ⟨noSystem, by decide⟩)
        exact ⟨_, z, rfl, h1, h2⟩
    | text s =>
      simp only [Option.getD_some, choose]
      by_cases h0 : s = []
      · rw [if_pos h0]
        obtain ⟨z, h1, h2⟩ := fin [(kError, noSystem)] (by simp) (by decide) (.inl ⟨noSystem, by decide⟩)
        exact ⟨_, z, rfl, h1, h2⟩
      · rw [if_neg h0]
        cases ht : ((get d kApi).getD .null).truth with
        | false =>
          simp only [Bool.not_false, if_true]
          obtain ⟨z, h1, h2⟩ := fin [(kError, noApi)] (by simp) (by decide) (.inl ⟨noApi, by decide⟩)
          exact ⟨_, z, rfl, h1, h2⟩
        | true =>
          simp only [Bool.not_true, Bool.false_eq_true, if_false]
          cases hv : v.node (upper s) with
          | none =>
            obtain ⟨z, h1, h2⟩ := fin [(kSystem, .text s), (kError, unknownSystem)] (by simp) rfl
              (.inl ⟨unknownSystem, rfl⟩)
            exact ⟨_, z, rfl, h1, h2⟩
          | some apis =>
            have hfor : For v d (upper s) apis := ⟨s, hs, h0, capitals_iff.2 rfl, hv⟩
            cases hg : get d kApi with
            | none => rw [hg] at ht; cases ht
            | some p =>
              rw [hg] at ht
              have more : ∀ y : Dict, y ≠ [] → get y kTag = none → (∃ e, get y kError = some e) ∨
                    (get d kApi = some (.text wNode) ∧ typeOf d = .text wGet ∧ get y kNodenames = some v.names) →
                  ∃ z, sends (tagged (tagOf d) (named (.text s) p (some y))) = [.reply z] ∧ get z kTag = tagOf d ∧
                  ((∃ e, get z kError = some e) ∨
                    (some p = some (.text wNode) ∧ typeOf d = .text wGet ∧ get z kNodenames = some v.names)) := by
                intro y hy ht he
                obtain ⟨w, w1, w2, _, _, w5⟩ := named_some (.text s) p y hy
                rw [w1, ← hg]
                refine fin w w2 (by rw [w5 _ (by decide) (by decide), ht]) ?_
                rw [w5 _ (by decide) (by decide), w5 _ (by decide) (by decide)]
                exact he
              simp only [Option.getD_some, callNode]
              have bad : ∀ p : Val, ∃ e, get [(kError, badApi), (kApi, p)] kError = some e := fun _ => ⟨badApi, rfl⟩
              cases p with
              | null => cases ht
              | list i => exact absurd hg (hf.2 _ apis i hfor)
              | other b i =>
                obtain ⟨z, h1, h2⟩ := more [(kError, badApi), (kApi, .other b i)] (by simp) rfl (.inl (bad _))
                exact ⟨_, z, rfl, h1, h2⟩
              | text k =>
                simp only [nodeApi]
                by_cases hw : k = wNode
                · subst hw
                  rw [if_pos rfl]
                  by_cases hty : typeOf d = .text wGet
                  · rw [if_pos hty]
                    obtain ⟨z, h1, h2⟩ := more [(kNodenames, v.names)] (by simp) rfl (.inr ⟨hg, hty, rfl⟩)
                    exact ⟨_, z, rfl, h1, h2⟩
                  · rw [if_neg hty]
                    obtain ⟨z, h1, h2⟩ := more [(kError, badNodeOp), (kType, typeOf d)] (by simp) rfl
                      (.inl ⟨badNodeOp, rfl⟩)
                    exact ⟨_, z, rfl, h1, h2⟩
                · simp only [hw, if_false]
                  by_cases hm : k ∈ apis
                  · refine absurd ⟨apis, hfor, hg, ?_, hw, hm⟩ (hn (upper s) k)
                    intro e; rw [e] at ht; simp [Val.truth] at ht
                  · simp only [hm, if_false]
                    obtain ⟨z, h1, h2⟩ := more [(kError, badApi), (kApi, .text k)] (by simp) rfl (.inl (bad _))
                    exact ⟨_, z, rfl, h1, h2⟩

/-- A request with only a tag, or nothing, is answered by the list of systems. -/
theorem systems_listed (v : Server) (prev : Option (Option Dict)) (d : Dict) (a : Ans) (hb : Bare d) (hv : v.about ≠ []) :
    ∃ r z, turn v prev (.dict d) a = .ret [] r ∧ sends r = [.reply z] ∧
      get z kTag = (tagOf d).or (get v.about kTag) ∧ ∀ k, k ≠ kTag → get z k = get v.about k := by
  obtain ⟨z, g1, g2, g3, g4⟩ := tagged_some (tagOf d) v.about hv
  exact ⟨_, z, turn_bare v prev d a hb, by rw [g1, g2], g4, g3⟩

/-- A line that cannot be decoded is answered by an error, which has no tag. -/
theorem undecodable (v : Server) (prev : Option (Option Dict)) (a : Ans) :
    ∃ r z, turn v prev .fails a = .ret [] r ∧ sends r = [.reply z] ∧ get z kError = some parseError ∧
      get z kTag = none := ⟨_, _, rfl, rfl, by decide, by decide⟩

/-- Exactly the fatal requests end the handler, whatever the subsystems do. -/
theorem ends_iff (v : Server) (prev : Option (Option Dict)) (q : Req) (a : Ans) :
    (∃ o, turn v prev q a = .raises o) ↔ Fatal v prev.isNone q := by
  constructor
  · rintro ⟨o, h⟩
    refine Classical.byContradiction fun hf => ?_
    cases q with
    | fails => cases h
    | value => exact hf trivial
    | text s =>
      simp only [Fatal, not_or, Classical.not_not] at hf
      simp only [turn, if_pos hf.1] at h
      cases prev with
      | none => exact hf.2 rfl
      | some r => cases h
    | dict d =>
      by_cases hb : Bare d
      · rw [turn_bare v prev d a hb] at h; cases h
      · by_cases hn : ∃ n k, To v d n k
        · obtain ⟨n, k, ht⟩ := hn
          obtain ⟨_, _, h', _⟩ := passed_on v prev d a n k ht
          rw [h'] at h; cases h
        · obtain ⟨_, _, h', _⟩ := answered_at_once v prev d a hb (fun n k ht => hn ⟨n, k, ht⟩) hf
          rw [h'] at h; cases h
  · intro h
    cases q with
    | fails => exact absurd h id
    | value => exact ⟨_, rfl⟩
    | text s =>
      simp only [turn]
      by_cases hs : s = wBad
      · rw [if_pos hs]
        cases prev with
        | none => exact ⟨_, rfl⟩
        | some r => rcases h with h | h; exact absurd hs h; cases h
      · rw [if_neg hs]; exact ⟨_, rfl⟩
    | dict d =>
      obtain ⟨hb, h⟩ := h
      rw [turn_full v prev d a hb]
      rcases h with ⟨n, h | h⟩ | ⟨n, apis, i, h, hk⟩
      · rw [h]; exact ⟨_, rfl⟩
      · rw [h]; exact ⟨_, rfl⟩
      · rw [hk, choose_for v d n apis _ _ _ _ _ h rfl]
        exact ⟨_, rfl⟩

/-! ## Many requests -/

/-- Requests are looked at in order, one after the other, each with at most one reply, sent before the next is
looked at; all of them, unless one ends the handler, and nothing of those after it. -/
theorem in_order (v : Server) (prev : Option (Option Dict)) (qs : List (Req × Ans)) :
    (∀ o ∈ (serve v prev qs).1, (replies o).length ≤ 1) ∧
    ((serve v prev qs).2 = true → (serve v prev qs).1.length = qs.length ∧
      ∀ i, (h : i < qs.length) → ¬ Fatal v (prev.isNone && i == 0) (qs[i]).1) ∧
    ((serve v prev qs).2 = false → ∃ q a rest, qs.drop ((serve v prev qs).1.length - 1) = (q, a) :: rest ∧
      (serve v prev qs).1.length ≠ 0 ∧ Fatal v (prev.isNone && (serve v prev qs).1.length == 1) q) := by
  have hcall : ∀ prev q a o, ((∃ r, turn v prev q a = .ret o r) ∨ turn v prev q a = .raises o) →
      replies o = [] := by
    intro prev q a o h
    rcases called_only v prev q a o h with rfl | ⟨_, _, _, _, _, _, rfl⟩ <;> rfl
  induction qs generalizing prev with
  | nil => simp [serve]
  | cons x qs ih =>
    obtain ⟨q, a⟩ := x
    cases ht : turn v prev q a with
    | raises o =>
      have h0 := hcall prev q a o (.inr ht)
      have hfat := (ends_iff v prev q a).mp ⟨o, ht⟩
      simp only [serve, ht]
      refine ⟨?_, by simp, fun _ => ⟨q, a, qs, rfl, by simp, by simpa using hfat⟩⟩
      intro o' ho'
      rw [List.mem_singleton.mp ho', h0]; simp
    | ret o r =>
      have h0 := hcall prev q a o (.inl ⟨r, ht⟩)
      have hfat : ¬ Fatal v prev.isNone q := by
        intro hf
        obtain ⟨_, h⟩ := (ends_iff v prev q a).mpr hf
        rw [ht] at h; cases h
      obtain ⟨i1, i2, i3⟩ := ih (some r)
      simp only [serve, ht]
      refine ⟨?_, ?_, ?_⟩
      · intro o' ho'
        rcases List.mem_cons.mp ho' with rfl | ho'
        · have : replies (o ++ sends r) = replies o ++ replies (sends r) := List.filterMap_append ..
          rw [this, h0, List.nil_append]
          unfold sends
          split <;> simp [replies]
        · exact i1 o' ho'
      · intro he
        obtain ⟨j1, j2⟩ := i2 he
        refine ⟨by simp [j1], ?_⟩
        intro i hi
        cases i with
        | zero => simpa using hfat
        | succ i =>
          have := j2 i (by simpa using hi)
          simpa using this
      · intro he
        obtain ⟨q', a', rest, j1, j2, j3⟩ := i3 he
        refine ⟨q', a', rest, ?_, by simp, ?_⟩
        · have : ((o ++ sends r) :: (serve v (some r) qs).1).length - 1 = ((serve v (some r) qs).1.length - 1) + 1 := by
            simp only [List.length_cons]; omega
          rw [this, List.drop_succ_cons, j1]
        · have e : ((serve v (some r) qs).1.length + 1 == 1) = false := by simp; exact fun h => j2 (by simp [h])
          simp only [List.length_cons, e, Bool.and_false]
          simpa using j3

/-- However the connection ends, each node is told once, after everything else. -/
theorem nodes_told (v : Server) (qs : List (Req × Ans)) (hn : (v.nodes.map (·.1)).Nodup) :
    ∃ before after, session v qs = before ++ after ∧ (∀ n, .ended n ∉ before) ∧ (∀ x ∈ after, ∃ n, x = .ended n) ∧
      ∀ n ∈ v.nodes.map (·.1), after.count (.ended n) = 1 := by
  refine ⟨_, _, rfl, ?_, ?_, ?_⟩
  · intro n
    have : ∀ prev, .ended n ∉ (serve v prev qs).1.flatten := by
      induction qs with
      | nil => simp [serve]
      | cons x qs ih =>
        obtain ⟨q, a⟩ := x
        intro prev hm
        cases ht : turn v prev q a with
        | raises o =>
          simp only [serve, ht, List.flatten_cons, List.flatten_nil, List.append_nil] at hm
          rcases called_only v prev q a o (.inr ht) with rfl | ⟨_, _, _, _, _, _, rfl⟩ <;> simp at hm
        | ret o r =>
          simp only [serve, ht, List.flatten_cons, List.mem_append] at hm
          rcases hm with (hm | hm) | hm
          · rcases called_only v prev q a o (.inl ⟨r, ht⟩) with rfl | ⟨_, _, _, _, _, _, rfl⟩ <;> simp at hm
          · unfold sends at hm
            split at hm <;> simp at hm
          · exact ih (some r) hm
    exact this none
  · intro x hx
    obtain ⟨n, _, rfl⟩ := List.mem_map.mp hx
    exact ⟨_, rfl⟩
  · intro n hm
    have e : (v.nodes.map fun n => Out.ended n.1) = (v.nodes.map (·.1)).map Out.ended := by simp
    rw [e]
    generalize v.nodes.map (·.1) = l at hn hm
    induction l with
    | nil => cases hm
    | cons y l ih =>
      rw [List.nodup_cons] at hn
      rw [List.map_cons, List.count_cons]
      by_cases h : n = y
      · subst h
        have : (l.map Out.ended).count (.ended n) = 0 := by
          rw [List.count_eq_zero]; simpa using hn.1
        simp [this]
      · have hm' : n ∈ l := by simpa [h] using hm
        rw [ih hn.2 hm']
        simp [Ne.symm h]

/-! ## What goes wrong -/

/-- The JSON text "bad" repeats the reply to the request before it, tag and all. -/
theorem bad_repeats (v : Server) (r : Option Dict) (a : Ans) :
    ∃ r', turn v (some r) (.text wBad) a = .ret [] r' ∧ sends r' = sends r := ⟨r, by simp [turn], rfl⟩

/-- A request that cannot be a request, such as a number, ends the connection and loses the requests after it. -/
theorem value_ends (v : Server) (prev : Option (Option Dict)) (a : Ans) (qs : List (Req × Ans)) :
    serve v prev ((.value, a) :: qs) = ([[]], false) := rfl

/-! ## Examples -/

/-- A request in two pieces, one more, and an empty line. -/
example : requests [] [[123], [125, 10, 123], [125, 10, 10], [123, 125, 10]] = [[123, 125], [123, 125]] := by
  rw [requests_are_lines _ (by decide)]; decide

/-- One node `A` with a subsystem `r`. -/
def one : Server := ⟨[([65], [[114]])], [([65], .null)], .null⟩

example : To one [(kTag, .other true 7), (kApi, .text [114])] [65] [114] :=
  ⟨[[114]], ⟨[65], by decide, by decide, capitals_iff.2 (by decide), by decide⟩, by decide, by decide, by decide, by decide⟩

/-- Request 7 for subsystem `r`, answered; then one for a system that is not there. -/
example : session one
      [(.dict [(kTag, .other true 7), (kApi, .text [114])], .dict [([120], .null)]),
       (.dict [(kApi, .text [114]), (kSystem, .text [66])], .nothing)]
    = [.call [65] [114] (.text wGet) (some (.other true 7)) [],
        .reply [(kTag, .other true 7), (kApi, .text [114]), (kSystem, .text [65]), ([120], .null)],
        .reply [(kSystem, .text [66]), (kError, unknownSystem)], .ended [65]] := by
  decide

/-- The reply repeated by the text "bad"; then a list as interface ends the connection. -/
example : session one
      [(.dict [(kTag, .other true 7)], .nothing), (.text wBad, .nothing), (.dict [(kApi, .list 0)], .nothing),
       (.dict [], .nothing)]
    = [.reply [(kTag, .other true 7), ([65], .null)], .reply [(kTag, .other true 7), ([65], .null)],
        .ended [65]] := by
  decide

end Verif.ApiSock
