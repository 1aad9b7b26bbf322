import Verif.Ncp.Tables

/-!
# SHOW, LIST and LOOP: what is sent is what was said
-/

namespace Verif.Ncp

open Verif.Nml (Bytes Ent Value PVal NameB NodeB AreaB Pars LoopPar CircPar NodeQual CircQual ModQual text two Req ReqB)

/-- Whatever SHOW or LIST sends, the tokens are a phrase, and the message is what the phrase says: the entity, the kind
of information and the last value given for each qualifier. -/
theorem show_sound {perm : Bool} {toks : List Str} {b : Bytes} (hs : [] ∉ toks) (h : showReq perm toks = .ok b) :
    ∃ t e qs i ps, ShowPhrase toks t e qs i ∧ Settled qs ps ∧ ShowB perm i t e ps b := by
  unfold showReq at h
  cases toks with
  | nil => cases h
  | cons tok r0 =>
    simp only at h
    split at h
    · cases h
    · cases hg : getent edict (tok :: r0) with
      | error x => rw [hg] at h; cases h
      | ok y =>
        obtain ⟨⟨t, e⟩, rest⟩ := y
        rw [hg] at h
        simp only at h
        obtain ⟨a, ha, htoks⟩ := getent_edict.1 hg
        rw [htoks] at hs ⊢
        rw [List.mem_append, not_or] at hs
        cases hqr : quals t (firstInfo rest).2 with
        | error x => rw [hqr] at h; cases h
        | ok y =>
          obtain ⟨acc, rest2⟩ := y
          rw [hqr] at h
          simp only at h
          cases hl : lastInfo (firstInfo rest).1 rest2 with
          | error x => rw [hl] at h; cases h
          | ok i =>
            rw [hl] at h
            simp only at h
            -- the qualifiers
            have hquals : ∀ l, quals t l = .ok (acc, rest2) →
                ∃ c, ParsPhrase (showSyntax t) c acc ∧ l = c ++ rest2 ∧ (l = [] ∨ l ≠ []) := by
              intro l hl
              unfold quals at hl
              split at hl
              · rename_i hnil
                cases hl
                exact ⟨[], .nil, by rw [hnil]; rfl, .inl hnil⟩
              · rename_i hnil
                cases hrr : readRows t with
                | none => rw [hrr] at hl; cases hl
                | some rows =>
                  rw [hrr] at hl
                  simp only at hl
                  obtain ⟨c, qs, h1, h2, h3, -⟩ := parse_sound true (readtree_is hrr) _ _ _ _ _ (Nat.le_refl _) hl
                  rw [List.nil_append] at h3
                  subst h3
                  exact ⟨c, h1, h2, .inr hnil⟩
            obtain ⟨c, hc1, hc2, -⟩ := hquals _ hqr
            have finish : [] ∉ c → ShowPhrase (a ++ rest) t e acc i → _ := fun hc hp =>
              (show ∃ t e qs i ps, ShowPhrase (a ++ rest) t e qs i ∧ Settled qs ps ∧ ShowB perm i t e ps b from by
                obtain ⟨ps, h1, h2⟩ := show_sent ha hc1 hs.1 hc h
                exact ⟨t, e, acc, i, ps, hp, h1, h2⟩)
            cases rest with
            | nil =>
              simp only [firstInfo] at hc2 hl
              obtain ⟨rfl, rfl⟩ : c = [] ∧ rest2 = [] := by simpa using hc2.symm
              simp only [lastInfo, Option.getD_some, Except.ok.injEq] at hl
              subst hl
              exact finish (by simp) (.plain a [] t e acc ha hc1)
            | cons x r =>
              simp only [firstInfo] at hc2 hl
              cases hx : info.get x with
              | some j =>
                rw [hx] at hc2 hl
                simp only at hc2 hl
                obtain ⟨w, hw, hab⟩ := info_get.1 hx
                cases rest2 with
                | cons y r2 => simp [lastInfo] at hl
                | nil =>
                  simp only [lastInfo, Option.getD_some, Except.ok.injEq] at hl
                  subst hl
                  rw [List.append_nil] at hc2
                  subst hc2
                  exact finish (fun h => hs.2 (List.mem_cons_of_mem _ h)) (.before a x w j r t e acc ha hw hab hc1)
              | none =>
                rw [hx] at hc2 hl
                simp only at hc2 hl
                rw [hc2] at hs finish ⊢
                rw [List.mem_append, not_or] at hs
                refine finish hs.2.1 ?_
                cases rest2 with
                | nil =>
                  simp only [lastInfo, Option.getD_none, Except.ok.injEq] at hl
                  subst hl
                  rw [List.append_nil]
                  exact .plain a c t e acc ha hc1
                | cons y r2 =>
                  simp only [lastInfo, Option.isSome_none, Bool.false_eq_true, if_false] at hl
                  split at hl
                  · cases hl
                  · rename_i hr2
                    have hr2 : r2 = [] := Decidable.not_not.1 hr2
                    subst hr2
                    cases hy : info.get y with
                    | none => rw [hy] at hl; cases hl
                    | some j =>
                      rw [hy] at hl
                      cases hl
                      obtain ⟨w, hw, hab⟩ := info_get.1 hy
                      exact .after a c y w _ t e acc ha hw hab hc1

/-- A command means one thing. -/
theorem show_one_meaning {toks : List Str} {t i t' i' : Nat} {e e' : Ent} {qs qs' : Sets}
    (h : ShowPhrase toks t e qs i) (h' : ShowPhrase toks t' e' qs' i') : t = t' ∧ e = e' ∧ qs = qs' ∧ i = i' := by
  obtain ⟨a, c, rest, rest2, h1, h2, -, -, h5, h6⟩ := show_parts h
  obtain ⟨a', c', rest', rest2', h1', h2', -, -, h5', h6'⟩ := show_parts h'
  have hg := getent_edict.2 ⟨a, h2, h1⟩
  have hg' := getent_edict.2 ⟨a', h2', h1'⟩
  rw [hg] at hg'
  cases hg'
  rw [h5] at h5'
  cases h5'
  rw [h6] at h6'
  cases h6'
  exact ⟨rfl, rfl, rfl, rfl⟩

/-- Every phrase that can be put into a message is sent as such. -/
theorem show_complete {perm : Bool} {toks : List Str} {t i : Nat} {e : Ent} {qs : Sets} (hs : [] ∉ toks)
    (h : ShowPhrase toks t e qs i) (hf : Fits (EntB t) (QualB t) e qs) :
    ∃ b ps, showReq perm toks = .ok b ∧ Settled qs ps ∧ ShowB perm i t e ps b := by
  have henc : ∃ b, encode 20 (t + 16 * i + if perm then 128 else 0) t e ((readRows t).getD []) qs = .ok b := by
    obtain ⟨⟨d, hd⟩, hv⟩ := hf
    obtain ⟨x, hx⟩ := encEnt_ok hd
    have : ∃ p, encNice ((readRows t).getD []) qs = some p := by
      cases hr : readRows t with
      | none => exact ⟨[], rfl⟩
      | some rows =>
        refine encNice_ok fun r hm v hmv => ?_
        obtain ⟨d, hd⟩ := hv _ _ hmv
        exact qual_ok hr hm hd
    obtain ⟨p, hp⟩ := this
    unfold encode
    rw [hx, hp]
    exact ⟨_, rfl⟩
  obtain ⟨b, hb⟩ := henc
  obtain ⟨a, c, rest, rest2, rfl, ha, hq, hc, h1, h2⟩ := show_parts h
  obtain ⟨ps, h3, h4⟩ := show_sent ha hq (fun h => hs (List.mem_append_left _ h))
    (fun h => hs (List.mem_append_right _ (hc _ h))) hb
  refine ⟨b, ps, ?_, h3, h4⟩
  obtain ⟨tok, r, rfl, hsys⟩ := sysspecific_not ha
  have hg := (getent_edict (rest := rest)).2 ⟨tok :: r, ha, rfl⟩
  unfold showReq
  simp only [List.cons_append] at hg ⊢
  rw [hsys, hg]
  simp only [Bool.false_eq_true, if_false, h1, h2, hb]

/-- The listener takes the message for what was asked. -/
theorem show_heard {perm : Bool} {i t : Nat} {e : Ent} {ps : List (Nat × PVal)} {b : Bytes} (ht : t ≤ 5) (hi : i ≤ 7)
    (h : ShowB perm i t e ps b) : Nml.parse b = .ok (.read t i perm e) := by
  obtain ⟨d, p, h1, h2, rfl⟩ := h
  rw [Nml.parse_iff (by simp)]
  generalize ho : UInt8.ofNat (t + 16 * i + if perm then 128 else 0) = o
  have hn : o.toNat = t + 16 * i + if perm then 128 else 0 := by
    rw [← ho, UInt8.toNat_ofNat']
    split <;> omega
  have h8 : o.toNat % 8 = t := by rw [hn]; split <;> omega
  have h16 : o.toNat / 16 % 8 = i := by rw [hn]; split <;> omega
  have hp : decide (128 ≤ o.toNat) = perm := by
    rw [hn]
    cases perm
    · simp; omega
    · simp
  rw [← h16, ← hp]
  rcases (by omega : t = 0 ∨ t = 1 ∨ t = 2 ∨ t = 3 ∨ t = 4 ∨ t = 5) with rfl | rfl | rfl | rfl | rfl | rfl
  · exact .readNode o e ps _ h8 ⟨d, p, h1, h2, rfl⟩
  · exact .readLine o e d p h8 h1
  · exact .readLogging o e d p h8 h1
  · exact .readCircuit o e ps _ h8 ⟨d, p, h1, h2, rfl⟩
  · exact .readModule o e ps _ h8 ⟨d, p, h1, h2, rfl⟩
  · exact .readArea o e d p h8 h1

/-- From the command to the listener: what it hears is the entity and the kind of information of the phrase. -/
theorem show_to_listener {perm : Bool} {toks : List Str} {b : Bytes} (hs : [] ∉ toks) (h : showReq perm toks = .ok b) :
    ∃ t e qs i, ShowPhrase toks t e qs i ∧ Nml.parse b = .ok (.read t i perm e) := by
  obtain ⟨t, e, qs, i, ps, h1, -, h3⟩ := show_sound hs h
  obtain ⟨ht, hi⟩ := phrase_le h1
  exact ⟨t, e, qs, i, h1, show_heard ht (by omega) h3⟩

/-! ## LOOP -/

/-- Whatever LOOP sends, the tokens are an entity and parameters, and the message has the entity and the last value
given for each parameter of the test. -/
theorem loop_sound {toks : List Str} {b : Bytes} (hs : [] ∉ toks) (h : loopReq toks = .ok b) :
    ∃ t e qs a c ps, toks = a ++ c ∧ LoopEnt a t e ∧ ParsPhrase (loopSyntax t) c qs ∧ Settled qs ps ∧
      LoopMsgB t e ps b := by
  unfold loopReq at h
  cases hg : getent loopedict toks with
  | error x => rw [hg] at h; cases h
  | ok y =>
    obtain ⟨⟨t, e⟩, rest⟩ := y
    rw [hg] at h
    simp only at h
    obtain ⟨a, ha, rfl⟩ := getent_loop.1 hg
    cases hp : parseargs false (loopindex t).2 (loopindex t).2 true rest [] with
    | error x => rw [hp] at h; cases h
    | ok y =>
      obtain ⟨acc, r⟩ := y
      rw [hp] at h
      simp only at h
      obtain ⟨c, qs, h1, h2, h3, h4⟩ :=
        parse_sound false (loopindex_is t (loop_class ha)) _ _ _ _ _ (Nat.le_refl _) hp
      rw [List.nil_append] at h3
      subst h3
      have hr : r = [] := by
        rcases h4 with h4 | ⟨hf, -⟩
        · exact h4
        · cases hf
      subst hr
      rw [List.append_nil] at h2
      subst h2
      obtain ⟨ps, h5, h6⟩ := loop_sent ha h1 (fun h => hs (List.mem_append_left _ h)) h
      exact ⟨t, e, acc, a, rest, ps, rfl, ha, h1, h5, h6⟩

/-- And every such command with values that have a format is sent. -/
theorem loop_complete {t : Nat} {e : Ent} {qs : Sets} {a c : List Str} (hs : [] ∉ a ++ c) (ha : LoopEnt a t e)
    (hq : ParsPhrase (loopSyntax t) c qs) (hf : Fits (EntB t) (LoopB t) e qs) :
    ∃ b ps, loopReq (a ++ c) = .ok b ∧ Settled qs ps ∧ LoopMsgB t e ps b := by
  obtain ⟨⟨d, hd⟩, hv⟩ := hf
  obtain ⟨x, hx⟩ := encEnt_ok hd
  have : ∃ p, encNice (loopindex t).1 qs = some p := by
    refine encNice_ok fun r hm v hmv => ?_
    obtain ⟨d, hd⟩ := hv _ _ hmv
    rcases loop_class ha with rfl | rfl | rfl
    · exact loopPar_ok hm hd
    · exact loopPar_ok hm hd
    · exact circPar_ok hm hd
  obtain ⟨p, hp⟩ := this
  have hb : encode 18 t t e (loopindex t).1 qs = .ok (UInt8.ofNat 18 :: UInt8.ofNat t :: (x ++ p)) := by
    unfold encode
    rw [hx, hp]
  obtain ⟨ps, h5, h6⟩ := loop_sent ha hq (fun h => hs (List.mem_append_left _ h)) hb
  refine ⟨_, ps, ?_, h5, h6⟩
  unfold loopReq
  rw [getent_loop.2 ⟨a, ha, rfl⟩]
  simp only
  have := parse_phrases false (loopindex_is t (loop_class ha)) hq [] []
  rw [List.append_nil] at this
  rw [this, parseargs]
  simp only [if_true, List.nil_append]
  exact hb

/-- The listener hears the entity and the parameters, but never access control information. -/
theorem loop_heard {t : Nat} {e : Ent} {ps : List (Nat × PVal)} {b : Bytes} (h : LoopMsgB t e ps b) :
    (t = 0 → Nml.parse b = .ok (.loopNode e [] [] [] ps)) ∧ (t = 1 → Nml.parse b = .ok .loopLine) ∧
      (t = 3 → Nml.parse b = .ok (.loopCircuit e ps)) := by
  obtain ⟨d, p, h1, h2, rfl⟩ := h
  refine ⟨?_, ?_, ?_⟩ <;> rintro rfl
  · exact (Nml.parse_iff (by simp)).2 (.loopNode _ e ps _ (by decide) (by decide) ⟨d, p, h1, h2, rfl⟩)
  · exact (Nml.parse_iff (by simp)).2 (.loopLine _ e ps _ (by decide) ⟨d, p, h1, h2, rfl⟩)
  · exact (Nml.parse_iff (by simp)).2 (.loopCircuit _ e ps _ (by decide) ⟨d, p, h1, h2, rfl⟩)

/-- LOOP NODE with a user and a password: the listener is told of neither. -/
theorem loop_node_no_access {toks : List Str} {b : Bytes} (hs : [] ∉ toks) (h : loopReq toks = .ok b) :
    ∀ e u p a ps, Nml.parse b = .ok (.loopNode e u p a ps) → u = [] ∧ p = [] ∧ a = [] := by
  obtain ⟨t, e, qs, a, c, ps, -, ha, -, -, hm⟩ := loop_sound hs h
  intro e' u p a ps' hp
  obtain ⟨h0, h1, h3⟩ := loop_heard hm
  rcases loop_class ha with rfl | rfl | rfl
  · rw [h0 rfl] at hp
    cases hp
    exact ⟨rfl, rfl, rfl⟩
  · rw [h1 rfl] at hp; cases hp
  · rw [h3 rfl] at hp; cases hp

/-! ## Cases -/

/-- `SHOW KNOWN CIRCUITS STATUS ADJACENT NODE 1.5`, in small letters, cut short, and with the parts the other way round. -/
example : (showReq false [k!"kno", k!"cir", k!"sta", k!"adj", k!"nod", k!"1.5"]).toOption =
    some [20, 19, 255, 32, 3, 0, 5, 4] := by decide +kernel

example : (showReq false [k!"KNOWN", k!"CIRCUITS", k!"ADJACENT", k!"NODE", k!"1.5", k!"STATUS"]).toOption =
    some [20, 19, 255, 32, 3, 0, 5, 4] := by decide +kernel

example : Nml.parse [20, 19, 255, 32, 3, 0, 5, 4] = .ok (.read 3 1 false ⟨-1, .none⟩) :=
  show_heard (ps := [(800, .ent ⟨0, .num 1029⟩)]) (by omega) (by omega)
    ⟨[255], [32, 3, 0, 5, 4], .several 255 (by decide),
      .cons 32 3 _ [0, 5, 4] [] [] (by decide) (.adjacent _ _ (.address 5 4)) .nil, rfl⟩

/-- `LIST NODE PYTHON CIRCUIT a CIRCUIT b CHARACTERISTICS`: the last one counts. -/
example : (showReq true [k!"node", k!"python", k!"circuit", k!"a", k!"circuit", k!"b", k!"char"]).toOption =
    some [20, 160, 6, 80, 89, 84, 72, 79, 78, 245, 1, 1, 98] := by decide +kernel

/-- A name of three letters is a keyword, two are not. -/
example : (showReq false [k!"executor"]).toOption = some [20, 0, 0, 0, 0] ∧
    (showReq false [k!"exe"]).toOption = some [20, 0, 0, 0, 0] ∧ (showReq false [k!"ex"]).toOption = none := by
  decide +kernel

/-- Access control information has no effect on what is sent. -/
example : (loopReq [k!"node", k!"python", k!"user", k!"me", k!"password", k!"secret", k!"count", k!"5"]).toOption =
      some [18, 0, 6, 80, 89, 84, 72, 79, 78, 150, 0, 5, 0] ∧
    (loopReq [k!"node", k!"python", k!"count", k!"5"]).toOption =
      some [18, 0, 6, 80, 89, 84, 72, 79, 78, 150, 0, 5, 0] := by decide +kernel

/-- `LOOP CIRCUIT eth-0 WITH ONES PHYSICAL ADDRESS aa-0-4-0-5-4 HELP FULL`. -/
example : (loopReq [k!"cir", k!"eth-0", k!"with", k!"ones", k!"physical", k!"address", k!"aa-0-4-0-5-4", k!"hel",
      k!"ful"]).toOption =
    some [18, 3, 5, 69, 84, 72, 45, 48, 10, 0, 6, 170, 0, 4, 0, 5, 4, 152, 0, 1, 154, 0, 2] := by decide +kernel

end Verif.Ncp
