import Verif.Ncp.SessLemmas

/-!
# Commands from a state in which nothing is left over
-/

namespace Verif.Ncp

open Verif.Nml (Bytes PVal)

/-! ## Words -/

/-- The table behind `cmd`. -/
def cmdTable : List (Str × (Verb × Bool)) :=
  [(k!"tell", (.tell, false)), (k!"set", (.set, false)), (k!"define", (.set, true)), (k!"show", (.look, false)),
    (k!"list", (.look, true)), (k!"clear", (.clear, false)), (k!"purge", (.clear, true)), (k!"loop", (.loop, false)),
    (k!"zero", (.zero, false))]

theorem cmd_get {tok : Str} {x : Verb × Bool} : cmd.get tok = some x ↔ ∃ w, (w, x) ∈ cmdTable ∧ Abbr tok w :=
  get_ofList (l := cmdTable) (by decide)

theorem cmd_word {tok w : Str} {x : Verb × Bool} (h : (w, x) ∈ cmdTable)
    (hu : ∀ p ∈ cmdTable, p.2 = x → p.1 = w) : Abbr tok w ↔ cmd.get tok = some x := by
  rw [cmd_get]
  constructor
  · intro h'; exact ⟨w, h, h'⟩
  · rintro ⟨w', hm, ha⟩
    rw [← hu _ hm rfl]; exact ha

theorem is_tell {tok : Str} : Abbr tok k!"tell" ↔ cmd.get tok = some (.tell, false) := cmd_word (by decide) (by decide)
theorem is_set {tok : Str} : Abbr tok k!"set" ↔ cmd.get tok = some (.set, false) := cmd_word (by decide) (by decide)
theorem is_show {tok : Str} : Abbr tok k!"show" ↔ cmd.get tok = some (.look, false) := cmd_word (by decide) (by decide)
theorem is_list {tok : Str} : Abbr tok k!"list" ↔ cmd.get tok = some (.look, true) := cmd_word (by decide) (by decide)
theorem is_clear {tok : Str} : Abbr tok k!"clear" ↔ cmd.get tok = some (.clear, false) := cmd_word (by decide) (by decide)
theorem is_loop {tok : Str} : Abbr tok k!"loop" ↔ cmd.get tok = some (.loop, false) := cmd_word (by decide) (by decide)

theorem known_iff {tok : Str} : Known tok ↔ ∃ x, cmd.get tok = some x := by
  unfold Known
  constructor
  · rintro ⟨w, hw, ha⟩
    have : ∃ x, (w, x) ∈ cmdTable := by
      have key : ∀ w ∈ verbs, ∃ p ∈ cmdTable, p.1 = w := by decide
      obtain ⟨p, hp, rfl⟩ := key w hw
      exact ⟨p.2, hp⟩
    obtain ⟨x, hx⟩ := this
    exact ⟨x, cmd_get.2 ⟨w, hx, ha⟩⟩
  · rintro ⟨x, hx⟩
    obtain ⟨w, hw, ha⟩ := cmd_get.1 hx
    have key : ∀ p ∈ cmdTable, p.1 ∈ verbs := by decide
    exact ⟨w, key _ hw, ha⟩

theorem exec_iff {rest : List Str} : Exec rest ↔ i3eq rest execNode = true := by
  unfold Exec i3eq execNode
  match rest with
  | [] => simp
  | [a] => simp
  | a :: b :: more =>
    simp only [List.length_cons, List.length_nil, List.zip_cons_cons, List.zip_nil_right, List.all_cons, List.all_nil,
      Bool.and_true]
    rw [if_neg (by omega)]
    simp [i3eq1, List.isPrefixOf_iff_prefix]

theorem accessOf_given (qs : Sets) : accessOf qs = given qs := by
  have : ∀ f, attr qs f = lastFld qs f := by
    intro f
    unfold attr lastFld
    rw [List.getLast?_eq_head?_reverse, ← List.filter_reverse, List.head?_filter]
    congr 1
  simp [accessOf, given, this]

/-! ## Requests -/

theorem ask_show {env : Env} (hg : Good env) {s : St} {x : Option Conn} (hi : Idle s x) (req : Bytes) {k : Consumer}
    {f : List Bytes → List Bytes} (hk : (k = showK env ∧ f = untilError) ∨ (k = loopK env ∧ f = id)) :
    ∃ ans l s', reqresp env k req s = (.ok (), s') ∧ Idle s' x ∧ s'.opened = s.opened ∧ Body (nodeOf x) ans l ∧
      s'.log = s.log ++ .ask (nodeOf x) req ans :: screen (f l) := by
  obtain ⟨h1, h2, h3, h4, h5, h6⟩ := hi
  have hold : ∀ h ∈ s.opened, h ≤ s.tick + 1 := fun h hh => by have := h6 h hh; omega
  have hshow : Shows k := by
    intro r s hr
    rcases hk with ⟨rfl, rfl⟩ | ⟨rfl, rfl⟩
    · exact ⟨_, showK_run hg.bad r hr s, fun h => by simpa using h⟩
    · exact ⟨_, loopK_run hg.bad r hr s, fun _ => rfl⟩
  cases x with
  | some c =>
    obtain ⟨l, hl⟩ := hg.answer s.tick c req
    refine ⟨_, l, _, ask_node hshow h1 h2 (h5 c rfl) h4 hl, ⟨h1, h2, h3, h4, h5, hold⟩, rfl, hl, ?_⟩
    have : f l = l := by
      rcases hk with ⟨-, rfl⟩ | ⟨-, rfl⟩
      · exact untilError_body hl
      · rfl
    rw [this]; rfl
  | none =>
    have hl := hg.loc s.tick req
    have hf : f [] = [] := by rcases hk with ⟨-, rfl⟩ | ⟨-, rfl⟩ <;> rfl
    refine ⟨_, env.loc s.tick req, _, ask_local hf ?_ h1 h2 hl, ⟨h1, h2, h3, h4, h5, hold⟩, rfl, .loc _ hl, rfl⟩
    intro r s hr
    rcases hk with ⟨rfl, rfl⟩ | ⟨rfl, rfl⟩
    · refine ⟨_, showK_run hg.bad r hr s, fun l => ?_⟩
      rw [untilError]
      by_cases h : 128 ≤ (r.headD 0).toNat
      · rw [if_pos h, if_neg (by simp; simpa using h)]
      · rw [if_neg h, if_pos (by simp; simpa using h)]
    · exact ⟨_, loopK_run hg.bad r hr s, fun l => rfl⟩

/-- A command other than TELL and those about the executor node. -/
theorem act_run {env : Env} (hg : Good env) {s : St} {x : Option Conn} (hi : Idle s x) {tok : Str} {a : Verb}
    {perm : Bool} (hc : cmd.get tok = some (a, perm)) (rest : List Str) (ht : a ≠ .tell)
    (he : ¬ (perm = false ∧ (a = .set ∨ a = .clear) ∧ Exec rest)) :
    ∃ r s', act env a perm rest s = (r, s') ∧ r ≠ .error .hang ∧ Idle s' x ∧ s'.opened = s.opened ∧
      ((∃ req f ans l, Asks (tok :: rest) req f ∧ Body (nodeOf x) ans l ∧
          s'.log = s.log ++ .ask (nodeOf x) req ans :: screen (f l)) ∨
        (s'.log = s.log ∧ ∀ req f, ¬ Asks (tok :: rest) req f)) := by
  have none_ : (a = .look → False) → (a = .loop → False) → ∀ req f, ¬ Asks (tok :: rest) req f := by
    intro h1 h2 req f h
    cases h with
    | look _ _ _ h _ => rw [is_show, hc] at h; cases h; exact h1 rfl
    | list _ _ _ h _ => rw [is_list, hc] at h; cases h; exact h1 rfl
    | loop _ _ _ h _ => rw [is_loop, hc] at h; cases h; exact h2 rfl
  cases a with
  | tell => exact absurd rfl ht
  | set =>
    refine ⟨.error (.parse .nyi), s, ?_, by simp, hi, rfl, .inr ⟨rfl, none_ (by simp) (by simp)⟩⟩
    simp only [act, doset]
    rw [if_neg]
    · rfl
    · simp only [Bool.and_eq_true, Bool.not_eq_true', not_and]
      intro h1 h2
      exact he ⟨h1, .inl rfl, exec_iff.2 h2⟩
  | clear =>
    refine ⟨.error (.parse .nyi), s, ?_, by simp, hi, rfl, .inr ⟨rfl, none_ (by simp) (by simp)⟩⟩
    simp only [act, doclear]
    rw [if_neg]
    · rfl
    · simp only [Bool.and_eq_true, Bool.not_eq_true', not_and]
      intro h1 h2
      exact he ⟨h1, .inr rfl, exec_iff.2 h2⟩
  | zero => exact ⟨.error (.parse .nyi), s, rfl, by simp, hi, rfl, .inr ⟨rfl, none_ (by simp) (by simp)⟩⟩
  | look =>
    simp only [act, doshow]
    rw [bind_ok (state_run s), if_neg (by have := hi.version; omega)]
    cases hq : showReq perm rest with
    | error e =>
      refine ⟨.error (.parse e), s, rfl, by simp, hi, rfl, .inr ⟨rfl, ?_⟩⟩
      intro req f h
      cases h with
      | look _ _ _ h h' => rw [is_show, hc] at h; cases h; rw [hq] at h'; cases h'
      | list _ _ _ h h' => rw [is_list, hc] at h; cases h; rw [hq] at h'; cases h'
      | loop _ _ _ h _ => rw [is_loop, hc] at h; cases h
    | ok req =>
      obtain ⟨ans, l, s', h1, h2, h3, h4, h5⟩ := ask_show hg hi req (.inl ⟨rfl, rfl⟩)
      refine ⟨_, s', (bind_ok (a := req) (s' := s) rfl _).trans h1, by simp, h2, h3, .inl ⟨req, _, ans, l, ?_, h4, h5⟩⟩
      cases perm
      · exact .look _ _ _ (is_show.2 hc) hq
      · exact .list _ _ _ (is_list.2 hc) hq
  | loop =>
    simp only [act, doloop]
    have hp : perm = false := by
      obtain ⟨w, hw, -⟩ := cmd_get.1 hc
      have key : ∀ p ∈ cmdTable, p.2.1 = .loop → p.2.2 = false := by decide
      exact key _ hw rfl
    subst hp
    cases hq : loopReq rest with
    | error e =>
      refine ⟨.error (.parse e), s, rfl, by simp, hi, rfl, .inr ⟨rfl, ?_⟩⟩
      intro req f h
      cases h with
      | look _ _ _ h h' => rw [is_show, hc] at h; cases h
      | list _ _ _ h h' => rw [is_list, hc] at h; cases h
      | loop _ _ _ h h' => rw [hq] at h'; cases h'
    | ok req =>
      obtain ⟨ans, l, s', h1, h2, h3, h4, h5⟩ := ask_show hg hi req (.inr ⟨rfl, rfl⟩)
      exact ⟨_, s', (bind_ok (a := req) (s' := s) rfl _).trans h1, by simp, h2, h3,
        .inl ⟨req, _, ans, l, .loop _ _ _ (is_loop.2 hc) hq, h4, h5⟩⟩

/-! ## The executor node -/

theorem access_phrase {more : List Str} {acc : Sets} {rest : List Str}
    (h : parseargs false accessparams accessparams true more [] = .ok (acc, rest)) : ParsPhrase accessSyntax more acc := by
  obtain ⟨c, qs, h1, h2, h3, h4⟩ := parse_sound false access_is _ _ _ _ _ (Nat.le_refl _) h
  rcases h4 with rfl | ⟨hf, -⟩
  · rw [List.append_nil] at h2
    rw [List.nil_append] at h3
    subst h2; subst h3; exact h1
  · cases hf

theorem phrase_access {more : List Str} {acc : Sets} (h : ParsPhrase accessSyntax more acc) :
    parseargs false accessparams accessparams true more [] = .ok (acc, []) := by
  have := parse_phrases false access_is h [] []
  rw [List.append_nil] at this
  rw [this, parseargs]
  rfl

theorem set_run {env : Env} (hg : Good env) {s : St} {x : Option Conn} (hi : Idle s x) {tok : Str} {rest : List Str}
    (ht : Abbr tok k!"set") (he : Exec rest) :
    ∃ r s' y e, doset env false rest s = (r, s') ∧ r ≠ .error .hang ∧ Idle s' y ∧ s'.log = s.log ++ e ∧
      Does (nodeOf x) (tok :: rest) e (nodeOf y) := by
  have hrun : doset env false rest = attempt (setExec env rest) (doconnect env none) := by
    unfold doset
    rw [if_pos (by simp [exec_iff.1 he])]
  rw [hrun]
  -- the way back
  have back : ∀ e, e ≠ .hang → (∀ d acc, ¬ SetsExec (tok :: rest) d acc) → setExec env rest s = (.error e, s) →
      ∃ r s' y e, attempt (setExec env rest) (doconnect env none) s = (r, s') ∧ r ≠ .error .hang ∧ Idle s' y ∧
        s'.log = s.log ++ e ∧ Does (nodeOf x) (tok :: rest) e (nodeOf y) := by
    intro e hne hno hs
    obtain ⟨s', h1, h2, h3⟩ := doconnect_none env hi
    refine ⟨.ok (), s', none, _, ?_, by simp, h2, h3, .setWrong _ _ ⟨tok, rest, rfl, ht, he⟩ hno⟩
    unfold attempt
    rw [hs]
    cases e <;> first | exact absurd rfl hne | exact h1
  have he' := he
  obtain ⟨a, b, m, rfl, -, -⟩ := he'
  cases m with
  | nil =>
    refine back .index (by simp) ?_ rfl
    rintro d acc ⟨t, a', b', d', m, h, -⟩
    cases h
  | cons d more =>
    cases hp : parseargs false accessparams accessparams true more [] with
    | error e =>
      refine back (.parse e) (by simp) ?_ ?_
      · rintro d acc ⟨t, a', b', d', m, h, -, -, -, hph⟩
        cases h
        rw [phrase_access hph] at hp
        cases hp
      · simp only [setExec, hp]; rfl
    | ok y =>
      obtain ⟨acc, r⟩ := y
      have hse : SetsExec (tok :: a :: b :: d :: more) (upper d) acc :=
        ⟨tok, a, b, d, more, rfl, ht, he, rfl, access_phrase hp⟩
      have hs : setExec env (a :: b :: d :: more) s = doconnect env (some (upper d, accessOf acc)) s := by
        simp only [setExec, hp]; rfl
      unfold attempt
      rw [hs]
      rcases doconnect_some hg hi (upper d) (accessOf acc) with ⟨s', bb, c, h1, h2, h3, h4⟩ | ⟨s', out, h1, h2, h3, h4⟩
      · refine ⟨.ok (), s', some c, _, by rw [h1], by simp, h2, h4, ?_⟩
        rw [accessOf_given, show nodeOf (some c) = some (upper d) from by rw [← h3]; rfl]
        exact .set _ _ _ _ _ hse
      · obtain ⟨s2, h5, h6, h7⟩ := doconnect_none env h2
        refine ⟨.ok (), s2, none, _, by rw [h1]; exact h5, by simp, h6, ?_, .setRefused _ _ _ acc _ hse h3⟩
        rw [h7, h4]
        simp [nodeOf, dropped, accessOf_given]

theorem clear_run (env : Env) {s : St} {x : Option Conn} (hi : Idle s x) {tok : Str} {rest : List Str}
    (ht : Abbr tok k!"clear") (he : Exec rest) :
    ∃ r s' y e, doclear env false rest s = (r, s') ∧ r ≠ .error .hang ∧ Idle s' y ∧ s'.log = s.log ++ e ∧
      Does (nodeOf x) (tok :: rest) e (nodeOf y) := by
  obtain ⟨s', h1, h2, h3⟩ := doconnect_none env hi
  refine ⟨.ok (), s', none, _, ?_, by simp, h2, h3, .clear _ _ ⟨tok, rest, rfl, ht, he⟩⟩
  unfold doclear
  rw [if_pos (by simp [exec_iff.1 he])]
  exact h1

/-! ## TELL -/

theorem tells_parse {tok d : Str} {rest0 : List Str} {d' : Str} {acc' : Sets} {inner : List Str}
    (h : Tells (tok :: d :: rest0) d' acc' inner) :
    ∃ t r x, inner = t :: r ∧ parseargs true accessparams accessparams true rest0 [] = .ok (acc', t :: r) ∧
      cmd.get t = some x := by
  obtain ⟨tok', a', t', r', h, -, hph, rfl, hk, h1, h2⟩ := h
  cases h
  have hp' := parse_phrases true access_is hph (t' :: r') []
  obtain ⟨x, hx⟩ := known_iff.1 hk
  have hstop : I3.get accessparams t' = none := by
    cases hg : I3.get accessparams t' with
    | none => rfl
    | some v =>
      exfalso
      obtain ⟨w, hw, ha⟩ := cmd_get.1 hx
      obtain ⟨w', hw', ha'⟩ := (get_ofList (l := [(k!"user", Tree.leaf (.arg .ai .user)),
        (k!"password", .leaf (.arg .ai .password)), (k!"account", .leaf (.arg .ai .account))]) (by decide)).1 hg
      have hal := abbr_alike ha ha'
      have key : ∀ p ∈ cmdTable, ∀ w' ∈ [k!"user", k!"password", k!"account"], ¬ Alike p.1 w' := by decide
      refine key _ hw w' ?_ hal
      simp only [List.mem_cons, Prod.mk.injEq, List.not_mem_nil, or_false] at hw'
      rcases hw' with ⟨rfl, -⟩ | ⟨rfl, -⟩ | ⟨rfl, -⟩ <;> simp
  refine ⟨t', r', x, rfl, ?_, hx⟩
  rw [hp', parseargs, hstop]
  simp

theorem tells_iff {tok d : Str} {rest0 : List Str} {acc : Sets} {t : Str} {r : List Str} {a : Verb} {perm : Bool}
    (ht : Abbr tok k!"tell") (hp : parseargs true accessparams accessparams true rest0 [] = .ok (acc, t :: r))
    (hc : cmd.get t = some (a, perm)) (d' : Str) (acc' : Sets) (inner : List Str) :
    Tells (tok :: d :: rest0) d' acc' inner ↔ (d' = d ∧ acc' = acc ∧ inner = t :: r ∧
      ¬ (a = .tell ∨ (perm = false ∧ (a = .set ∨ a = .clear) ∧ i3eq r execNode = true))) := by
  have hneg : ∀ {t r a perm}, cmd.get t = some (a, perm) →
      ((¬ Abbr t k!"tell" ∧ ¬ ((Abbr t k!"set" ∨ Abbr t k!"clear") ∧ Exec r)) ↔
        ¬ (a = .tell ∨ (perm = false ∧ (a = .set ∨ a = .clear) ∧ i3eq r execNode = true))) := by
    intro t r a perm hc
    rw [is_tell, is_set, is_clear, hc, exec_iff]
    simp only [Option.some.injEq, Prod.mk.injEq]
    have h1 : a = .tell → perm = false := by
      rintro rfl
      obtain ⟨w, hw, -⟩ := cmd_get.1 hc
      have key : ∀ p ∈ cmdTable, p.2.1 = .tell → p.2.2 = false := by decide
      exact key _ hw rfl
    cases a <;> simp_all
  constructor
  · intro h
    obtain ⟨t', r', x, rfl, hp', -⟩ := tells_parse h
    rw [hp] at hp'
    cases hp'
    obtain ⟨tok', a', t', r', h, -, -, h0, -, h1, h2⟩ := h
    cases h; cases h0
    exact ⟨rfl, rfl, rfl, (hneg hc).1 ⟨h1, h2⟩⟩
  · rintro ⟨rfl, rfl, rfl, h⟩
    obtain ⟨c, qs, h1, h2, h3, -⟩ := parse_sound true access_is _ _ _ _ _ (Nat.le_refl _) hp
    rw [List.nil_append] at h3
    subst h3
    obtain ⟨h5, h6⟩ := (hneg hc).2 h
    exact ⟨tok, c, t, r, by rw [h2], ht, h1, rfl, known_iff.2 ⟨_, hc⟩, h5, h6⟩

theorem tellBody_run {env : Env} (hg : Good env) {s : St} {x : Option Conn} (hi : Idle s x) {d : Str} {acc : Sets}
    {toks : List Str} {t : Str} {r : List Str} {a : Verb} {perm : Bool} (htells : Tells toks d acc (t :: r))
    (hc : cmd.get t = some (a, perm)) (ht : a ≠ .tell)
    (he : ¬ (perm = false ∧ (a = .set ∨ a = .clear) ∧ Exec r)) :
    ∃ s' e, tellBody env s d (accessOf acc) (act env a perm r) s = (.ok (), s') ∧ Idle s' x ∧ s'.log = s.log ++ e ∧
      Does (nodeOf x) toks e (nodeOf x) := by
  obtain ⟨h1, h2, h3, h4, h5, h6⟩ := hi
  have hold : ∀ h ∈ s.opened, h ≤ s.tick + 1 := fun h hh => by have := h6 h hh; omega
  unfold tellBody
  have henter : ∀ st : St, (do
      modify fun s => { s with conn := none }
      doconnect env (some (d, accessOf acc))
      act env a perm r : M Unit) st = ((do
        enter env (some (d, accessOf acc))
        act env a perm r : M Unit) { st with conn := none }) := by
    intro st
    rfl
  rcases good_connect hg s.tick d (accessOf acc) with ⟨b, hb, hv⟩ | ⟨out, hx, hr⟩
  · -- connected
    have hen := enter_accept (s := { s with conn := none }) h2 h6 hb (by omega)
    have hi1 : Idle { s with tick := s.tick + 1, log := s.log ++ [.conn d (accessOf acc) (.accept b)], opened := (s.tick + 1) :: s.opened, conn := some ⟨s.tick + 1, d⟩, dest := some (rstrip d), version := versionOf b } (some ⟨s.tick + 1, d⟩) :=
      ⟨rfl, h2, rfl, hv, by rintro c ⟨⟩; simp, old_more h6⟩
    obtain ⟨rr, s2, ha1, ha2, ha3, ha4, ha5⟩ := act_run hg hi1 hc r ht he
    have hatt : attempt (do
        modify fun s => { s with conn := none }
        doconnect env (some (d, accessOf acc))
        act env a perm r) (pure ()) s = (.ok (), s2) := by
      unfold attempt
      rw [henter, bind_ok hen, ha1]
      cases rr with
      | ok u => rfl
      | error e => cases e <;> first | exact absurd rfl ha2 | rfl
    rw [bind_ok hatt]
    obtain ⟨s3, hd1, hd2, hd3⟩ := doconnect_none env ha3
    have hop : s3.opened = s2.opened.filter (· ≠ s.tick + 1) := by
      have := hd1
      unfold doconnect at this
      have hl : leave s2 = (.ok (), { s2 with log := s2.log ++ [.disc d], opened := s2.opened.filter (· ≠ s.tick + 1), dest := none, version := 4 }) := by
        unfold leave
        rw [bind_ok (state_run s2), ha3.conn]
        simp only
        have : disconnect ⟨s.tick + 1, d⟩ s2 = (.ok (), { s2 with log := s2.log ++ [.disc d], opened := s2.opened.filter (· ≠ s.tick + 1) }) := by
          unfold disconnect
          rw [bind_ok (state_run s2), if_neg (by simpa using ha3.opened _ rfl)]
          rfl
        rw [bind_ok this]
        simp [modify_run, ha3.conn]
      rw [bind_ok hl] at this
      cases this
      rfl
    rw [bind_ok hd1, modify_run]
    have hmem : ∀ c, x = some c → c.h ∈ s3.opened := by
      rintro c rfl
      rw [hop, ha4, List.mem_filter]
      have hm := h5 c rfl
      have := h6 _ hm
      exact ⟨List.mem_cons_of_mem _ hm, by simp; omega⟩
    rw [accessOf_given] at ha5
    rcases ha5 with ⟨req, f, ans, l, hask, hbody, hlog⟩ | ⟨hlog, hno⟩
    · refine ⟨_, .conn d (given acc) (.accept b) :: .ask (some d) req ans :: (screen (f l) ++ [.disc d]), rfl,
        ⟨h1, hd2.sock, h3, h4, hmem, hd2.old⟩, ?_, .tell _ _ _ _ _ _ _ _ _ _ htells hask hbody⟩
      simp only [hd3, hlog]
      simp [nodeOf, dropped]
    · refine ⟨_, [.conn d (given acc) (.accept b), .disc d], rfl,
        ⟨h1, hd2.sock, h3, h4, hmem, hd2.old⟩, ?_, .tellNothing _ _ _ _ _ _ htells hno⟩
      simp only [hd3, hlog]
      simp [nodeOf, dropped]
  · have hen := enter_refuse (s := { s with conn := none }) h2 h6 hx hr
    have hatt : attempt (do
        modify fun s => { s with conn := none }
        doconnect env (some (d, accessOf acc))
        act env a perm r) (pure ()) s = (.ok (), { s with tick := s.tick + 1, log := s.log ++ [.conn d (accessOf acc) out], conn := none }) := by
      unfold attempt
      rw [henter, bind_err hen]
      rfl
    rw [bind_ok hatt]
    refine ⟨{ s with tick := s.tick + 1, log := s.log ++ [.conn d (accessOf acc) out] }, [.conn d (given acc) out], rfl,
      ⟨h1, h2, h3, h4, h5, hold⟩, ?_, .tellRefused _ _ _ _ _ _ htells hr⟩
    rw [accessOf_given]

/-- Any command. -/
theorem docmd_run {env : Env} (hg : Good env) {s : St} {x : Option Conn} (hi : Idle s x) {tok : Str} {rest : List Str}
    (hk : Known tok) :
    ∃ s' y e, docmd env (tok :: rest) s = (.on, s') ∧ Idle s' y ∧ s'.log = s.log ++ e ∧
      Does (nodeOf x) (tok :: rest) e (nodeOf y) := by
  obtain ⟨⟨a, perm⟩, hc⟩ := known_iff.1 hk
  have rep : ∀ {z : M Unit} {r : Except SErr Unit} {s' : St}, z s = (r, s') → r ≠ .error .hang →
      reported z s = (.on, s') := by
    intro z r s' hz hr
    unfold reported
    rw [hz]
    cases r with
    | ok u => rfl
    | error e => cases e <;> first | exact absurd rfl hr | rfl
  have notell : a ≠ .tell → ∀ d acc inner, ¬ Tells (tok :: rest) d acc inner := by
    rintro ha d acc inner ⟨tok', a', t, r, h, ht, -⟩
    cases h
    rw [is_tell, hc] at ht
    cases ht
    exact ha rfl
  by_cases hat : a = .tell
  · subst hat
    have hp : perm = false := by
      obtain ⟨w, hw, -⟩ := cmd_get.1 hc
      have key : ∀ p ∈ cmdTable, p.2.1 = .tell → p.2.2 = false := by decide
      exact key _ hw rfl
    subst hp
    have hrun : docmd env (tok :: rest) s = reported (dotell env rest) s := by simp only [docmd, hc]
    rw [hrun]
    have ht := is_tell.2 hc
    have noask : ∀ req f, ¬ Asks (tok :: rest) req f := by
      intro req f h
      cases h with
      | look _ _ _ h _ => rw [is_show, hc] at h; cases h
      | list _ _ _ h _ => rw [is_list, hc] at h; cases h
      | loop _ _ _ h _ => rw [is_loop, hc] at h; cases h
    have noset : ¬ ExecCmd k!"set" (tok :: rest) := by
      rintro ⟨t, r, h, ha, -⟩; cases h; rw [is_set, hc] at ha; cases ha
    have noclear : ¬ ExecCmd k!"clear" (tok :: rest) := by
      rintro ⟨t, r, h, ha, -⟩; cases h; rw [is_clear, hc] at ha; cases ha
    have wrong : ∀ e, e ≠ SErr.hang → dotell env rest s = (.error e, s) →
        (∀ d acc inner, ¬ Tells (tok :: rest) d acc inner) →
        ∃ s' y e, reported (dotell env rest) s = (.on, s') ∧ Idle s' y ∧ s'.log = s.log ++ e ∧
          Does (nodeOf x) (tok :: rest) e (nodeOf y) := fun e hne h hno =>
      ⟨s, x, [], rep h (by simpa using hne), hi, by simp, .nothing _ _ noask noset noclear hno⟩
    cases rest with
    | nil =>
      refine wrong _ (by simp) rfl ?_
      rintro d acc inner ⟨tok', a', t, r, h, -⟩; cases h
    | cons d rest0 =>
      cases hp : parseargs true accessparams accessparams true rest0 [] with
      | error e =>
        refine wrong (.parse e) (by simp) ?_ ?_
        · simp only [dotell]
          rw [bind_ok (state_run s), hp]
          rfl
        · intro d' acc' inner h
          obtain ⟨t, r, x, -, h2, -⟩ := tells_parse h
          rw [hp] at h2; cases h2
      | ok y =>
        obtain ⟨acc, r0⟩ := y
        cases r0 with
        | nil =>
          refine wrong (.parse .incomplete) (by simp) ?_ ?_
          · simp only [dotell]
            rw [bind_ok (state_run s), hp]
            rfl
          · intro d' acc' inner h
            obtain ⟨t, r, x, -, h2, -⟩ := tells_parse h
            rw [hp] at h2; cases h2
        | cons t r =>
          cases hct : cmd.get t with
          | none =>
            refine wrong (.parse .badkw) (by simp) ?_ ?_
            · simp only [dotell]
              rw [bind_ok (state_run s), hp]
              simp only [lift]
              rw [bind_ok (pure_run _ _)]
              simp only [hct]
              rfl
            · intro d' acc' inner h
              obtain ⟨t, r, x, -, h2, h3⟩ := tells_parse h
              rw [hp] at h2; cases h2
              rw [hct] at h3; cases h3
          | some v =>
            obtain ⟨a, perm⟩ := v
            have hti := tells_iff ht hp hct (d := d)
            have hd : dotell env (d :: rest0) s =
                (if a = .tell ∨ (perm = false ∧ (a = .set ∨ a = .clear) ∧ i3eq r execNode = true) then raise (.parse .nested)
                  else tellBody env s d (accessOf acc) (act env a perm r)) s := by
              simp only [dotell]
              rw [bind_ok (state_run s), hp]
              simp only [lift]
              rw [bind_ok (pure_run _ _)]
              simp only [hct]
            by_cases hn : a = .tell ∨ (perm = false ∧ (a = .set ∨ a = .clear) ∧ i3eq r execNode = true)
            · rw [if_pos hn] at hd
              refine wrong (.parse .nested) (by simp) hd ?_
              intro d' acc' inner h
              exact ((hti _ _ _).1 h).2.2.2 hn
            · rw [if_neg hn] at hd
              have htells := (hti d acc (t :: r)).2 ⟨rfl, rfl, rfl, hn⟩
              obtain ⟨s', e, h1, h2, h3, h4⟩ := tellBody_run hg hi htells hct (fun h => hn (.inl h))
                (fun h => hn (.inr ⟨h.1, h.2.1, exec_iff.1 h.2.2⟩))
              exact ⟨s', x, e, rep (hd.trans h1) (by simp), h2, h3, h4⟩
  · have hrun : docmd env (tok :: rest) s = reported (act env a perm rest) s := by
      simp only [docmd, hc]
    rw [hrun]
    by_cases he : perm = false ∧ (a = .set ∨ a = .clear) ∧ Exec rest
    · obtain ⟨rfl, ha, hex⟩ := he
      rcases ha with rfl | rfl
      · obtain ⟨r, s', y, e, h1, h2, h3, h4, h5⟩ := set_run hg hi (is_set.2 hc) hex
        exact ⟨s', y, e, rep h1 h2, h3, h4, h5⟩
      · obtain ⟨r, s', y, e, h1, h2, h3, h4, h5⟩ := clear_run env hi (is_clear.2 hc) hex
        exact ⟨s', y, e, rep h1 h2, h3, h4, h5⟩
    · obtain ⟨r, s', h1, h2, h3, -, h4⟩ := act_run hg hi hc rest hat he
      have noset : ¬ ExecCmd k!"set" (tok :: rest) := by
        rintro ⟨t, r, h, ha, hex⟩; cases h; rw [is_set, hc] at ha; cases ha; exact he ⟨rfl, .inl rfl, hex⟩
      have noclear : ¬ ExecCmd k!"clear" (tok :: rest) := by
        rintro ⟨t, r, h, ha, hex⟩; cases h; rw [is_clear, hc] at ha; cases ha; exact he ⟨rfl, .inr rfl, hex⟩
      rcases h4 with ⟨req, f, ans, l, h5, h6, h7⟩ | ⟨h5, h6⟩
      · exact ⟨s', x, _, rep h1 h2, h3, h7, .ask _ _ _ _ _ _ h5 h6⟩
      · exact ⟨s', x, [], rep h1 h2, h3, by simp [h5], .nothing _ _ h6 noset noclear (notell hat)⟩

end Verif.Ncp
