import Verif.EvLog.Lemmas

namespace Verif.EvLog

/-- The filters of the local sinks of a kind. -/
def locs (k : Kind) (S : List Sink) : List Filter :=
  S.filterMap fun s => match s with | .loc k' f => if k' = k then some f else none | .remote _ _ => none

/-- The filters of the sinks for a node. -/
def rems (n : Str) (S : List Sink) : List (Kind → Filter) :=
  S.filterMap fun s => match s with | .remote m f => if m = n then some f else none | .loc _ _ => none

/-- The filter of an entry. -/
def filt (e : Ent) : Filter := match entFilter e with | .ok g => g | .error _ => fun _ => false

def isLoc (k : Kind) (e : Ent) : Bool := decide (e.node = none ∧ e.kind = k)
def isRem (n : Str) (e : Ent) : Bool := decide (e.node = some n)

def remFilter (n : Str) (cfg : List Ent) : Kind → Filter :=
  fun k x => (cfg.filter (isRem n)).any fun e => decide (e.kind = k) && filt e x

structure SInv (cfg : List Ent) (S : List Sink) : Prop where
  ok : ∀ e ∈ cfg, ∃ g, entFilter e = .ok g
  loc : ∀ k, locs k S = (cfg.filter (isLoc k)).map filt
  rem : ∀ n, rems n S = if cfg.filter (isRem n) = [] then [] else [remFilter n cfg]

theorem locs_append (k : Kind) (a b : List Sink) : locs k (a ++ b) = locs k a ++ locs k b := by
  simp [locs, List.filterMap_append]

theorem rems_append (n : Str) (a b : List Sink) : rems n (a ++ b) = rems n a ++ rems n b := by
  simp [rems, List.filterMap_append]

theorem locs_map (k : Kind) (S : List Sink) (n : Str) (h : (Kind → Filter) → (Kind → Filter)) :
    locs k (S.map (onNode n h)) = locs k S := by
  induction S with
  | nil => rfl
  | cons s S ih =>
    simp only [locs] at ih ⊢
    cases s with
    | loc k' f => simp only [List.map_cons, onNode, List.filterMap_cons, ih]
    | remote m f =>
      by_cases hm : m = n
      · simp only [List.map_cons, onNode, List.filterMap_cons, ih, hm, if_true]
      · simp only [List.map_cons, onNode, List.filterMap_cons, ih, hm, if_false]

theorem rems_map (n' : Str) (S : List Sink) (n : Str) (h : (Kind → Filter) → (Kind → Filter)) :
    rems n' (S.map (onNode n h)) = (rems n' S).map fun f => if n' = n then h f else f := by
  induction S with
  | nil => rfl
  | cons s S ih =>
    simp only [rems] at ih ⊢
    cases s with
    | loc k' f => simp only [List.map_cons, onNode, List.filterMap_cons, ih]
    | remote m f =>
      by_cases hm : m = n
      · subst hm
        by_cases hn : m = n'
        · subst hn; simp only [List.map_cons, onNode, List.filterMap_cons, ih, if_true]
        · simp only [List.map_cons, onNode, List.filterMap_cons, ih, if_true, hn, if_false]
      · by_cases hn : m = n'
        · subst hn; simp only [List.map_cons, onNode, List.filterMap_cons, ih, hm, if_false, if_true]
        · simp only [List.map_cons, onNode, List.filterMap_cons, ih, hm, if_false, hn]

theorem any_remote {n : Str} {S : List Sink} :
    S.any (fun s => match s with | .remote m _ => decide (m = n) | _ => false) = true ↔ rems n S ≠ [] := by
  induction S with
  | nil => simp [rems]
  | cons s S ih =>
    simp only [rems] at ih ⊢
    cases s with
    | loc k f => simpa using ih
    | remote m f =>
      by_cases hm : m = n
      · simp [hm]
      · simp only [List.any_cons, List.filterMap_cons, hm, decide_false, Bool.false_or, if_false]
        exact ih

theorem remFilter_snoc (n : Str) (cfg : List Ent) (e : Ent) :
    remFilter n (cfg ++ [e]) =
      if e.node = some n then setKind (remFilter n cfg) e.kind (filt e) else remFilter n cfg := by
  by_cases h : e.node = some n
  · rw [if_pos h]
    funext k x
    simp only [remFilter, setKind, List.filter_append, List.any_append]
    by_cases hk : k = e.kind
    · subst hk; simp [isRem, h, addTo, remFilter]
    · have hk' : ¬ e.kind = k := fun hh => hk hh.symm
      simp [isRem, h, hk, hk', remFilter]
  · rw [if_neg h]
    funext k x
    simp [remFilter, isRem, h]

theorem remFilter_none {n : Str} {cfg : List Ent} (h : cfg.filter (isRem n) = []) :
    remFilter n cfg = fun _ _ => false := by
  funext k x; simp [remFilter, h]

theorem sinv_addEnt {cfg : List Ent} {S S' : List Sink} {e : Ent} (hi : SInv cfg S)
    (h : addEnt S e = .ok S') : SInv (cfg ++ [e]) S' := by
  unfold addEnt at h
  split at h
  · cases h
  · rename_i g hg
    have hf : filt e = g := by simp [filt, hg]
    have hok : ∀ x ∈ cfg ++ [e], ∃ g, entFilter x = .ok g := by
      intro x hx
      rcases List.mem_append.1 hx with hx | hx
      · exact hi.ok x hx
      · simp only [List.mem_singleton] at hx; subst hx; exact ⟨g, hg⟩
    split at h
    · rename_i hn
      simp only [Except.ok.injEq] at h
      subst h
      refine ⟨hok, ?_, ?_⟩
      · intro k
        rw [locs_append, hi.loc, List.filter_append, List.map_append]
        by_cases hk : e.kind = k
        · simp [locs, isLoc, hn, hk, hf]
        · simp [locs, isLoc, hn, hk]
      · intro n
        rw [rems_append, hi.rem, List.filter_append, remFilter_snoc]
        have h1 : isRem n e = false := by simp [isRem, hn]
        simp [h1, rems, hn]
    · rename_i n hn
      have hnl : ∀ k, isLoc k e = false := by intro k; simp [isLoc, hn]
      split at h
      · rename_i ha
        have hne := any_remote.1 ha
        simp only [Except.ok.injEq] at h
        subst h
        refine ⟨hok, ?_, ?_⟩
        · intro k
          rw [locs_map k S n (fun f => setKind f e.kind g), hi.loc, List.filter_append]
          simp [hnl]
        · intro n'
          rw [rems_map n' S n (fun f => setKind f e.kind g), hi.rem, List.filter_append, remFilter_snoc]
          have hne' : cfg.filter (isRem n) ≠ [] := by
            intro hh; rw [hi.rem, if_pos hh] at hne; exact hne rfl
          by_cases hnn : n' = n
          · subst hnn
            have h1 : isRem n' e = true := by simp [isRem, hn]
            rw [if_neg hne', if_neg (by simp [h1]), if_pos hn, hf]
            simp
          · have h1 : isRem n' e = false := by
              simp only [isRem, hn, Option.some.injEq, decide_eq_false_iff_not]; exact fun hh => hnn hh.symm
            have h2 : ¬ e.node = some n' := by rw [hn]; simp; exact fun hh => hnn hh.symm
            rw [if_neg h2]
            have h3 : [e].filter (isRem n') = [] := by simp [h1]
            rw [h3, List.append_nil]
            by_cases hz : cfg.filter (isRem n') = []
            · rw [if_pos hz]; rfl
            · rw [if_neg hz]; simp [hnn]
      · rename_i ha
        have hne : rems n S = [] := Classical.byContradiction fun hh => ha (any_remote.2 hh)
        simp only [Except.ok.injEq] at h
        subst h
        refine ⟨hok, ?_, ?_⟩
        · intro k
          rw [locs_append, hi.loc, List.filter_append]
          simp [hnl, locs]
        · intro n'
          rw [rems_append, hi.rem, List.filter_append, remFilter_snoc]
          by_cases hnn : n' = n
          · subst hnn
            have h1 : isRem n' e = true := by simp [isRem, hn]
            have h0 : cfg.filter (isRem n') = [] := by
              refine Classical.byContradiction fun hh => ?_
              rw [hi.rem, if_neg hh] at hne; cases hne
            rw [if_pos h0, if_neg (by simp [h1]), if_pos hn, hf, remFilter_none h0]
            simp [rems]
          · have h1 : isRem n' e = false := by
              simp only [isRem, hn, Option.some.injEq, decide_eq_false_iff_not]; exact fun hh => hnn hh.symm
            have h2 : ¬ e.node = some n' := by rw [hn]; simp; exact fun hh => hnn hh.symm
            have h3 : ¬ n = n' := fun hh => hnn hh.symm
            rw [if_neg h2]
            simp [h1, rems, h3]

theorem sinv_addAll {es : List Ent} : ∀ {cfg : List Ent} {S S' : List Sink}, SInv cfg S →
    addAll S es = .ok S' → SInv (cfg ++ es) S' := by
  induction es with
  | nil => intro cfg S S' hi h; simp only [addAll, Except.ok.injEq] at h; subst h; simpa using hi
  | cons e es ih =>
    intro cfg S S' hi h
    simp only [addAll] at h
    split at h
    · cases h
    · rename_i S1 h1
      have := ih (sinv_addEnt hi h1) h
      simpa using this

theorem sinv_init {cfg : List Ent} {S : List Sink} (hne : cfg ≠ []) (h : init cfg = .ok S) : SInv cfg S := by
  unfold init at h
  rw [if_neg hne] at h
  have : SInv [] [] := ⟨by simp, by intro k; rfl, by intro n; rfl⟩
  simpa using sinv_addAll this h

/-! ## What is written -/

/-- A write to a local sink of this kind. -/
def Write.isLocal (k : Kind) : Write → Bool
  | .log => decide (k = .console)
  | .record _ => decide (k = .file)
  | .monitor => decide (k = .monitor)
  | .queue _ _ => false

/-- A place in the queue for the node. -/
def Write.isFor (n : Str) : Write → Bool
  | .queue m _ => decide (m = n)
  | _ => false

theorem writeLocal_local {k k' : Kind} {e : Event} {w : List Write} (h : writeLocal k true e = some w) :
    (w.filter (Write.isLocal k')).length = if k = k' then 1 else 0 := by
  cases k with
  | console => simp only [writeLocal, Option.some.injEq] at h; subst h; cases k' <;> simp [Write.isLocal]
  | monitor => simp only [writeLocal, Option.some.injEq] at h; subst h; cases k' <;> simp [Write.isLocal]
  | file =>
    simp only [writeLocal] at h
    split at h
    · cases h
    · simp only [Option.map_eq_some_iff] at h
      obtain ⟨r, -, rfl⟩ := h
      cases k' <;> simp [Write.isLocal]

theorem writeLocal_for {k : Kind} {n : Str} {m : Bool} {e : Event} {w : List Write} (h : writeLocal k m e = some w) :
    w.filter (Write.isFor n) = [] := by
  cases k with
  | console => simp only [writeLocal, Option.some.injEq] at h; subst h; simp [Write.isFor]
  | monitor => simp only [writeLocal, Option.some.injEq] at h; subst h; cases m <;> simp [Write.isFor]
  | file =>
    simp only [writeLocal] at h
    split at h
    · cases h
    · simp only [Option.map_eq_some_iff] at h
      obtain ⟨r, -, rfl⟩ := h
      simp [Write.isFor]

theorem logEvent_local (k : Kind) (e : Event) (S : List Sink) (h : (logEvent true e S).2 = true) :
    ((logEvent true e S).1.filter (Write.isLocal k)).length =
      ((locs k S).filter fun f => f (e.cls, e.num)).length := by
  induction S with
  | nil => rfl
  | cons s S ih =>
    simp only [logEvent] at h ⊢
    split at h
    · cases h
    · rename_i w hw
      simp only [List.filter_append, List.length_append]
      rw [ih h]
      cases s with
      | loc k' f =>
        simp only [logOne] at hw
        by_cases hk : k' = k
        · have e1 : locs k (.loc k' f :: S) = f :: locs k S := by simp [locs, hk]
          rw [e1]
          by_cases hf : f (e.cls, e.num) = true
          · rw [if_pos hf] at hw
            rw [writeLocal_local hw, if_pos hk, List.filter_cons, if_pos hf]
            simp only [List.length_cons]; omega
          · rw [if_neg hf] at hw
            simp only [Option.some.injEq] at hw; subst hw
            rw [List.filter_cons, if_neg hf]
            simp
        · have e1 : locs k (.loc k' f :: S) = locs k S := by simp [locs, hk]
          rw [e1]
          by_cases hf : f (e.cls, e.num) = true
          · rw [if_pos hf] at hw
            rw [writeLocal_local hw, if_neg hk]; omega
          · rw [if_neg hf] at hw
            simp only [Option.some.injEq] at hw; subst hw
            simp
      | remote m f =>
        have e1 : locs k (.remote m f :: S) = locs k S := by simp [locs]
        rw [e1]
        simp only [logOne] at hw
        split at hw <;> (simp only [Option.some.injEq] at hw; subst hw; simp [Write.isLocal])

theorem logEvent_for (n : Str) (m : Bool) (e : Event) (S : List Sink) (h : (logEvent m e S).2 = true) :
    (logEvent m e S).1.filter (Write.isFor n) =
      ((rems n S).filter fun f => decide (mask f (e.cls, e.num) ≠ 0)).map fun _ => .queue n 7 := by
  induction S with
  | nil => rfl
  | cons s S ih =>
    simp only [logEvent] at h ⊢
    split at h
    · cases h
    · rename_i w hw
      simp only [List.filter_append]
      rw [ih h]
      cases s with
      | loc k' f =>
        have e1 : rems n (.loc k' f :: S) = rems n S := by simp [rems]
        rw [e1]
        simp only [logOne] at hw
        split at hw
        · rw [writeLocal_for hw]; rfl
        · simp only [Option.some.injEq] at hw; subst hw; rfl
      | remote n' f =>
        simp only [logOne] at hw
        by_cases hn : n' = n
        · have e1 : rems n (.remote n' f :: S) = f :: rems n S := by simp [rems, hn]
          rw [e1]
          by_cases hf : mask f (e.cls, e.num) ≠ 0
          · rw [if_pos hf] at hw
            simp only [Option.some.injEq] at hw; subst hw
            rw [List.filter_cons (xs := rems n S), if_pos (by simpa using hf)]
            simp [Write.isFor, hn, wireFlags]
          · rw [if_neg hf] at hw
            simp only [Option.some.injEq] at hw; subst hw
            rw [List.filter_cons (xs := rems n S), if_neg (by simpa using hf)]
            rfl
        · have e1 : rems n (.remote n' f :: S) = rems n S := by simp [rems, hn]
          rw [e1]
          split at hw <;> (simp only [Option.some.injEq] at hw; subst hw; simp [Write.isFor, hn])

theorem mask_ne {f : Kind → Filter} {x : Nat × Nat} : mask f x ≠ 0 ↔ ∃ k, f k x = true := by
  unfold mask
  constructor
  · intro h
    refine Classical.byContradiction fun hh => h ?_
    have hk : ∀ k, f k x = false := fun k => by
      cases hc : f k x with
      | false => rfl
      | true => exact absurd ⟨k, hc⟩ hh
    simp [hk]
  · rintro ⟨k, hk⟩
    cases k <;> simp [hk]

end Verif.EvLog
