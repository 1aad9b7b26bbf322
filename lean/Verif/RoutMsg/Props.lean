import Verif.RoutMsg.Lemmas

/-!
# Routing messages: checksum (C14) and vectors (C15)
-/

namespace Verif.RoutMsg

open Verif.Fields (Bytes le fromLe)

/-- The Phase of a received message. -/
def Msg.isPhase4 : Msg → Bool
  | .ph3 .. => false
  | .ph4 .. => true

/-- C14: every Phase IV routing message the encoder produces, for segments its
level allows and of less than 65535 words in all, is accepted by the receiver
as a Phase IV message with the same source and segments. -/
theorem phase4_message_accepted (l2 : Bool) (src : Nat) (segs : List Seg) (b : Bytes)
    (hv : ∀ s ∈ segs, segValid l2 s.entries.length s.startid = true)
    (hlen : (segs.flatMap segWords).length < 65535)
    (h : encode4 l2 src segs = .ok b) : decode l2 b = .ok (.ph4 src segs) := by
  simp only [encode4, bind_ok, pure_ok, Except.ok.injEq] at h
  obtain ⟨sb, hsb, ckb, hck, hb, hh, rfl⟩ := h
  obtain ⟨hws, rfl⟩ := wordsBytes_ok.1 hsb
  have htw : toWords ((segs.flatMap segWords).flatMap (le 2)) = segs.flatMap segWords := by
    have := toWords_flatMap hws []
    simpa [toWords] using this
  rw [htw] at hck
  obtain ⟨hck1, rfl⟩ := wordBytes_ok.1 hck
  rw [decode_words (hdr_ok hh) hh hws hck1]
  have hs := sum_le hws
  generalize hW : segs.flatMap segWords = W at *
  have f1 := fold_spec (s := W.sum + 1) (by omega)
  generalize hC : fold (W.sum + 1) = C at *
  have f2 := fold_spec (s := W.sum + (65535 - C)) (by omega)
  generalize hR : fold (W.sum + (65535 - C)) = R at *
  have hRv : R = 0xfffe := by omega
  simp only [hRv]
  rw [if_pos (by simp), if_neg (by decide), ← hW, segsDec_enc l2 segs hv]

/-- C14: every Phase III routing message the encoder produces is accepted as a
Phase III message with the same source and entries. -/
theorem phase3_message_accepted (src : Nat) (ws : List Nat) (b : Bytes)
    (hlen : ws.length < 65535)
    (h : encode3 src ws = .ok b) : decode false b = .ok (.ph3 src ws) := by
  simp only [encode3, bind_ok, pure_ok, Except.ok.injEq] at h
  obtain ⟨sb, hsb, ckb, hck, hb, hh, rfl⟩ := h
  obtain ⟨hws, rfl⟩ := wordsBytes_ok.1 hsb
  obtain ⟨hck1, rfl⟩ := wordBytes_ok.1 hck
  rw [decode_words (l2 := false) (hdr_ok hh) hh hws hck1]
  have hs := sum_le hws
  have f1 := fold_spec (s := ws.sum) (by omega)
  generalize hC : fold ws.sum = C at *
  have f2 := fold_spec (s := ws.sum + (65535 - C)) (by omega)
  generalize hR : fold (ws.sum + (65535 - C)) = R at *
  have hRv : R = 0xffff := by omega
  simp only [hRv]
  simp

example : encode4 false 1025 [⟨2, [entry 1 4, entry 31 1023]⟩] =
      .ok [7, 1, 4, 0, 2, 0, 2, 0, 4, 4, 255, 127, 8, 132] ∧
    decode false [7, 1, 4, 0, 2, 0, 2, 0, 4, 4, 255, 127, 8, 132] =
      .ok (.ph4 1025 [⟨2, [1028, 32767]⟩]) := by
  have h : encode4 false 1025 [⟨2, [entry 1 4, entry 31 1023]⟩] =
      .ok [7, 1, 4, 0, 2, 0, 2, 0, 4, 4, 255, 127, 8, 132] := by rfl
  exact ⟨h, phase4_message_accepted _ _ _ _ (by decide) (by decide) h⟩

example : encode3 3 [entry 1 4, entry 2 9] = .ok [7, 3, 0, 0, 4, 4, 9, 8, 13, 12] := by rfl

/-- C14, error detection: take any message whose payload words (checksum
included) are `a`, fewer than 65535, and replace the word at position `i` by
one that differs modulo 65535.  If both versions are accepted they are accepted
as different kinds of message: the altered one never passes for the original
phase. -/
theorem altered_word_detected (l2 : Bool) (hd : Bytes) (hhd : hd.length = 4) (a : List Nat)
    (ha : ∀ w ∈ a, w < 65536) (hlen : a.length < 65535) (i : Nat) (hi : i < a.length)
    (w : Nat) (hw : w < 65536) (hne : a[i] % 65535 ≠ w % 65535) (m m' : Msg)
    (h : decode l2 (hd ++ a.flatMap (le 2)) = .ok m)
    (h' : decode l2 (hd ++ (a.set i w).flatMap (le 2)) = .ok m') :
    m.isPhase4 ≠ m'.isPhase4 := by
  have kind : ∀ (x : List Nat) (m : Msg), (∀ w ∈ x, w < 65536) →
      decode l2 (hd ++ x.flatMap (le 2)) = .ok m →
      residue x = if m.isPhase4 then 0xfffe else 0xffff := by
    intro x m hx h
    have htw : toWords (x.flatMap (le 2)) = x := by
      have := toWords_flatMap hx []
      simpa [toWords] using this
    unfold decode at h
    simp only [List.drop_left' hhd, htw] at h
    split at h
    · cases h
    split at h
    · rename_i hs
      split at h
      · by_cases h2 : residue x = 0xffff
        · split_ifs at h
          all_goals
            injection h with h
            subst h
            simpa [Msg.isPhase4] using h2
        · cases hsd : segsDec l2 x.dropLast with
          | error e =>
            rw [hsd] at h
            split_ifs at h
          | ok segs =>
            rw [hsd] at h
            split_ifs at h
            all_goals
              injection h with h
              subst h
              rcases hs with hs | hs
              · simpa [Msg.isPhase4] using hs
              · exact absurd hs.1 h2
      · cases h
    · cases h
  have ha' : ∀ x ∈ a.set i w, x < 65536 := by
    intro x hx
    rcases List.mem_or_eq_of_mem_set hx with hx | rfl
    · exact ha x hx
    · exact hw
  have k1 := kind a m ha h
  have k2 := kind _ m' ha' h'
  intro hc
  rw [← hc, ← k1] at k2
  -- the residues differ modulo 65535
  obtain ⟨pre, last, rfl⟩ : ∃ pre last, a = pre ++ [last] := by
    refine ⟨a.dropLast, a.getLast (by rintro rfl; simp at hi), ?_⟩
    exact (List.dropLast_concat_getLast _).symm
  have hlast : last < 65536 := ha last (by simp)
  have hpre : ∀ w ∈ pre, w < 65536 := fun x hx => ha x (by simp [hx])
  simp only [List.length_append, List.length_singleton] at hlen hi
  have hsum := sum_le hpre
  by_cases hip : i < pre.length
  · rw [List.set_append_left _ _ hip] at k2
    unfold residue at k2
    simp only [List.dropLast_concat, List.getLastD_concat] at k2
    rw [List.getElem_append_left hip] at hne
    have hset : (pre.set i w).sum + pre[i] = pre.sum + w := by
      have key : ∀ (l : List Nat) (i : Nat) (hi : i < l.length),
          (l.set i w).sum + l[i] = l.sum + w := by
        intro l
        induction l with
        | nil => intro i hi; simp at hi
        | cons x xs ih =>
          intro i hi
          cases i with
          | zero => simp; omega
          | succ i =>
            have := ih i (by simpa using hi)
            simp only [List.set_cons_succ, List.sum_cons, List.getElem_cons_succ]
            omega
      exact key pre i hip
    have hpi : pre[i] < 65536 := hpre _ (List.getElem_mem hip)
    have f1 := fold_spec (s := pre.sum + (65535 - last)) (by omega)
    have f2 := fold_spec (s := (pre.set i w).sum + (65535 - last)) (by omega)
    rw [k2] at f2
    have h5 := f1.2.1
    have h6 := f2.2.1
    omega
  · have hi' : i = pre.length := by omega
    subst hi'
    rw [List.set_append_right _ _ (le_refl _)] at k2
    unfold residue at k2
    simp only [Nat.sub_self, List.set_cons_zero, List.dropLast_concat, List.getLastD_concat] at k2
    rw [List.getElem_append_right (le_refl _)] at hne
    simp only [Nat.sub_self, List.getElem_cons_zero] at hne
    have f1 := fold_spec (s := pre.sum + (65535 - last)) (by omega)
    have f2 := fold_spec (s := pre.sum + (65535 - w)) (by omega)
    rw [k2] at f2
    have h5 := f1.2.1
    have h6 := f2.2.1
    omega

example : ∃ m, decode false ([7, 1, 4, 0] ++ [2, 2, 1028, 32767, 33800].flatMap (le 2)) = .ok m := by
  have h : encode4 false 1025 [⟨2, [1028, 32767]⟩] =
      .ok ([7, 1, 4, 0] ++ [2, 2, 1028, 32767, 33800].flatMap (le 2)) := by rfl
  exact ⟨_, phase4_message_accepted _ _ _ _ (by decide) (by decide) h⟩

/-! ## C15 -/

/-- What a router wants to say: vectors of (hops, cost), each starting at some
destination id. -/
abbrev Vectors := List (Nat × List (Nat × Nat))

/-- The segments it builds (routing.py:1634-1704 puts `RouteSegEntry (hops,
cost)` into the entries). -/
def segsOf (v : Vectors) : List Seg :=
  v.map fun x => ⟨x.1, x.2.map fun hc => entry hc.1 hc.2⟩

/-- What the receiver ought to learn: destination, hops one more, cost plus the
cost of the circuit. -/
def learned (cost : Nat) (v : Vectors) : List (Nat × Nat × Nat) :=
  v.flatMap fun x => x.2.mapIdx fun j hc => (x.1 + j, hc.1 + 1, hc.2 + cost)

theorem walk_eq (cost : Nat) (l : List (Nat × Nat)) (h : ∀ hc ∈ l, hc.2 < 1024) (i : Nat) :
    walk cost i (l.map fun hc => entry hc.1 hc.2) =
      l.mapIdx fun j hc => (i + j, hc.1 + 1, hc.2 + cost) := by
  induction l generalizing i with
  | nil => rfl
  | cons x l ih =>
    obtain ⟨e1, e2⟩ := entry_split (h := x.1) (h x (by simp))
    rw [List.map_cons, walk, e1, e2, ih (fun y hy => h y (by simp [hy])), List.mapIdx_cons]
    simp only [Nat.add_zero, List.cons.injEq, true_and]
    congr 1
    funext j hc
    rw [Nat.add_assoc, Nat.add_comm 1 j]

/-- C15: for every set of vectors with hops at most 31 and cost at most 1023,
in segments the level allows: the message is built, accepted, and the receiver
extracts exactly those entries for exactly those destinations, in order, with
one hop and the circuit cost added. -/
theorem vectors_survive (l2 : Bool) (src : Nat) (hsrc : src < 65536) (v : Vectors) (cost : Nat)
    (hv : ∀ x ∈ v, (∀ hc ∈ x.2, hc.1 ≤ 31 ∧ hc.2 ≤ 1023) ∧ x.2 ≠ [] ∧
      (if l2 then 1 ≤ x.1 ∧ x.1 + x.2.length ≤ 64 else x.1 + x.2.length ≤ 1024))
    (hlen : (v.map fun x => x.2.length + 2).sum < 65535) :
    ∃ b m, encode4 l2 src (segsOf v) = .ok b ∧ decode l2 b = .ok m ∧
      entries cost m = learned cost v := by
  have hvalid : ∀ s ∈ segsOf v, segValid l2 s.entries.length s.startid = true := by
    intro s hs
    obtain ⟨x, hx, rfl⟩ := List.mem_map.1 hs
    obtain ⟨_, h1, h2⟩ := hv x hx
    have : x.2.length ≠ 0 := by simpa using h1
    unfold segValid
    cases l2 <;> simp [h1] at h2 ⊢ <;> omega
  have hlen' : ((segsOf v).flatMap segWords).length < 65535 := by
    have : ((segsOf v).flatMap segWords).length = (v.map fun x => x.2.length + 2).sum := by
      unfold segsOf
      rw [List.length_flatMap, List.map_map]
      congr 1
      apply List.map_congr_left
      intro x _
      simp [segWords]
    omega
  have hwords : ∀ w ∈ (segsOf v).flatMap segWords, w < 65536 := by
    intro w hw
    obtain ⟨s, hs, hw⟩ := List.mem_flatMap.1 hw
    obtain ⟨x, hx, rfl⟩ := List.mem_map.1 hs
    obtain ⟨h0, _, h2⟩ := hv x hx
    simp only [segWords, List.mem_cons, List.length_map, List.mem_map] at hw
    rcases hw with rfl | rfl | ⟨hc, hhc, rfl⟩
    · cases l2 <;> simp at h2 <;> omega
    · cases l2 <;> simp at h2 <;> omega
    · have := h0 hc hhc
      unfold entry
      rw [Nat.shiftLeft_eq]
      omega
  have hsum := sum_le hwords
  have htw : toWords (((segsOf v).flatMap segWords).flatMap (le 2)) = (segsOf v).flatMap segWords := by
    have := toWords_flatMap hwords []
    simpa [toWords] using this
  have henc : encode4 l2 src (segsOf v) = .ok ((UInt8.ofNat (1 + 2 * (if l2 then 4 else 3)) :: le 2 src ++ [0]) ++
      (((segsOf v).flatMap segWords).flatMap (le 2) ++
        le 2 (fold (((segsOf v).flatMap segWords).sum + 1)))) := by
    have hf := (fold_spec (s := ((segsOf v).flatMap segWords).sum + 1) (by omega)).1
    simp only [encode4, bind_ok, pure_ok, Except.ok.injEq]
    refine ⟨_, wordsBytes_ok.2 ⟨hwords, rfl⟩, le 2 (fold (((segsOf v).flatMap segWords).sum + 1)), ?_, _, ?_, rfl⟩
    · rw [htw]; exact wordBytes_ok.2 ⟨hf, rfl⟩
    · unfold hdr; rw [if_pos hsrc]
  refine ⟨_, _, henc, phase4_message_accepted l2 src _ _ hvalid hlen' henc, ?_⟩
  unfold segsOf learned
  simp only [entries, List.flatMap_map]
  unfold List.flatMap
  congr 1
  apply List.map_congr_left
  intro x hx
  exact walk_eq cost x.2 (fun hc h => by have := (hv x hx).1 hc h; omega) x.1

/-- C15 for Phase III: entries for node 1, 2, 3, ... -/
theorem vectors_survive_ph3 (src : Nat) (hsrc : src < 65536) (v : List (Nat × Nat)) (cost : Nat)
    (hv : ∀ hc ∈ v, hc.1 ≤ 31 ∧ hc.2 ≤ 1023) (hlen : v.length < 65535) :
    ∃ b m, encode3 src (v.map fun hc => entry hc.1 hc.2) = .ok b ∧ decode false b = .ok m ∧
      entries cost m = v.mapIdx fun j hc => (1 + j, hc.1 + 1, hc.2 + cost) := by
  have hwords : ∀ w ∈ v.map (fun hc => entry hc.1 hc.2), w < 65536 := by
    intro w hw
    obtain ⟨hc, hhc, rfl⟩ := List.mem_map.1 hw
    have := hv hc hhc
    unfold entry
    rw [Nat.shiftLeft_eq]
    omega
  have hsum := sum_le hwords
  rw [List.length_map] at hsum
  have hf := (fold_spec (s := (v.map fun hc => entry hc.1 hc.2).sum) (by omega)).1
  have henc : encode3 src (v.map fun hc => entry hc.1 hc.2) =
      .ok ((UInt8.ofNat (1 + 2 * 3) :: le 2 src ++ [0]) ++
      ((v.map fun hc => entry hc.1 hc.2).flatMap (le 2) ++
        le 2 (fold (v.map fun hc => entry hc.1 hc.2).sum))) := by
    simp only [encode3, bind_ok, pure_ok, Except.ok.injEq]
    refine ⟨_, wordsBytes_ok.2 ⟨hwords, rfl⟩, _, wordBytes_ok.2 ⟨hf, rfl⟩, _, ?_, rfl⟩
    unfold hdr; rw [if_pos hsrc]
  refine ⟨_, _, henc, phase3_message_accepted src _ _ (by simpa using hlen) henc, ?_⟩
  exact walk_eq cost v (fun hc h => by have := hv hc h; omega) 1

example : entries 4 (.ph4 1025 [⟨2, [1028, 32767]⟩]) = [(2, 2, 8), (3, 32, 1027)] ∧
    learned 4 [(2, [(1, 4), (31, 1023)])] = [(2, 2, 8), (3, 32, 1027)] := by decide

/-! ## Findings -/

/-- A segment cut short by the end of the message is accepted: the header
announces five entries, one is present. -/
theorem truncated_segment_accepted :
    decode false [7, 1, 4, 0, 5, 0, 2, 0, 4, 4, 12, 4] = .ok (.ph4 1025 [⟨2, [1028]⟩]) := by
  have h : encode4 false 1025 [⟨2, [1028]⟩] = .ok [7, 1, 4, 0, 1, 0, 2, 0, 4, 4, 8, 4] := by rfl
  have key := decode_words (l2 := false) (src := 1025) (by omega) (h := [7, 1, 4, 0]) (by rfl)
    (ws := [5, 2, 1028]) (ck := 1036) (by decide) (by omega)
  have e : ([7, 1, 4, 0] : Bytes) ++ (([5, 2, 1028] : List Nat).flatMap (le 2) ++ le 2 1036) =
      [7, 1, 4, 0, 5, 0, 2, 0, 4, 4, 12, 4] := by rfl
  rw [e] at key
  rw [key]
  have hs : segsDec false [5, 2, 1028] = .ok [⟨2, [1028]⟩] := by
    rw [segsDec]
    simp only [show segValid false 5 2 = true by decide, if_true, List.drop_succ_cons, List.drop_nil]
    rw [segsDec]
    rfl
  rw [hs]
  rfl

/-- A message with a correct checksum whose segments leave a single word over
raises Python's IndexError, which is not a `DecodeError`: the circuits do not
catch it. -/
theorem stray_word_raises_indexError :
    decode false [7, 1, 4, 0, 5, 0, 6, 0] = .error .indexError := by
  have key := decode_words (l2 := false) (src := 1025) (by omega) (h := [7, 1, 4, 0]) (by rfl)
    (ws := [5]) (ck := 6) (by decide) (by omega)
  have e : ([7, 1, 4, 0] : Bytes) ++ (([5] : List Nat).flatMap (le 2) ++ le 2 6) =
      [7, 1, 4, 0, 5, 0, 6, 0] := by rfl
  rw [e] at key
  rw [key]
  have hs : segsDec false [5] = .error .indexError := by rw [segsDec]
  rw [hs]
  rfl

end Verif.RoutMsg
