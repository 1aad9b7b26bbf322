import Verif.Nml.Mirror
import Verif.Nml.Api

/-!
# Loop tests over a circuit (C87)
-/

namespace Verif.Nml

/-- C87: what the loop handler of a circuit is asked to do.  The circuit exists and all arguments are in range;
without help the message goes to the station named, or to the multicast address if there is none; with
help there are both a station and an assistant, which is not a multicast address, and the message goes by
way of the assistant there, back or both. -/
theorem circuit_request {env : Env} {st : St} {msg : Bytes} {dest : List Bytes} {count : Nat} {payload : Bytes}
    (h2 : st.phase2 = false)
    (h : .looper dest count payload ∈ (act env st (.item .nice (.data msg))).2) :
    ∃ e ps to, parse msg = .ok (.loopCircuit e ps) ∧ hasCircuit env e = true ∧
      target env ps 10 155 = some to ∧ 1 ≤ count ∧ count = (number ps 150).getD 1 ∧
      1 ≤ payload.length ∧ payload.length ≤ 1490 ∧ payload.length = (number ps 151).getD 128 ∧
      ((number ps 154 = none ∧ dest = to.toList) ∨
       ∃ t m, to = some t ∧ target env ps 153 156 = some (some m) ∧ (address ps 153 = some m → multi m = false) ∧
        ((number ps 154 = some 0 ∧ dest = [m, t]) ∨ (number ps 154 = some 1 ∧ dest = [t, m]) ∨
          (number ps 154 = some 2 ∧ dest = [m, t, m]))) := by
  have hr : ∀ (s : St) rs, Out.looper dest count payload ∉ replies s rs := by
    intro s rs
    unfold replies
    split
    · simp
    · split <;> simp
  have hans : ∀ (s : St) x, Out.looper dest count payload ∉ answer s x := by
    intro s x
    cases x with
    | none => simp [answer]
    | some rs => exact hr s rs
  simp only [act, niceWork, request, h2] at h
  split at h
  · simp at h
  · exact absurd h (hr _ _)
  · exact absurd h (hr _ _)
  · exact absurd h (hr _ _)
  · exact absurd h (hr _ _)
  · simp only [Bool.false_eq_true, if_false] at h
    split at h
    · exact absurd h (hr _ _)
    · exact absurd h (hans _ _)
  · simp only [Bool.false_eq_true, if_false, loopNode] at h
    split at h
    · exact absurd h (hr _ _)
    · split at h
      · simp at h
      · simp only [List.mem_cons, reduceCtorEq, false_or] at h
        exact absurd h (hr _ _)
      · simp at h
  · exact absurd h (hr _ _)
  · rename_i e ps hp
    simp only [Bool.false_eq_true, if_false] at h
    unfold loopCircuit at h
    by_cases hc : hasCircuit env e = false
    · rw [if_pos hc] at h; exact absurd h (hr _ _)
    · rw [if_neg hc] at h
      simp only at h
      cases ht : target env ps 10 155 with
      | none => rw [ht] at h; simp at h
      | some to =>
        rw [ht] at h
        simp only at h
        cases hh : (if number ps 154 = none then some none else target env ps 153 156) with
        | none => rw [hh] at h; simp at h
        | some helper =>
          rw [hh] at h
          simp only at h
          cases hb : badArg (badHelp to helper (address ps 153).isSome (number ps 154))
              ((number ps 152).getD 2) ((number ps 151).getD 128) 1490 ((number ps 150).getD 1) with
          | some b => rw [hb] at h; exact absurd h (hr _ _)
          | none =>
            rw [hb] at h
            simp only at h
            have hl : Out.looper dest count payload = Out.looper (route to helper (number ps 154))
                ((number ps 150).getD 1) (List.replicate ((number ps 151).getD 128)
                  ((filler ((number ps 152).getD 2)).getD 0)) := by
              split at h
              · simpa using h
              · rcases List.mem_cons.1 h with h | h
                · exact h
                · exact absurd h (hr _ _)
              · rcases List.mem_cons.1 h with h | h
                · exact h
                · exact absurd h (hr _ _)
            simp only [Out.looper.injEq] at hl
            obtain ⟨rfl, rfl, rfl⟩ := hl
            unfold badArg at hb
            split at hb
            · simp at hb
            · split at hb
              · simp at hb
              · split at hb
                · simp at hb
                · refine ⟨e, ps, to, hp, by simpa using hc, ht, by omega, rfl, by simp; omega,
                    by simp; omega, by simp, ?_⟩
                  cases hn : number ps 154 with
                  | none => left; exact ⟨rfl, by simp [route]⟩
                  | some k =>
                    right
                    rw [hn] at hb hh
                    simp only [reduceCtorEq, if_false] at hh
                    unfold badHelp at hb
                    simp only at hb
                    split at hb
                    · simp at hb
                    · cases helper with
                      | none => simp at hb
                      | some m =>
                        simp only at hb
                        split at hb
                        · simp at hb
                        · cases to with
                          | none => simp at hb
                          | some t =>
                            rename_i hk hm
                            refine ⟨t, m, rfl, hh, ?_, ?_⟩
                            · intro ha
                              rw [ha] at hm
                              simpa using hm
                            · have : k = 0 ∨ k = 1 ∨ k = 2 := by omega
                              rcases this with rfl | rfl | rfl <;> simp [route]

/-- LOOP CIRCUIT A PHYSICAL ADDRESS ... ASSISTANT PHYSICAL ADDRESS ... HELP FULL. -/
example :
    (act ⟨.raises, .raises, fun s => s = [65], fun _ => none, .started⟩ { init with nice := true }
      (.item .nice (.data ([18, 3, 1, 65, 151, 0, 2, 0, 10, 0, 6, 8, 0, 1, 1, 1, 1,
        153, 0, 6, 8, 0, 2, 2, 2, 2, 154, 0, 2])))).2 =
      [.looper [[8, 0, 2, 2, 2, 2], [8, 0, 1, 1, 1, 1], [8, 0, 2, 2, 2, 2]] 1 [0x55, 0x55]] := by
  decide +kernel

end Verif.Nml
