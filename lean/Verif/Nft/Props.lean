import Verif.Nft.Lemmas

/-!
# Listing and copying files with the file transfer program

The program and the listener of `pydecnet` connected to each other, over all disks, all sequences of commands, and all
orders in which the two run.
-/

namespace Verif.Nft

variable {h : Host}

theorem srv_dir {spec : Str} (hf : Found true (h.disk true spec)) :
    Srv.step h {} (.access 6 spec) = ({},
      ((walk h.strip true true [.name .vol []] none (h.disk true spec).found).flatMap
        fun x => x.2 ++ if h.v7 then [.ack] else []) ++ [.complete 2]) := by
  have hfs := files_found (strip := h.strip) hf
  simp only [Bool.true_or, if_true] at hfs
  simp only [Srv.step, hfs, Srv.say, List.nil_append]

theorem srv_copy {spec : Str} (hf : Found false (h.disk false spec)) (hw : (h.disk false spec).wild = true) :
    Srv.step h {} (.access 1 spec) = (⟨(offer (walk h.strip false true [.name .vol []] none (h.disk false spec).found)).1, []⟩,
      (offer (walk h.strip false true [.name .vol []] none (h.disk false spec).found)).2) := by
  have hfs := files_found (strip := h.strip) hf
  simp only [hw, Bool.or_true, if_true] at hfs
  simp only [Srv.step, hfs, Srv.say, List.nil_append]

/-- The client with the description of a file in a copy. -/
theorem run_offer (spec dest : Str) (isdir : Bool) (as : List Ans) (ret : List Msg)
    (hret : ret = [] ∨ ret = [.name .vol []]) (d : Str) (e : Entry) (c : Bool) (todo : List Cmd) :
    Cli.run ⟨.scan (base (.copy spec dest isdir as)), todo⟩ (ret ++ (if c then [.name .dir d] else []) ++ describe true e)
      = some (⟨.scan (full (.copy spec dest isdir as) e), todo⟩, [], []) := by
  rcases hret with rfl | rfl <;> cases c <;> rfl

/-- The copies of all files, from the moment the first one is offered. -/
theorem reach_copies (spec dest : Str) (isdir : Bool) (cs : List Cmd) (es : List Entry) :
    ∀ (as : List Ans) (ret : List Msg) (cur : Option Str) (seen : List Ev), (∀ a ∈ as, a = .yes ∨ a = .no) →
      (ret = [] ∨ ret = [.name .vol []]) →
      Reach h ⟨⟨.scan (base (.copy spec dest isdir as)), cs⟩, ⟨(offer (walk h.strip false true ret cur es)).1, []⟩, [],
          (offer (walk h.strip false true ret cur es)).2, seen⟩
        ⟨(begin cs).1, {}, (begin cs).2, [], seen ++ copies dest isdir (reported false es) as⟩ := by
  induction es with
  | nil =>
    intro as ret cur seen _ _
    have := reach_cli (h := h) (run_base_end (.copy spec dest isdir as) cs 2) {} [] [] seen
    simpa [walk, offer, reported, copies] using this
  | cons e es ih =>
    intro as ret cur seen has hret
    rw [reported_cons, walk]
    by_cases hvis : e.visible false = true
    · simp only [hvis, if_true, offer]
      generalize hrest : walk h.strip false true [] (some e.dn) es = rest
      have h1 := run_offer spec dest isdir as ret hret (h.strip e.dn ++ [47]) e (some e.dn ≠ cur && true) cs
      -- the file is skipped
      have hno : ∀ as', as = .no :: as' →
          Reach h ⟨⟨.scan (base (.copy spec dest isdir as)), cs⟩, ⟨.offered e rest, []⟩, [],
              ret ++ (if (some e.dn ≠ cur && true) = true then [.name .dir (h.strip e.dn ++ [47])] else []) ++
                describe true e ++ [.ack], seen⟩
            ⟨⟨.scan (base (.copy spec dest isdir as')), cs⟩, ⟨(offer rest).1, []⟩, [], (offer rest).2, seen⟩ := by
        rintro as' rfl
        have h2 : Cli.run ⟨.scan (full (.copy spec dest isdir (.no :: as')) e), cs⟩ [.ack]
            = some (⟨.scan (base (.copy spec dest isdir as')), cs⟩, [.complete 1], []) := rfl
        have h3 := Cli.run_append _ _ [.ack] h1 h2
        have h4 := reach_cli (h := h) h3 ⟨.offered e rest, []⟩ [] [] seen
        simp only [List.append_nil] at h4
        refine h4.trans ?_
        have h5 := reach_srv (h := h) ⟨.scan (base (.copy spec dest isdir as')), cs⟩ ⟨.offered e rest, []⟩ (.complete 1) []
          [] seen
        simpa [Srv.step, Srv.say] using h5
      -- the file is copied
      have hyes : ∀ as', (full (.copy spec dest isdir as) e).answer = (.yes, full (.copy spec dest isdir as') e) →
          Reach h ⟨⟨.scan (base (.copy spec dest isdir as)), cs⟩, ⟨.offered e rest, []⟩, [],
              ret ++ (if (some e.dn ≠ cur && true) = true then [.name .dir (h.strip e.dn ++ [47])] else []) ++
                describe true e ++ [.ack], seen⟩
            ⟨⟨.scan (base (.copy spec dest isdir as')), cs⟩, ⟨(offer rest).1, []⟩, [], (offer rest).2,
              seen ++ [.wrote (if isdir then joinPath dest (clean e) else dest) (padded e.bytes)]⟩ := by
        intro as' ha
        have h2 : Cli.run ⟨.scan (full (.copy spec dest isdir as) e), cs⟩ [.ack]
            = some (⟨.connect (if isdir then joinPath dest (clean e) else dest) (base (.copy spec dest isdir as')) .ack, cs⟩,
                [.control 2 (some 3)], []) := by
          have : Cli.step ⟨.scan (full (.copy spec dest isdir as) e), cs⟩ .ack
              = some (yield cs (full (.copy spec dest isdir as) e) true (clean e) .ack) := rfl
          simp only [Cli.run, this]
          have hy : yield cs (full (.copy spec dest isdir as) e) true (clean e) .ack
              = (⟨.connect (if isdir then joinPath dest (clean e) else dest) (base (.copy spec dest isdir as')) .ack, cs⟩,
                  [.control 2 (some 3)], []) := by
            unfold yield
            simp only [full] at ha ⊢
            simp only [ha]
            rfl
          rw [hy]; rfl
        have h3 := Cli.run_append _ _ [.ack] h1 h2
        have h4 := reach_cli (h := h) h3 ⟨.offered e rest, []⟩ [] [] seen
        simp only [List.append_nil] at h4
        refine h4.trans ?_
        simp only [List.nil_append]
        have h5 := reach_turn (h := h) (c := ⟨.connect (if isdir then joinPath dest (clean e) else dest)
            (base (.copy spec dest isdir as')) .ack, cs⟩) (s := ⟨.offered e rest, []⟩) (s' := ⟨.connected e rest, []⟩)
          (m := .control 2 (some 3)) (ms := [.ack]) rfl
          (r := (⟨.reading (if isdir then joinPath dest (clean e) else dest) [] (base (.copy spec dest isdir as')) .ack, cs⟩,
            [.control 1 (some 3)], [])) rfl seen
        refine h5.trans ?_
        have h6 := reach_turn (h := h) (s := ⟨.connected e rest, []⟩) (s' := ⟨.sent rest, []⟩) (m := .control 1 (some 3))
          (ms := contents e) (by simp [Srv.step, Srv.say])
          (run_contents (if isdir then joinPath dest (clean e) else dest) (.copy spec dest isdir as') cs e) seen
        simp only [List.append_nil]
        refine h6.trans ?_
        have h7 := reach_srv (h := h) ⟨.scan (base (.copy spec dest isdir as')), cs⟩ ⟨.sent rest, []⟩ (.complete 1) [] []
          (seen ++ [.wrote (if isdir then joinPath dest (clean e) else dest) (padded e.bytes)])
        simpa [Srv.step, Srv.say] using h7
      cases as with
      | nil =>
        have h8 := ih [] [] (some e.dn) (seen ++ [.wrote (if isdir then joinPath dest (clean e) else dest) (padded e.bytes)])
          (by simp) (.inl rfl)
        rw [hrest] at h8
        refine (hyes [] rfl).trans ?_
        simpa [copies] using h8
      | cons a as =>
        rcases has a (by simp) with rfl | rfl
        · have h8 := ih as [] (some e.dn)
            (seen ++ [.wrote (if isdir then joinPath dest (clean e) else dest) (padded e.bytes)])
            (fun x hx => has x (by simp [hx])) (.inl rfl)
          rw [hrest] at h8
          refine (hyes as rfl).trans ?_
          simpa [copies] using h8
        · have h8 := ih as [] (some e.dn) seen (fun x hx => has x (by simp [hx])) (.inl rfl)
          rw [hrest] at h8
          refine (hno as rfl).trans ?_
          simpa [copies] using h8
    · simp only [hvis, Bool.false_eq_true, if_false]
      exact ih as ret cur seen has hret

/-- One command. -/
theorem reach_cmd {c : Cmd} (hc : c.Good h) (cs : List Cmd) (seen : List Ev) :
    Reach h ⟨(begin (c :: cs)).1, {}, (begin (c :: cs)).2, [], seen⟩
      ⟨(begin cs).1, {}, (begin cs).2, [], seen ++ c.result h⟩ := by
  cases c with
  | dir spec => exact reach_turn (h := h) (srv_dir hc) (run_dir h.strip spec h.v7 cs _) seen
  | copy spec dest isdir as =>
    obtain ⟨hf, hw, has⟩ := hc
    have h1 := reach_srv (h := h) ⟨.scan (base (.copy spec dest isdir as)), cs⟩ {} (.access 1 spec) [] [] seen
    rw [srv_copy hf hw] at h1
    refine h1.trans ?_
    exact reach_copies spec dest isdir cs _ as [.name .vol []] none seen has (.inr rfl)

/-- Listings of what is there and copies by wild cards, any number of them: however the two programs are scheduled,
all commands come to their end, and each shows and writes what it should. -/
theorem commands_done (cs : List Cmd) (hcs : ∀ c ∈ cs, c.Good h) :
    Ends h (open' cs) ⟨⟨.done, []⟩, {}, [], [], cs.flatMap (Cmd.result h)⟩ := by
  have key : ∀ (cs : List Cmd) (seen : List Ev), (∀ c ∈ cs, c.Good h) →
      Reach h ⟨(begin cs).1, {}, (begin cs).2, [], seen⟩ ⟨⟨.done, []⟩, {}, [], [], seen ++ cs.flatMap (Cmd.result h)⟩ := by
    intro cs
    induction cs with
    | nil => intro seen _; simpa [begin] using Reach.refl _
    | cons c cs ih =>
      intro seen hcs
      refine (reach_cmd (hcs c (by simp)) cs seen).trans ?_
      have := ih (seen ++ c.result h) (fun x hx => hcs x (by simp [hx]))
      simpa using this
  obtain ⟨n, r⟩ := key cs [] hcs
  rw [List.nil_append] at r
  exact Ends.of_run r rest_done

end Verif.Nft
