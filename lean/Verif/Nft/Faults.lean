import Verif.Nft.Props

/-!
# Where the file transfer program does not do what it should
-/

namespace Verif.Nft

variable {h : Host}

/-! ## Contents and names -/

/-- The copy is the file exactly if its size is a multiple of 512. -/
theorem copy_exact_iff (b : Bytes) : padded b = b ↔ 512 ∣ b.length := by
  unfold padded
  constructor
  · intro e
    have h1 := congrArg List.length e
    rw [List.length_append, List.length_replicate] at h1
    omega
  · intro hd
    have : (512 - b.length % 512) % 512 = 0 := by omega
    rw [this]; simp

/-- Copies keep the bytes and add fewer than 512 zeros. -/
theorem copy_prefix (b : Bytes) : ∃ k, k < 512 ∧ padded b = b ++ List.replicate k 0 ∧ 512 ∣ (padded b).length := by
  refine ⟨(512 - b.length % 512) % 512, by omega, rfl, ?_⟩
  unfold padded
  rw [List.length_append, List.length_replicate]
  omega

/-- A file of six bytes, copied by a wild card into a directory: the copy has 512. -/
theorem copy_differs : ∃ (h : Host) (c : Cmd) (path : Str) (b : Bytes), c.Good h ∧
    (∃ e ∈ (h.disk false [42]).found, e.bytes = b) ∧
    c.result h = [.wrote path (b ++ List.replicate 506 0)] ∧ b.length = 6 := by
  refine ⟨⟨true, id, fun _ _ => ⟨true, [42], true, [⟨[47, 115], [102], true, false, true, [112], 0o644,
    [104, 101, 108, 108, 111, 10]⟩]⟩⟩, .copy [42] [100] true [], [100, 47, 102], [104, 101, 108, 108, 111, 10],
    ⟨.inl (by decide), rfl, by simp⟩, ⟨_, List.mem_singleton.2 rfl, rfl⟩, ?_, rfl⟩
  decide +kernel

theorem escape_latin {s : Str} (hs : ∀ c ∈ s, c < 256) : s.flatMap escape = s := by
  induction s with
  | nil => rfl
  | cons c s ih =>
    rw [List.flatMap_cons, ih fun x hx => hs x (by simp [hx])]
    simp [escape, hs c (by simp)]

/-- Names in Latin-1 that are not too long are sent as they are, those of directories with a slash. -/
theorem name_kept (e : Entry) (hs : ∀ c ∈ e.bn, c < 256) (hl : e.bn.length ≤ 126) :
    clean e = e.bn ++ if e.isdir then [47] else [] := by
  unfold clean
  have ht : e.bn.take 127 = e.bn := List.take_of_length_le (by omega)
  simp only [escape_latin hs, ht]
  cases e.isdir with
  | true => simp only [if_true]; rw [List.take_of_length_le (by omega)]
  | false => simp

/-- Such a file goes to the directory named, under its own name. -/
theorem target_inside (e : Entry) (dest : Str) (hs : ∀ c ∈ e.bn, c < 256) (hl : e.bn.length ≤ 126) (hd : e.isdir = false)
    (h0 : 47 ∉ e.bn) (hn : dest ≠ []) (hsl : dest.getLast? ≠ some 47) :
    joinPath dest (clean e) = dest ++ 47 :: e.bn := by
  rw [name_kept e hs hl, hd]
  simp only [Bool.false_eq_true, if_false, List.append_nil]
  unfold joinPath
  have h1 : ([47] : Str).isPrefixOf e.bn = false := by
    cases hb : e.bn with
    | nil => rfl
    | cons c s =>
      rw [hb] at h0
      have : ¬ (47 = c) := fun x => h0 (by simp [x])
      simp [List.isPrefixOf, this]
  have h2 : ¬ (dest = [] ∨ ([47] : Str).isSuffixOf dest = true) := by
    rintro (x | x)
    · exact hn x
    · rw [List.isSuffixOf_iff_suffix] at x
      obtain ⟨t, rfl⟩ := x
      exact hsl (by simp)
  rw [h1, if_neg (by simp), if_neg h2]

/-- Two names that agree in their first 127 characters are written to the same place: the second replaces the
first. -/
theorem long_names_collide (a b : Entry) (ha : ∀ c ∈ a.bn, c < 256) (hb : ∀ c ∈ b.bn, c < 256)
    (hda : a.isdir = false) (hdb : b.isdir = false) (e : a.bn.take 127 = b.bn.take 127) : clean a = clean b := by
  unfold clean
  simp only [escape_latin ha, escape_latin hb, hda, hdb, Bool.false_eq_true, if_false, e]

/-- The listener decides where the copy goes: an absolute name is taken as it is, whatever directory was asked for. -/
theorem server_chooses_path (spec dest : Str) (p : Str) (d : Bytes) (o : Str) (mode : Nat) (cs : List Cmd) :
    Cli.run ⟨.scan (base (.copy spec dest true [])), cs⟩
        [.name .file (47 :: p), .attrib 512 1 0, .date, .prot o mode, .ack, .ack, .data d, .status 5 39]
      = some (⟨.scan (base (.copy spec dest true [])), cs⟩, [.control 2 (some 3), .control 1 (some 3), .complete 1],
          [.wrote (47 :: p) d]) := by
  have hj : joinPath dest (47 :: p) = 47 :: p := by simp [joinPath, List.isPrefixOf]
  simp [Cli.run, Cli.step, scan, base, treat, Msg.ends, yield, Scan.answer, Scan.clear, hj]

/-! ## Waiting for ever -/

/-- The two wait for each other: nothing is on its way, and the commands after the first are never begun. -/
def Stuck (cs : List Cmd) (t : Sys) : Prop :=
  t.up = [] ∧ t.down = [] ∧ t.cli.todo = cs ∧ ∃ s, t.cli.phase = .scan s

/-- Copying a file by its full name never ends: the listener sends no name, and without one the program does not ask for
the data. -/
theorem plain_copy_hangs {spec dest : Str} {isdir : Bool} {as : List Ans} (cs : List Cmd)
    (hw : (h.disk false spec).wild = false) (hf : reported false (h.disk false spec).found ≠ []) :
    ∃ t, Ends h (open' (.copy spec dest isdir as :: cs)) t ∧ Stuck cs t ∧ t.seen = [] := by
  have hfs := files_found (strip := h.strip) (dirop := false) (g := h.disk false spec) (.inl hf)
  simp only [hw, Bool.or_false, Bool.false_eq_true, if_false] at hfs
  have hne : walk h.strip false false [] none (h.disk false spec).found ≠ [] := fun e => hf ((walk_nil ..).1 e)
  have first : ∀ (es : List Entry) (cur : Option Str), walk h.strip false false [] cur es ≠ [] →
      ∃ e rest, walk h.strip false false [] cur es = (e, describe false e) :: rest := by
    intro es
    induction es with
    | nil => intro cur hn; exact absurd rfl hn
    | cons e es ih =>
      intro cur hn
      rw [walk] at hn ⊢
      by_cases hv : e.visible false = true
      · exact ⟨e, walk h.strip false false [] (some e.dn) es, by simp [hv]⟩
      · simp only [hv, Bool.false_eq_true, if_false] at hn ⊢
        exact ih cur hn
  obtain ⟨e, rest, he⟩ := first _ _ hne
  rw [he] at hfs
  have hs : Srv.step h {} (.access 1 spec) = (⟨.offered e rest, []⟩, describe false e ++ [.ack]) := by
    simp only [Srv.step, hfs, Srv.say, offer, List.nil_append]
  obtain ⟨n, r⟩ := reach_turn (h := h) (c := ⟨.scan (base (.copy spec dest isdir as)), cs⟩) hs
    (r := (⟨.scan { full (.copy spec dest isdir as) e with name := none }, cs⟩, [], [])) rfl []
  exact ⟨_, Ends.of_run r rest_empty, ⟨rfl, rfl, rfl, _, rfl⟩, rfl⟩

/-- Neither does copying what is not there: the listener's error message is not flushed. -/
theorem missing_copy_hangs {spec dest : Str} {isdir : Bool} {as : List Ans} (cs : List Cmd)
    (hf : ¬ Found false (h.disk false spec)) :
    ∃ t, Ends h (open' (.copy spec dest isdir as :: cs)) t ∧ Stuck cs t ∧ t.seen = [] := by
  obtain ⟨mic, hfs⟩ := files_lost (strip := h.strip) hf
  have hs : Srv.step h {} (.access 1 spec) = (⟨.idle, [.status 4 mic]⟩, []) := by
    simp only [Srv.step, hfs, List.nil_append]
  obtain ⟨n, r⟩ := reach_turn (h := h) (c := ⟨.scan (base (.copy spec dest isdir as)), cs⟩) hs
    (r := (⟨.scan (base (.copy spec dest isdir as)), cs⟩, [], [])) rfl []
  exact ⟨_, Ends.of_run r rest_empty, ⟨rfl, rfl, rfl, _, rfl⟩, rfl⟩

/-- If the connection is lost in the middle of a file, the program goes round in a loop. -/
theorem lost_spins (path : Str) (buf : Bytes) (s : Scan) (resp : Msg) (cs : List Cmd) :
    Cli.step ⟨.reading path buf s resp, cs⟩ .gone = some (⟨.spin, cs⟩, [], []) ∧
      ∀ m, Cli.step ⟨.spin, cs⟩ m = none := ⟨rfl, fun _ => rfl⟩

/-! ## The wrong answers -/

/-- What is shown of one listing under the heading of another. -/
def shownAs (h : Host) (asked spec : Str) : List Ev :=
  listing h.strip spec none (reported true (h.disk true asked).found)

/-- The answer that is still to come, and what it looks like to the command that reads it. -/
theorem reach_late (cs : List Str) : ∀ (late : List Msg) (view : Str → List Ev) (seen : List Ev) (spec : Str),
    (∀ (spec : Str) (todo : List Cmd), Cli.run ⟨.scan (base (.dir spec)), todo⟩ late
      = some ((begin todo).1, (begin todo).2, view spec)) →
    (∀ c ∈ spec :: cs, Found true (h.disk true c)) →
    ∃ down, Reach h ⟨(begin ((spec :: cs).map .dir)).1, {}, (begin ((spec :: cs).map .dir)).2, late, seen⟩
      ⟨⟨.done, []⟩, {}, [], down, seen ++ view spec ++
        ((spec :: cs).zip cs).flatMap fun x => shownAs h x.1 x.2⟩ := by
  induction cs with
  | nil =>
    intro late view seen spec hl hf
    have h1 := reach_srv (h := h) ⟨.scan (base (.dir spec)), []⟩ {} (.access 6 spec) [] late seen
    rw [srv_dir (hf spec (by simp))] at h1
    have h2 := reach_cli (h := h) (hl spec []) {} [] (((walk h.strip true true [.name .vol []] none
      (h.disk true spec).found).flatMap fun x => x.2 ++ if h.v7 then [.ack] else []) ++ [.complete 2]) seen
    refine ⟨((walk h.strip true true [.name .vol []] none (h.disk true spec).found).flatMap
      fun x => x.2 ++ if h.v7 then [.ack] else []) ++ [.complete 2], h1.trans ?_⟩
    simpa [begin] using h2
  | cons c cs ih =>
    intro late view seen spec hl hf
    have h1 := reach_srv (h := h) ⟨.scan (base (.dir spec)), (c :: cs).map .dir⟩ {} (.access 6 spec) [] late seen
    rw [srv_dir (hf spec (by simp))] at h1
    have h2 := reach_cli (h := h) (hl spec ((c :: cs).map .dir)) {} [] (((walk h.strip true true [.name .vol []] none
      (h.disk true spec).found).flatMap fun x => x.2 ++ if h.v7 then [.ack] else []) ++ [.complete 2]) seen
    obtain ⟨down, h3⟩ := ih _ (shownAs h spec) (seen ++ view spec) c
      (fun s todo => run_dir h.strip s h.v7 todo (h.disk true spec).found) (fun x hx => hf x (by simp at hx ⊢; exact .inr hx))
    refine ⟨down, h1.trans (h2.trans ?_)⟩
    simpa using h3

/-- After a listing that failed, each listing shows what the one before asked for, and the first one shows nothing; the
last answer is never read. -/
theorem late_by_one {bad : Str} (hbad : ¬ Found true (h.disk true bad)) (spec : Str) (cs : List Str)
    (hf : ∀ c ∈ spec :: cs, Found true (h.disk true c)) :
    ∃ mic down, Ends h (open' ((bad :: spec :: cs).map .dir)) ⟨⟨.done, []⟩, {}, [], down,
      .dapError 4 mic :: ((spec :: cs).zip cs).flatMap fun x => shownAs h x.1 x.2⟩ := by
  obtain ⟨mic, hfs⟩ := files_lost (strip := h.strip) hbad
  have hs : Srv.step h {} (.access 6 bad)
      = ({}, .status 4 mic :: (if h.v7 then [.ack] else []) ++ [.complete 2]) := by
    simp only [Srv.step, hfs, Srv.say, List.nil_append]
  have h1 := reach_srv (h := h) ⟨.scan (base (.dir bad)), (spec :: cs).map .dir⟩ {} (.access 6 bad) [] [] []
  rw [hs] at h1
  have h2 := reach_cli (h := h) (c := ⟨.scan (base (.dir bad)), (spec :: cs).map .dir⟩) (ms := [.status 4 mic])
    (r := ((begin ((spec :: cs).map .dir)).1, (begin ((spec :: cs).map .dir)).2, [.dapError 4 mic])) rfl {} []
    ((if h.v7 then [.ack] else []) ++ [.complete 2]) []
  have hl : ∀ (spec : Str) (todo : List Cmd), Cli.run ⟨.scan (base (.dir spec)), todo⟩
      ((if h.v7 then [.ack] else []) ++ [.complete 2]) = some ((begin todo).1, (begin todo).2, []) := by
    intro s todo
    cases h.v7 <;>
      simp [Cli.run, Cli.step, scan, base, treat, finish]
  obtain ⟨down, h3⟩ := reach_late (h := h) cs _ (fun _ => []) [.dapError 4 mic] spec hl hf
  obtain ⟨n, r⟩ : Reach h (open' ((bad :: spec :: cs).map .dir)) _ := h1.trans (h2.trans h3)
  refine ⟨mic, down, ?_⟩
  have := Ends.of_run r rest_done
  simpa using this

/-- An empty line at the prompt, where it is said to mean yes, is an error, and the next command is refused. -/
theorem blank_answer {spec dest : Str} {isdir : Bool} {as : List Ans} (next : Cmd)
    (hw : (h.disk false spec).wild = true) (hf : reported false (h.disk false spec).found ≠ []) :
    Ends h (open' [.copy spec dest isdir (.blank :: as), next]) ⟨⟨.done, []⟩, {}, [], [], [.failed, .dapError 10 3]⟩ := by
  have hs := srv_copy (h := h) (.inl hf) hw
  have first : ∀ (es : List Entry) (ret : List Msg) (cur : Option Str), reported false es ≠ [] →
      (ret = [] ∨ ret = [.name .vol []]) →
      ∃ (e : Entry) (rest : List (Entry × List Msg)) (c : Bool), walk h.strip false true ret cur es
        = (e, ret ++ (if c then [.name .dir (h.strip e.dn ++ [47])] else []) ++ describe true e) :: rest := by
    intro es
    induction es with
    | nil => intro ret cur hn; exact absurd rfl hn
    | cons e es ih =>
      intro ret cur hn hret
      rw [reported_cons] at hn
      rw [walk]
      by_cases hv : e.visible false = true
      · exact ⟨e, walk h.strip false true [] (some e.dn) es, (some e.dn ≠ cur && true), by simp [hv]⟩
      · simp only [hv, Bool.false_eq_true, if_false] at hn ⊢
        exact ih ret cur hn hret
  obtain ⟨e, rest, c, he⟩ := first _ [.name .vol []] none hf (.inr rfl)
  rw [he] at hs
  simp only [offer] at hs
  have h1 := run_offer spec dest isdir (.blank :: as) [.name .vol []] (.inr rfl) (h.strip e.dn ++ [47]) e c [next]
  have h2 : Cli.run ⟨.scan (full (.copy spec dest isdir (.blank :: as)) e), [next]⟩ [.ack]
      = some ((begin [next]).1, (begin [next]).2, [.failed]) := rfl
  have h3 := Cli.run_append _ _ [.ack] h1 h2
  have h4 := reach_turn (h := h) hs h3 []
  simp only [List.nil_append] at h4
  have h5 : Srv.step h ⟨.offered e rest, []⟩ next.request = ({}, [.status 10 3]) := by
    cases next <;> rfl
  have h6 := reach_turn (h := h) (c := (begin [next]).1) h5 (r := (⟨.done, []⟩, [], [.dapError 10 3])) rfl [.failed]
  obtain ⟨n, r⟩ := h4.trans h6
  exact Ends.of_run r rest_done

/-! ## Examples -/

/-- Two files in two directories and a directory that cannot be read. -/
def exHost : Host where
  v7 := true
  strip := id
  disk _ spec :=
    if spec = [42] then ⟨true, [42], true,
      [⟨[47, 97], [102], true, false, true, [112], 0o644, [1, 2, 3]⟩, ⟨[47, 97], [103], true, true, false, [112], 0, []⟩,
        ⟨[47, 98], [104], true, false, true, [112], 0o600, List.replicate 512 7⟩]⟩
    else ⟨false, [120], false, []⟩

example : (Cmd.dir [42]).Good exHost ∧ (Cmd.copy [42] [100] true [.no, .yes]).Good exHost :=
  ⟨.inl (by decide), .inl (by decide), rfl, by simp⟩

example : ¬ Found true (exHost.disk true [120]) := by
  rintro (h | ⟨_, h, _⟩ | ⟨e, h, _⟩)
  · exact h rfl
  · cases h
  · cases h

example : (Cmd.dir [42]).result exHost = [.heading [] [47, 97, 47] [42], .entry 0o644 [112] 3 [102],
    .heading [] [47, 98, 47] [42], .entry 0o600 [112] 512 [104]] := by decide +kernel

example : (Cmd.copy [42] [100] true [.no, .yes]).result exHost = [.wrote [100, 47, 104] (List.replicate 512 7)] := by
  decide +kernel

end Verif.Nft
