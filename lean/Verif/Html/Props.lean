import Verif.Html.Lemmas

/-!
# The pages: well nested when the texts have no markup; nothing is escaped

C125.
-/

namespace Verif.Html

mutual
/-- All texts without markup, all attributes within their tags. -/
def El.Plain : El → Prop
  | .text s => noTag s
  | .wrap _ cs => cs.Plain
  | .cell _ a c => noEnd a ∧ (a = [] ∨ a.head? = some ' ') ∧ c.Plain
  | .head _ c => c.Plain
  | .link h c => noEnd h ∧ c.Plain
  | .detail r a x => r.Plain ∧ noEnd a ∧ (a = [] ∨ a.head? = some ' ') ∧ x.Plain
def Els.Plain : Els → Prop
  | .nil => True
  | .cons e es => e.Plain ∧ es.Plain
end

mutual
/-- The elements a page should have, outermost first: those it was built of. -/
def El.tags : El → List String
  | .text _ => []
  | .wrap k cs => k.name :: cs.tags
  | .cell th _ c => (if th then "th" else "td") :: c.tags
  | .head h2 c => (if h2 then "h2" else "h3") :: c.tags
  | .link _ c => "a" :: c.tags
  | .detail r _ x => r.tags ++ ("tr" :: "td" :: x.tags)
def Els.tags : Els → List String
  | .nil => []
  | .cons e es => e.tags ++ es.tags
end

private theorem simple (n : String) (a c rest : Str) (cl : Str)
    (hcl : cl = '<' :: ('/' :: n.toList) ++ ['>'])
    (ha : noEnd a) (hb : a = [] ∨ a.head? = some ' ') (tg : List Str)
    (hn : noEnd n.toList ∧ n.toList.head? ≠ some '/' ∧ n.toList ≠ [] ∧ ' ' ∉ n.toList ∧
      void n.toList = false ∧ noEnd ('/' :: n.toList))
    (hc : ∀ stk seen, read c ⟨none, stk, seen⟩ = some ⟨none, stk, seen ++ tg⟩) (stk seen : List Str) :
    read ('<' :: (n.toList ++ a) ++ ('>' :: (c ++ (cl ++ rest)))) ⟨none, stk, seen⟩ =
      read rest ⟨none, stk, seen ++ n.toList :: tg⟩ := by
  rw [read_open _ _ _ hn.1 ha hn.2.1 hn.2.2.1 hn.2.2.2.1 hn.2.2.2.2.1 hb, read_append, hc,
    Option.bind_some, hcl]
  rw [show ('<' :: ('/' :: n.toList) ++ ['>']) ++ rest = '<' :: ('/' :: n.toList) ++ ('>' :: rest) by simp]
  rw [read_close _ _ hn.2.2.2.2.2]
  simp

mutual
/-- **Well nested (C125).**  An element all of whose texts are without markup
is read as a whole: everything it opens it closes, in order, whatever is open
around it, and the elements seen are exactly those it was built of. -/
theorem nested (e : El) (h : e.Plain) (stk seen : List Str) :
    read e.render ⟨none, stk, seen⟩ = some ⟨none, stk, seen ++ e.tags.map String.toList⟩ := by
  match e with
  | .text s =>
    rw [El.render, read_text s h]; simp [El.tags]
  | .wrap k cs =>
    rw [El.render, read_opening, read_append, nesteds k cs h, Option.bind_some, closing_eq,
      read_tag _ _ (name_end k), tag_close]
    simp [El.tags, read]
  | .cell th a c =>
    have ih := fun stk seen => nested c h.2.2 stk seen
    cases th
    · have := simple "td" a c.render [] "</td>".toList (by decide +kernel) h.1 h.2.1 _ (by decide +kernel) ih
        stk seen
      rw [El.render, El.tags]
      simpa [read] using this
    · have := simple "th" a c.render [] "</th>".toList (by decide +kernel) h.1 h.2.1 _ (by decide +kernel) ih
        stk seen
      rw [El.render, El.tags]
      simpa [read] using this
  | .head h2 c =>
    have ih := fun stk seen => nested c h stk seen
    cases h2
    · have := simple "h3" [] c.render [] "</h3>".toList (by decide +kernel) (by decide +kernel) (.inl rfl) _
        (by decide +kernel) ih stk seen
      rw [El.render, El.tags]
      simpa [read] using this
    · have := simple "h2" [] c.render [] "</h2>".toList (by decide +kernel) (by decide +kernel) (.inl rfl) _
        (by decide +kernel) ih stk seen
      rw [El.render, El.tags]
      simpa [read] using this
  | .link hr c =>
    have ih := fun stk seen => nested c h.2 stk seen
    have := simple "a" (" href=\"/".toList ++ hr ++ ['"']) c.render [] "</a>".toList (by decide +kernel)
      (by have h0 : noEnd " href=\"/".toList := by decide +kernel
          have h1 := h.1
          have h2 : noEnd ['"'] := by decide +kernel
          simp only [noEnd, List.mem_append, not_or] at *
          exact ⟨⟨h0, h1⟩, h2⟩)
      (.inr (by
        have : " href=\"/".toList = ' ' :: "href=\"/".toList := by decide +kernel
        rw [this]; rfl)) _ (by decide +kernel) ih stk seen
    rw [El.render, El.tags]
    simpa [read] using this
  | .detail r a x =>
    have ih := fun stk seen => nested x h.2.2.2 stk seen
    rw [El.render, read_append, nested r h.1, Option.bind_some]
    have e1 : ∀ z, "\n<tr>".toList ++ z = '\n' :: ('<' :: ("tr".toList ++ []) ++ ('>' :: z)) := by
      intro z
      have : "\n<tr>".toList = '\n' :: ('<' :: ("tr".toList ++ []) ++ ('>' :: [])) := by decide +kernel
      rw [this]; simp
    have e2 : "</td></tr>".toList = "</td>".toList ++ ("</tr>".toList ++ []) := by decide +kernel
    have e3 : "</tr>".toList = '<' :: ('/' :: "tr".toList) ++ ('>' :: []) := by decide +kernel
    rw [e1, read]
    have e4 : ∀ r : Rd, r.acc = none → step '\n' r = some r := by
      rintro ⟨_, _, _⟩ rfl; rfl
    rw [e4 _ rfl, Option.bind_some,
      read_open "tr".toList [] _ (by decide +kernel) (by decide +kernel) (by decide +kernel) (by decide +kernel)
        (by decide +kernel) (by decide +kernel) (.inl rfl), e2,
      simple "td" a x.render _ "</td>".toList (by decide +kernel) h.2.1 h.2.2.1 _ (by decide +kernel) ih]
    rw [List.append_nil, e3, read_close _ _ (by decide +kernel)]
    simp [read, El.tags]
theorem nesteds (k : Kind) (es : Els) (h : es.Plain) (stk seen : List Str) :
    read (es.render k.sep.toList) ⟨none, stk, seen⟩ =
      some ⟨none, stk, seen ++ es.tags.map String.toList⟩ := by
  match es with
  | .nil => simp [Els.render, Els.tags, read]
  | .cons e .nil =>
    rw [Els.render, nested e h.1]; simp [Els.tags]
  | .cons e (.cons f r) =>
    have ih := nesteds k (.cons f r) h.2
    rw [Els.render, read_append, nested e h.1, Option.bind_some, read_sep, ih]
    simp [Els.tags]
end

/-- A link in a table in a section of the sidebar. -/
example : ((El.wrap .sidebar (.ofList [.head true (.text "x".toList),
    .wrap .mopdetails (.ofList [.text "a > b".toList, .link "m/mop".toList (.text "MOP".toList)])])).Plain) ∧
    read (El.wrap .sidebar (.ofList [.head true (.text "x".toList),
      .wrap .mopdetails (.ofList [.text "a > b".toList, .link "m/mop".toList (.text "MOP".toList)])])).render
      fresh = some ⟨none, [], ["div", "h2", "div", "a"].map String.toList⟩ := by
  refine ⟨?_, by decide +kernel⟩
  simp only [El.Plain, Els.ofList, Els.Plain]
  decide +kernel

/-! ## The page of MOP stations -/

theorem tags_ofList (l : List El) : (Els.ofList l).tags = l.flatMap El.tags := by
  induction l with
  | nil => rfl
  | cons e r ih => simp [Els.ofList, Els.tags, ih]

theorem plain_ofList (l : List El) (h : ∀ e ∈ l, e.Plain) : (Els.ofList l).Plain := by
  induction l with
  | nil => trivial
  | cons e r ih => exact ⟨h e (by simp), ih fun x hx => h x (by simp [hx])⟩

theorem noEnd_append (a b : Str) (ha : noEnd a) (hb : noEnd b) : noEnd (a ++ b) := by
  intro h; rcases List.mem_append.mp h with h | h
  · exact ha h
  · exact hb h

theorem tcell_plain (th : Bool) (m : Str) (hm : noEnd m) (s : Str) (hs : noTag s) :
    (tcell th m (.text s)).Plain := by
  refine ⟨noEnd_append _ _ (by decide +kernel) hm, .inr ?_, hs⟩
  have : " valign=\"top\" ".toList = ' ' :: "valign=\"top\" ".toList := by decide +kernel
  rw [this]; rfl

theorem row_plain (th : Bool) (cs : List Str) (h : ∀ s ∈ cs, noTag s) : (row th cs).Plain := by
  refine plain_ofList _ fun e he => ?_
  obtain ⟨s, hs, rfl⟩ := List.mem_map.mp he
  exact tcell_plain th [] (by decide +kernel) s (h s hs)

theorem drow_plain (a b : Str) (ha : noTag a) (hb : noTag b) : (drow a b).Plain := by
  refine plain_ofList _ fun e he => ?_
  simp only [List.mem_cons, List.not_mem_nil, or_false] at he
  rcases he with rfl | rfl
  · exact tcell_plain _ _ (by decide +kernel) a ha
  · exact tcell_plain _ _ (by decide +kernel) b hb

theorem dtable_plain (d : List (Str × Str)) (h : ∀ x ∈ d, noTag x.1 ∧ noTag x.2) : (dtable d).Plain := by
  refine plain_ofList _ fun e he => ?_
  rcases List.mem_cons.mp he with rfl | he
  · exact (by decide +kernel : noTag [])
  · obtain ⟨x, hx, rfl⟩ := List.mem_map.mp he
    exact drow_plain _ _ (h x hx).1 (h x hx).2

theorem row_tags (th : Bool) (cs : List Str) :
    (row th cs).tags = "tr" :: List.replicate cs.length (if th then "th" else "td") := by
  simp only [row, El.tags, tags_ofList, Kind.name, List.flatMap_map, tcell, List.cons.injEq, true_and]
  induction cs with
  | nil => rfl
  | cons c r ih => simp [ih, List.replicate_succ]

theorem dtable_tags (d : List (Str × Str)) :
    (dtable d).tags = "table" :: d.flatMap fun _ => ["tr", "td", "td"] := by
  simp only [dtable, El.tags, tags_ofList, Kind.name, List.flatMap_cons, List.flatMap_map, drow, tcell,
    List.nil_append, List.flatMap_nil, List.append_nil, List.cons_append]
  rfl

theorem digits_noEnd (n : Nat) : noEnd (toString n).toList := by
  intro h
  have := Nat.isDigit_of_mem_toDigits (b := 10) (n := n) (c := '>') (by decide) (by decide) (by simpa [Nat.repr] using h)
  exact absurd this (by decide)

theorem detailrow_plain (cs : List Str) (d : List (Str × Str)) (h : ∀ s ∈ cs, noTag s)
    (hd : ∀ x ∈ d, noTag x.1 ∧ noTag x.2) : (detailrow cs d).Plain := by
  unfold detailrow
  cases cs with
  | nil => exact (by decide +kernel : noTag [])
  | cons a r =>
    dsimp only
    split
    · exact row_plain _ _ h
    · refine ⟨⟨tcell_plain _ _ (by decide +kernel) a (h a (by simp)), plain_ofList _ fun e he => ?_⟩, ?_, ?_,
        dtable_plain d hd⟩
      · obtain ⟨s, hs, rfl⟩ := List.mem_map.mp he
        exact tcell_plain _ _ (by decide +kernel) s (h s (by simp [hs]))
      · exact noEnd_append _ _ (noEnd_append _ _ (by decide +kernel) (digits_noEnd _)) (by decide +kernel)
      · right
        have : " colspan=\"".toList = ' ' :: "colspan=\"".toList := by decide +kernel
        rw [this]; rfl

theorem detailrow_tags (cs : List Str) (d : List (Str × Str)) (h : cs ≠ []) :
    (detailrow cs d).tags = "tr" :: List.replicate cs.length "td" ++
      (if d = [] then [] else ["tr", "td", "table"] ++ d.flatMap fun _ => ["tr", "td", "td"]) := by
  unfold detailrow
  cases cs with
  | nil => exact absurd rfl h
  | cons a r =>
    dsimp only
    split
    · rw [row_tags]; simp
    · have hr : ∀ l : List Str, (Els.ofList (l.map fun s => tcell false [] (.text s))).tags =
          List.replicate l.length "td" := by
        intro l
        have := row_tags false l
        simp only [row, El.tags] at this
        exact (List.cons.inj this).2
      simp only [El.tags, Els.tags, dtable_tags, hr, Kind.name]
      simp [List.replicate_succ, tcell, El.tags]

/-- **The table of stations (C125).**  If no text has markup, the page of the
stations heard is one section with one table: a row of five headings, a row
for every station with a cell for every item, and below it, when the station
sent details, one row with a table of two cells for every detail. -/
theorem mop_page (title : Str) (ht : noTag title) (st : List (List Str × List (Str × Str)))
    (h : ∀ r ∈ st, r.1 ≠ [] ∧ (∀ s ∈ r.1, noTag s) ∧ ∀ x ∈ r.2, noTag x.1 ∧ noTag x.2)
    (stk seen : List Str) :
    read (mopPage title st).render ⟨none, stk, seen⟩ = some ⟨none, stk, seen ++
      (["div", "h3", "table", "tr", "th", "th", "th", "th", "th"] ++ st.flatMap fun r =>
        "tr" :: List.replicate r.1.length "td" ++
          if r.2 = [] then [] else ["tr", "td", "table"] ++ r.2.flatMap fun _ => ["tr", "td", "td"]).map
        String.toList⟩ := by
  have hp : (mopPage title st).Plain := by
    refine ⟨ht, ⟨?_, plain_ofList _ fun e he => ?_⟩, trivial⟩
    · exact row_plain _ _ (by decide +kernel)
    · obtain ⟨r, hr, rfl⟩ := List.mem_map.mp he
      exact detailrow_plain _ _ (h r hr).2.1 (h r hr).2.2
  rw [nested _ hp]
  have e : (mopPage title st).tags = ["div", "h3", "table", "tr", "th", "th", "th", "th", "th"] ++
      st.flatMap fun r => "tr" :: List.replicate r.1.length "td" ++
        if r.2 = [] then [] else ["tr", "td", "table"] ++ r.2.flatMap fun _ => ["tr", "td", "td"] := by
    simp only [mopPage, detailSection, section', El.tags, Els.ofList, Els.tags, row_tags, tags_ofList,
      List.flatMap_map, Kind.name]
    have : st.flatMap (fun r => (detailrow r.1 r.2).tags) = st.flatMap fun r =>
        "tr" :: List.replicate r.1.length "td" ++
          if r.2 = [] then [] else ["tr", "td", "table"] ++ r.2.flatMap fun _ => ["tr", "td", "td"] := by
      induction st with
      | nil => rfl
      | cons r s ih =>
        rw [List.flatMap_cons, List.flatMap_cons, detailrow_tags _ _ (h r (by simp)).1,
          ih (fun x hx => h x (by simp [hx])) ⟨ht, ⟨row_plain _ _ (by decide +kernel),
            plain_ofList _ fun e he => by
              obtain ⟨r, hr, rfl⟩ := List.mem_map.mp he
              exact detailrow_plain _ _ (h r (by simp [hr])).2.1 (h r (by simp [hr])).2.2⟩, trivial⟩]
    rw [this]
    simp [List.replicate_succ]
  rw [e]

/-- Two stations, one with its software. -/
def two : List (List Str × List (Str × Str)) :=
  [(["aa-00-04-00-01-04", "loop", "", "DELUA", "now"].map String.toList,
    [("Software =".toList, "RSX-11M-PLUS".toList)]),
   (["aa-00-04-00-02-04", "loop", "", "DEQNA", "now"].map String.toList, [])]

example : (∀ r ∈ two, r.1 ≠ [] ∧ (∀ s ∈ r.1, noTag s) ∧ ∀ x ∈ r.2, noTag x.1 ∧ noTag x.2) ∧
    (read (mopPage "t".toList two).render fresh).map (fun r => (r.open_, r.seen.length)) =
      some ([], 9 + 6 + 3 + 3 + 6) := by decide +kernel

/-! ## Nothing is escaped -/

/-- A station that gives its software as a script. -/
def evil : List (List Str × List (Str × Str)) :=
  [(["aa-00-04-00-01-04", "loop", "", "DELUA", "now"].map String.toList,
    [("Software =".toList, "<script>alert(1)</script>".toList)])]

/-- A station that gives its software as the end of a table. -/
def breaks : List (List Str × List (Str × Str)) :=
  [(["aa-00-04-00-01-04", "loop", "", "DELUA", "now"].map String.toList,
    [("Software =".toList, "</table>".toList)])]

/-- **Not escaped (C125, negation).**  A station on the LAN can put an element
of its choice into the page of whoever looks at the list, or break its nesting. -/
theorem not_escaped :
    (∃ r, read (mopPage "t".toList evil).render fresh = some r ∧ "script".toList ∈ r.seen) ∧
    read (mopPage "t".toList breaks).render fresh = none := by
  refine ⟨⟨⟨none, [], (["div", "h3", "table", "tr", "th", "th", "th", "th", "th", "tr", "td", "td", "td", "td",
    "td", "tr", "td", "table", "tr", "td", "td", "script"]).map String.toList⟩, ?_, ?_⟩, ?_⟩ <;>
    decide +kernel

/-! ## The page as a whole -/

/-- **A page is never closed (C125, negation).**  With any title and parts
without markup, a page is read without error up to its end, where the element
`flex-page` is still open; so `</body>` closes nothing that is innermost. -/
theorem page_unclosed (mobile : Bool) (title : Str) (top middle bottom : El) (ht : noTag title)
    (h1 : top.Plain) (h2 : middle.Plain) (h3 : bottom.Plain) :
    (∃ body, page mobile title top middle bottom = body ++ "\n</body></html>\n".toList ∧
      read body fresh = some ⟨none, ["div", "body", "html"].map String.toList,
        (["html", "head", "title", "body", "div", "div"] ++ (top.tags ++ (middle.tags ++ bottom.tags))).map
          String.toList⟩) ∧
    read (page mobile title top middle bottom) fresh = none := by
  have key : read (page1.toList ++ (title ++ (page2.toList ++ ((if mobile then pageMobile else "").toList ++
    (page3.toList ++ (top.render ++ (page4.toList ++ (middle.render ++ ("\n".toList ++ bottom.render)))))))))
      fresh = some ⟨none, ["div", "body", "html"].map String.toList,
        (["html", "head", "title", "body", "div", "div"] ++ (top.tags ++ (middle.tags ++ bottom.tags))).map
          String.toList⟩ := by
    have p1 : read page1.toList fresh = some ⟨none, ["title", "head", "html"].map String.toList,
        ["html", "head", "title"].map String.toList⟩ := by decide +kernel
    have p2 : read page2.toList ⟨none, ["title", "head", "html"].map String.toList,
        ["html", "head", "title"].map String.toList⟩ = some ⟨none, ["head", "html"].map String.toList,
        ["html", "head", "title"].map String.toList⟩ := by decide +kernel
    have p3 : read (if mobile then pageMobile else "").toList ⟨none, ["head", "html"].map String.toList,
        ["html", "head", "title"].map String.toList⟩ = some ⟨none, ["head", "html"].map String.toList,
        ["html", "head", "title"].map String.toList⟩ := by cases mobile <;> decide +kernel
    have p4 : read page3.toList ⟨none, ["head", "html"].map String.toList,
        ["html", "head", "title"].map String.toList⟩ =
        some ⟨none, ["div", "div", "body", "html"].map String.toList,
        ["html", "head", "title", "body", "div", "div"].map String.toList⟩ := by decide +kernel
    have p5 : ∀ seen, read page4.toList ⟨none, ["div", "div", "body", "html"].map String.toList, seen⟩ =
        some ⟨none, ["div", "body", "html"].map String.toList, seen⟩ := by
      intro seen
      have e : page4.toList = '<' :: ('/' :: "div".toList) ++ ('>' :: ['\n']) := by decide +kernel
      rw [e, List.map_cons, read_close _ _ (by decide +kernel)]
      rfl
    rw [read_append, p1, Option.bind_some, read_append, read_text _ ht, Option.bind_some, read_append, p2,
      Option.bind_some, read_append, p3, Option.bind_some, read_append, p4, Option.bind_some, read_append,
      nested _ h1, Option.bind_some, read_append, p5, Option.bind_some, read_append, nested _ h2,
      Option.bind_some, read_append, read_text _ (by decide +kernel), Option.bind_some, nested _ h3]
    simp
  have split : page mobile title top middle bottom =
      (page1.toList ++ (title ++ (page2.toList ++ ((if mobile then pageMobile else "").toList ++
        (page3.toList ++ (top.render ++ (page4.toList ++ (middle.render ++ ("\n".toList ++ bottom.render))))))))) ++
        "\n</body></html>\n".toList := by
    simp only [page, List.append_assoc]
    rfl
  refine ⟨⟨_, split, key⟩, ?_⟩
  rw [split, read_append, key, Option.bind_some]
  have e : "\n</body></html>\n".toList = "\n".toList ++ ('<' :: ('/' :: "body".toList) ++
      ('>' :: "</html>\n".toList)) := by decide +kernel
  rw [e, read_append, read_text _ (by decide +kernel), Option.bind_some, read_tag _ _ (by decide +kernel),
    List.map_cons, tag_close_other _ _ (by decide +kernel)]
  rfl

/-- A page with an empty middle. -/
example : noTag "Main page".toList ∧ (El.text "DECnet".toList).Plain ∧ (El.wrap .middle .nil).Plain ∧
    read (page true "Main page".toList (.text "DECnet".toList) (.wrap .middle .nil) (.wrap .footer .nil)) fresh =
      none := by
  refine ⟨by decide +kernel, ?_, trivial, by decide +kernel⟩
  simp only [El.Plain]; decide +kernel

end Verif.Html
