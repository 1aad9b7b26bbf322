/-!
# Pages of the monitor: `decnet/html.py`
-/

namespace Verif.Html

abbrev Str := List Char

/-- The subclasses of `wraphtml` that are no cells (html.py:58-193). -/
inductive Kind where
  | trow | table | dtable | lines | div | pre | middle | sidebar | sbelement | sblabel | main
  | toptitle | timestamps | mopdetails | sbbutton | sbactive | section | top | footer
  deriving DecidableEq, Repr

/-- Class attribute `open` (html.py:59, 75, 88, 119, 124, 128, 133-139, 142, 146,
154, 157, 187, 193). -/
def Kind.opening : Kind → String
  | .trow => "<tr>"
  | .table => "<table>"
  | .dtable => "<table class=\"tb-details\">"
  | .lines => "<p>"
  | .div => "<div>"
  | .pre => "<pre>"
  | .middle => "<div class=\"middle\">"
  | .sidebar => "<div class=\"sidebar\">"
  | .sbelement => "<div class=\"sidebar-element\">"
  | .sblabel => "<div class=\"sidebar-label\">"
  | .main => "<div class=\"main\">"
  | .toptitle => "<div class=\"toptitle\">"
  | .timestamps => "<div class=\"timestamps\">"
  | .mopdetails => "<div class=\"mop-details\">"
  | .sbbutton => "<div class=\"sidebar-link\">"
  | .sbactive => "<div class=\"sidebar-link-active\">"
  | .section => "<div class=\"section\">"
  | .top => "<div class=\"top\">"
  | .footer => "<div class=\"footer\">"

/-- Class attribute `close`, inherited by most (html.py:60, 76, 120, 125, 129). -/
def Kind.closing : Kind → String
  | .trow => "</tr>"
  | .table => "</table>"
  | .dtable => "</table>"
  | .lines => "</p>"
  | .pre => "</pre>"
  | _ => "</div>"

/-- Class attribute `sep`, inherited by most from `wraphtml` (html.py:17, 61, 121, 130, 143). -/
def Kind.sep : Kind → String
  | .trow => ""
  | .lines => "<br>\n"
  | .mopdetails => "<br>\n"
  | _ => "\n"

mutual
/-- What a page is made of.  `cell`: html.py:41-56, the attributes as written
after the name of the tag; `head`: the heading of a section (html.py:161);
`link`: `makelink` (html.py:37-39); `detail`: a row with a table of details
below (html.py:107-113). -/
inductive El where
  | text (s : Str)
  | wrap (k : Kind) (cs : Els)
  | cell (th : Bool) (attrs : Str) (c : El)
  | head (h2 : Bool) (title : El)
  | link (href : Str) (title : El)
  | detail (row : El) (attrs : Str) (extra : El)
inductive Els where
  | nil
  | cons (e : El) (es : Els)
end

/-- A list of elements. -/
def Els.ofList : List El → Els
  | [] => .nil
  | e :: r => .cons e (ofList r)

mutual
/-- `str` of an element (html.py:22-25, 53-54, 107-113, 161, 37-39). -/
def El.render : El → Str
  | .text s => s
  | .wrap k cs => k.opening.toList ++ (cs.render k.sep.toList ++ k.closing.toList)
  | .cell th attrs c =>
    let t := if th then "th" else "td"
    '<' :: (t.toList ++ attrs) ++ ('>' :: (c.render ++ ("</".toList ++ t.toList ++ ['>'])))
  | .head h2 c =>
    let t := if h2 then "h2" else "h3"
    '<' :: t.toList ++ ('>' :: (c.render ++ ("</".toList ++ t.toList ++ ['>'])))
  | .link href c =>
    '<' :: ("a href=\"/".toList ++ href ++ ['"']) ++ ('>' :: (c.render ++ "</a>".toList))
  | .detail row attrs x =>
    row.render ++ ("\n<tr>".toList ++ ('<' :: ("td".toList ++ attrs) ++ ('>' :: (x.render ++
      "</td></tr>".toList))))
/-- `sep.join (...)` (html.py:24). -/
def Els.render (sep : Str) : Els → Str
  | .nil => []
  | .cons e .nil => e.render
  | .cons e (.cons f es) => e.render ++ (sep ++ (Els.cons f es).render sep)
end

/-- A cell of a table (html.py:41-56), top aligned. -/
def tcell (th : Bool) (markup : Str) (c : El) : El := .cell th (" valign=\"top\" ".toList ++ markup) c

/-- Rows (html.py:58-67): of text, each item gets its cell. -/
def row (th : Bool) (cs : List Str) : El :=
  .wrap .trow (.ofList (cs.map fun s => tcell th [] (.text s)))

/-- html.py:69-72 `drow`. -/
def drow (a b : Str) : El :=
  .wrap .trow (.ofList [tcell false "class=\"td-col1\"".toList (.text a),
    tcell false "class=\"td-col2\"".toList (.text b)])

/-- html.py:87-92 `dtable`: the header is an empty text. -/
def dtable (data : List (Str × Str)) : El :=
  .wrap .dtable (.ofList (.text [] :: data.map fun d => drow d.1 d.2))

/-- html.py:94-113 `detailrow` of a row of texts with its details. -/
def detailrow (cs : List Str) (extra : List (Str × Str)) : El :=
  match cs with
  | [] => .text []                     -- the code raises; not used
  | a :: r =>
    if extra = [] then row false (a :: r)
    else .detail (.wrap .trow (.cons (tcell false "rowspan=\"2\"".toList (.text a))
        (.ofList (r.map fun s => tcell false [] (.text s)))))
      (" colspan=\"".toList ++ (toString cs.length).toList ++ "\" class=\"details\"".toList) (dtable extra)

/-- html.py:156-161 `section`. -/
def section' (title : Str) (body : El) : El :=
  .wrap .section (.ofList [.head false (.text title), body])

/-- html.py:172-174 `detail_section`. -/
def detailSection (title : Str) (header : List Str) (rows : List (List Str × List (Str × Str))) : El :=
  section' title (.wrap .table (.ofList (row true header :: rows.map fun r => detailrow r.1 r.2)))

/-- mop.py:776-825 `SysIdHandler.html` for details, for stations whose rows
and details are given as texts (mop.py:784-823): what a station sends as its software
comes as it is (mop.py:806-809, 821). -/
def mopPage (title : Str) (stations : List (List Str × List (Str × Str))) : El :=
  detailSection title (["Source addr", "Services", "HW Address", "Device", "Last heard"].map String.toList)
    stations

/-! ## The page around it (html.py:195-222) -/

/-- html.py:210-212. -/
def page1 : String := "<html><head>\n  <meta charset=\"UTF-8\">\n  <title>"
/-- html.py:212-214. -/
def page2 : String :=
  "</title>\n  <link href=\"/resources/decnet.css\" rel=\"stylesheet\" type=\"text/css\">\n  "
/-- html.py:214-218. -/
def page3 : String := "\n</head>\n<body>\n<div class=\"flex-page\">\n<div class=\"top\">"
/-- html.py:218-219. -/
def page4 : String := "</div>\n"
/-- html.py:220-222. -/
def page5 : String := "\n</body></html>\n"
/-- html.py:205-208. -/
def pageMobile : String :=
  "<link href=\"/resources/decnet_m.css\" rel=\"stylesheet\" type=\"text/css\">\n<meta name=\"viewport\" content=\"width=device-width, initial-scale=1\">"

/-- html.py:203-222 `doc.__str__` without additions to the head. -/
def page (mobile : Bool) (title : Str) (top middle bottom : El) : Str :=
  page1.toList ++ (title ++ (page2.toList ++ ((if mobile then pageMobile else "").toList ++
    (page3.toList ++ (top.render ++ (page4.toList ++ (middle.render ++ ("\n".toList ++ (bottom.render ++
      page5.toList)))))))))

end Verif.Html
