import Verif.Spec.Html
/-!
# How a browser reads a page

The tokenizer of HTML, as far as these pages need it: tags from `<` to `>`, where `>` in a quoted attribute value does not count,
character references, and text.  What HTML has besides, and what is no HTML, is `bad`.
-/

namespace Tricorder.Spec
open Go _root_.Spec

/-- a byte of text, a tag (what is between `<` and `>`), or something else -/
inductive Tok where
  | ch (b : UInt8)
  | tag (t : Str)
  | bad
deriving DecidableEq

/-- where the browser is: in text, in a character reference, in a tag, perhaps in a quoted value; with what it has read of it -/
inductive Mode where
  | data
  | ref (t : Str)
  | tag (t : Str) (quote : Option UInt8)
deriving DecidableEq

/-- the token for a character reference -/
def refTok (r : Str) : Tok :=
  match List.find? (fun x : Str × UInt8 => x.1 = r) (references ++ [(lit "&#126;", 126)]) with
  | some x => .ch x.2
  | none => .bad

/-- the browser reads one byte -/
def Mode.step : Mode → UInt8 → List Tok × Mode
  | .data, b =>
    if b = 60 then ([], .tag [] none)
    else if b = 38 then ([], .ref [38])
    else if b = 0 then ([.bad], .data)
    else ([.ch b], .data)
  | .ref t, b => if b = 59 then ([refTok (t ++ [b])], .data) else ([], .ref (t ++ [b]))
  | .tag t none, b =>
    if b = 62 then ([.tag t], .data)
    else if b = 34 ∨ b = 39 then ([], .tag (t ++ [b]) (some b))
    else ([], .tag (t ++ [b]) none)
  | .tag t (some q), b => ([], .tag (t ++ [b]) (if b = q then none else some q))

/-- the browser reads bytes -/
def Mode.feed : Mode → Str → List Tok × Mode
  | m, [] => ([], m)
  | m, b :: s => ((m.step b).1 ++ ((m.step b).2.feed s).1, ((m.step b).2.feed s).2)

/-- the browser reads `s` as these tokens, completely -/
def Tokens (s : Str) (ts : List Tok) : Prop := Mode.data.feed s = (ts, .data)

/-- the tags among tokens -/
def tagsIn (ts : List Tok) : List Str := ts.filterMap fun | .tag t => some t | _ => none

/-- text as it is shown: HTML has no NUL, U+FFFD is shown in its place -/
def txt (s : Str) : List Tok := (s.flatMap fun b => if b = 0 then [239, 191, 189] else [b]).map .ch

/-! ### what there is on a page -/

def tSpan : Tok := .tag (lit "span class=\"parens\"")
def tSpanEnd : Tok := .tag (lit "/span")
def tBr : Tok := .tag (lit "br")

/-- description and unit -/
def aboutText (y : Metric) : Str := y.description ++ if y.unit = .none then [] else lit "; unit: " ++ unitText y.unit

/-- the row of range number `i` of `n` ranges; none if it is empty -/
def RowDoc (fm : Fmts) (n i : ℕ) (r : RangeMsg) (ts : List Tok) : Prop :=
  if r.count = 0 then ts = []
  else ∃ c, DenotesInt c r.count ∧
    ts = txt (lit "            ") ++ [.tag (lit "tr")] ++ txt (lit "\n              ") ++ [.tag (lit "td align=\"right\"")] ++
      (if i = 0 then txt (lit "<" ++ fm.v32 r.upper ++ lit ":") ++ [.tag (lit "/td"), .tag (lit "td align=\"right\"")]
       else if i + 1 = n then
        txt (lit ">=" ++ fm.v32 r.lower ++ lit ":") ++ [.tag (lit "/td"), .tag (lit "td align=\"right\"")] ++ txt (lit " ")
       else txt (fm.v32 r.lower ++ lit "-" ++ fm.v32 r.upper ++ lit ":") ++ [.tag (lit "/td")] ++ txt (lit " ") ++
        [.tag (lit "td align=\"right\"")]) ++
      txt c ++ [.tag (lit "/td")] ++ txt (lit "\n\t    ") ++ [.tag (lit "/tr")] ++ txt (lit "\n")

/-- table and summary of a distribution -/
def DistDoc (fm : Fmts) (d : DistMsg) (ts : List Tok) : Prop :=
  ∃ (rows : List (List Tok)) (sum : List Tok), rows.length = d.ranges.length ∧
    (∀ (i : ℕ) r x, d.ranges[i]? = some r → rows[i]? = some x → RowDoc fm d.ranges.length i r x) ∧
    (if d.count = 0 then sum = []
     else ∃ c, DenotesInt c d.count ∧
      sum = txt (lit "\t") ++ [.tag (lit "span class=\"summary\"")] ++
        txt (lit " min: " ++ fm.v32 d.min ++ lit " max: " ++ fm.v32 d.max ++ lit " avg: " ++ fm.v32 d.average ++
          lit " ~median: " ++ fm.v32 d.median ++ lit " sum: " ++ fm.v32 d.sum ++ lit " count: " ++ c) ++
        [tSpanEnd, tBr, tBr] ++ txt (lit "\n")) ∧
    ts = txt (lit "        ") ++ [.tag (lit "table")] ++ txt (lit "\n") ++ rows.flatten ++ txt (lit "\t") ++
      [.tag (lit "/table")] ++ txt (lit "\n") ++ sum

/-- what a browser reads for a metric, in terms of the RPC answer for it: all strings as they are -/
def ItemDoc (fm : Fmts) (y : Metric) (ts : List Tok) : Prop :=
  match y.value with
  | .scalar _ b => ∃ v, HtmlBase fm y.kind y.unit b v ∧
      ts = txt (lit "      " ++ y.path ++ lit " " ++ v ++ lit " ") ++ [tSpan] ++
        txt (lit "(" ++ typeText y.kind ++ lit ": " ++ aboutText y ++ lit ")") ++ [tSpanEnd, tBr] ++ txt (lit "\n")
  | .slice _ _ es => ∃ vs, List.Forall₂ (HtmlBase fm y.subType y.unit) (es.getD []) vs ∧
      ts = txt (lit "      " ++ y.path ++ lit " ") ++ [tSpan] ++
        txt (lit "(list of " ++ typeText y.subType ++ lit ": " ++ aboutText y ++ lit ")") ++ [tSpanEnd] ++
        txt (lit "\n      ") ++ [.tag (lit "ul")] ++ txt (lit "\n") ++
        (vs.map fun v => txt (lit "        ") ++ [.tag (lit "li")] ++ txt v ++ [.tag (lit "/li")] ++ txt (lit "\n")).flatten ++
        txt (lit "      ") ++ [.tag (lit "/ul")] ++ txt (lit "\n")
  | .dist (some d) => ∃ ds, DistDoc fm d ds ∧
      ts = txt (lit "      " ++ y.path ++ lit " ") ++ [tSpan] ++
        txt (lit "(distribution: " ++ aboutText y ++ lit ")") ++ [tSpanEnd, tBr] ++ txt (lit "\n") ++ ds
  | _ => False

/-- the tag of a link -/
def linkTag (href : Str) : Str := lit "a href=\"" ++ href ++ lit "\""

/-- what a browser reads for a directory -/
def linkDoc (path href : Str) : List Tok :=
  txt (lit "        ") ++ [.tag (linkTag href)] ++ txt path ++ [.tag (lit "/a"), tBr] ++ txt (lit "\n")

/-- what a browser reads around the body -/
def frameDoc (body : List Tok) : List Tok :=
  [.tag (lit "html")] ++ txt (lit "\n") ++ [.tag (lit "head")] ++ txt (lit "\n  ") ++
    [.tag (lit "link rel=\"stylesheet\" type=\"text/css\" href=\"/metricsstatic/theme.css\"")] ++ txt (lit "\n") ++
    [.tag (lit "/head")] ++ txt (lit "\n") ++ [.tag (lit "body")] ++ txt (lit "\n") ++ body ++
    [.tag (lit "/body")] ++ txt (lit "\n") ++ [.tag (lit "/html")] ++ txt (lit "\n  ")

/-! ### the tags alone -/

/-- the tags for a metric depend on what kind of metric it is, how many elements a list has, and which ranges are empty -/
def itemTags (y : Metric) : List Str :=
  match y.value with
  | .scalar _ _ => [lit "span class=\"parens\"", lit "/span", lit "br"]
  | .slice _ _ es => [lit "span class=\"parens\"", lit "/span", lit "ul"] ++
      ((es.getD []).flatMap fun _ => [lit "li", lit "/li"]) ++ [lit "/ul"]
  | .dist (some d) => [lit "span class=\"parens\"", lit "/span", lit "br", lit "table"] ++
      (d.ranges.flatMap fun r => if r.count = 0 then []
        else [lit "tr", lit "td align=\"right\"", lit "/td", lit "td align=\"right\"", lit "/td", lit "/tr"]) ++
      [lit "/table"] ++ if d.count = 0 then [] else [lit "span class=\"summary\"", lit "/span", lit "br", lit "br"]
  | _ => []

/-- all tags of the pages, without the links -/
def fixedTags : List Str :=
  [lit "html", lit "head", lit "link rel=\"stylesheet\" type=\"text/css\" href=\"/metricsstatic/theme.css\"", lit "/head",
    lit "body", lit "/body", lit "/html", lit "span class=\"parens\"", lit "span class=\"summary\"", lit "/span", lit "br",
    lit "table", lit "tr", lit "td align=\"right\"", lit "/td", lit "/tr", lit "/table", lit "ul", lit "li", lit "/li",
    lit "/ul", lit "/a"]

/-- a link within the pages: the address begins with `/metrics` and has no quotes, spaces, `<` or `>` -/
def LocalLink (t : Str) : Prop :=
  ∃ p, t = linkTag (lit "/metrics" ++ p) ∧ ∀ b ∈ p, b ∉ [0, 32, 34, 39, 60, 62]

/-- only tags of the pages, and nothing that a browser has to guess about -/
def SafeMarkup (ts : List Tok) : Prop :=
  Tok.bad ∉ ts ∧ ∀ t, Tok.tag t ∈ ts → t ∈ fixedTags ∨ LocalLink t

end Tricorder.Spec
