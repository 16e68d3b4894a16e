import Verif.Spec.Text
import Verif.Spec.Render
import Verif.Spec.Duration
/-!
# What the HTML page should show

`fm` is the formatting of floating point numbers and times by the Go library.
-/

namespace Tricorder.Spec
open Go _root_.Spec

/-- character references of HTML -/
def references : List (Str × UInt8) :=
  [(lit "&amp;", 38), (lit "&lt;", 60), (lit "&gt;", 62), (lit "&quot;", 34), (lit "&#34;", 34), (lit "&#39;", 39), (lit "&#43;", 43)]

/-- `e` is HTML text, without any markup, that a browser shows as `s`: special characters occur only as references.
HTML has no NUL; the replacement character U+FFFD is shown in its place. -/
inductive Escapes : Str → Str → Prop where
  | nil : Escapes [] []
  | plain {b : UInt8} {e s : Str} : b ∉ [0, 34, 38, 39, 60, 62] → Escapes e s → Escapes (b :: e) (b :: s)
  | ref {r : Str} {b : UInt8} {e s : Str} : (r, b) ∈ references → Escapes e s → Escapes (r ++ e) (b :: s)
  | nul {e s : Str} : Escapes e s → Escapes ([239, 191, 189] ++ e) (0 :: s)

/-- the name of a metric type on the page -/
def typeText : Ty → Str
  | .unknown => []
  | .bool => lit "bool"
  | .int8 => lit "int8" | .int16 => lit "int16" | .int32 => lit "int32" | .int64 => lit "int64"
  | .uint8 => lit "uint8" | .uint16 => lit "uint16" | .uint32 => lit "uint32" | .uint64 => lit "uint64"
  | .float32 => lit "float32" | .float64 => lit "float64"
  | .string => lit "string"
  | .goTime | .time => lit "time"
  | .goDuration | .duration => lit "duration"
  | .dist => lit "distribution"
  | .list => lit "list"
  | .other s => s

/-- the name of a unit on the page -/
def unitText : MUnit → Str
  | .unknown => lit "Unknown"
  | .none => lit "None"
  | .millisecond => lit "Milliseconds"
  | .second => lit "Seconds"
  | .celsius => lit "Celsius"
  | .byte => lit "Bytes"
  | .bytePerSecond => lit "BytesPerSecond"
  | .other s => s

/-- an integer: without unit the numeral with a comma before each group of three digits; else scaled -/
def HtmlInt (u : MUnit) (x : ℤ) (s : Str) : Prop :=
  if u = .none then
    ∃ ws g, AllDigits ws ∧ NoLeadingZero ws ∧ x.natAbs = numVal ws ∧ Grouped 44 3 ws g ∧
      s = (if x < 0 then [45] else []) ++ g
  else Compact s x (radixFor u) (u = .bytePerSecond)

/-- what is shown for a value that is reported with metric type `t` and unit `u` -/
def HtmlBase (fm : Fmts) (t : Ty) (u : MUnit) : Base → Str → Prop
  | .bool b, s => s = if b then lit "true" else lit "false"
  | .int _ x, s => HtmlInt u x s
  | .float32 x, s => s = fm.f32 x
  | .float64 x, s => s = fm.f64 x
  | .string x, s => s = lit "\"" ++ x ++ lit "\""
  | .time x, s => s = fm.time x
  | .duration d, s =>
    if t = .goDuration then if d < 0 then Denotes9 s (d * perSecond u) else Pretty d.toNat s else HtmlInt u d s

/-- the same, escaped -/
def HtmlValue (fm : Fmts) (t : Ty) (u : MUnit) (b : Base) (e : Str) : Prop := ∃ s, HtmlBase fm t u b s ∧ Escapes e s

/-- the row of range number `i` of `n` ranges; none if it is empty -/
def HtmlRange (fm : Fmts) (n i : ℕ) (r : RangeMsg) (s : Str) : Prop :=
  if r.count = 0 then s = []
  else ∃ c lo hi, DenotesInt c r.count ∧ Escapes lo (fm.v32 r.lower) ∧ Escapes hi (fm.v32 r.upper) ∧
    s = lit "            <tr>\n              <td align=\"right\">" ++
      (if i = 0 then lit "&lt;" ++ hi ++ lit ":</td><td align=\"right\">"
       else if i + 1 = n then lit "&gt;=" ++ lo ++ lit ":</td><td align=\"right\"> "
       else lo ++ lit "-" ++ hi ++ lit ":</td> <td align=\"right\">") ++ c ++ lit "</td>\n\t    </tr>\n"

/-- the table and the summary of a distribution -/
def HtmlDist (fm : Fmts) (d : DistMsg) (s : Str) : Prop :=
  ∃ (rows : List Str) (sum : Str), rows.length = d.ranges.length ∧
    (∀ (i : ℕ) r x, d.ranges[i]? = some r → rows[i]? = some x → HtmlRange fm d.ranges.length i r x) ∧
    (if d.count = 0 then sum = []
     else ∃ mn mx av me su c, Escapes mn (fm.v32 d.min) ∧ Escapes mx (fm.v32 d.max) ∧ Escapes av (fm.v32 d.average) ∧
       Escapes me (fm.v32 d.median) ∧ Escapes su (fm.v32 d.sum) ∧ DenotesInt c d.count ∧
       sum = lit "\t<span class=\"summary\"> min: " ++ mn ++ lit " max: " ++ mx ++ lit " avg: " ++ av ++
         lit " &#126;median: " ++ me ++ lit " sum: " ++ su ++ lit " count: " ++ c ++ lit "</span><br><br>\n") ∧
    s = lit "        <table>\n" ++ rows.flatten ++ lit "\t</table>\n" ++ sum

/-- description and unit -/
def HtmlAbout (y : Metric) (s : Str) : Prop :=
  ∃ d, Escapes d y.description ∧
    if y.unit = .none then s = d else ∃ u, Escapes u (unitText y.unit) ∧ s = d ++ lit "; unit: " ++ u

/-- what is shown for a metric, in terms of the RPC answer for this metric -/
def HtmlOf (fm : Fmts) (y : Metric) (s : Str) : Prop :=
  ∃ p a, Escapes p y.path ∧ HtmlAbout y a ∧ match y.value with
    | .scalar _ b => ∃ t e, Escapes t (typeText y.kind) ∧ HtmlValue fm y.kind y.unit b e ∧
        s = lit "      " ++ p ++ lit " " ++ e ++ lit " <span class=\"parens\">(" ++ t ++ lit ": " ++ a ++ lit ")</span><br>\n"
    | .slice _ _ es => ∃ t parts, Escapes t (typeText y.subType) ∧
        List.Forall₂ (HtmlValue fm y.subType y.unit) (es.getD []) parts ∧
        s = lit "      " ++ p ++ lit " <span class=\"parens\">(list of " ++ t ++ lit ": " ++ a ++
          lit ")</span>\n      <ul>\n" ++ (parts.map fun e => lit "        <li>" ++ e ++ lit "</li>\n").flatten ++
          lit "      </ul>\n"
    | .dist (some d) => ∃ x, HtmlDist fm d x ∧
        s = lit "      " ++ p ++ lit " <span class=\"parens\">(distribution: " ++ a ++ lit ")</span><br>\n" ++ x
    | _ => False

/-- the whole page around its body -/
def htmlFrame (body : Str) : Str :=
  lit "<html>\n<head>\n  <link rel=\"stylesheet\" type=\"text/css\" href=\"/metricsstatic/theme.css\">\n</head>\n<body>\n" ++
    body ++ lit "</body>\n</html>\n  "

/-- the line for a directory: a link `href` and its path -/
def HtmlLink (path : Str) (href s : Str) : Prop :=
  ∃ p, Escapes p path ∧ s = lit "        <a href=\"" ++ href ++ lit "\">" ++ p ++ lit "</a><br>\n"

/-! ### following links -/

/-- the value of a hexadecimal digit -/
def hexVal (b : UInt8) : Option ℕ :=
  if 48 ≤ b ∧ b ≤ 57 then some (b.toNat - 48)
  else if 97 ≤ b ∧ b ≤ 102 then some (b.toNat - 87)
  else if 65 ≤ b ∧ b ≤ 70 then some (b.toNat - 55)
  else none

/-- percent decoding of the path of a URL by the server; `none` if an escape is malformed -/
def unpercent : Str → Option Str
  | [] => some []
  | b :: rest =>
    if b = 37 then
      match rest with
      | x :: y :: rest' => match hexVal x, hexVal y with
        | some i, some j => (unpercent rest').map (UInt8.ofNat (16 * i + j) :: ·)
        | _, _ => none
      | _ => none
    else (unpercent rest).map (b :: ·)

/-- the path that the browser asks for: up to the query or the fragment -/
def urlPath (u : Str) : Str := u.takeWhile fun b => b ≠ 35 ∧ b ≠ 63

/-- `.` and `..` are resolved by browser and server, also if the dots are percent encoded; `acc` is reversed -/
def removeDots : List Str → List Str → List Str
  | acc, [] => acc.reverse
  | acc, x :: rest =>
    if unpercent x = some (lit ".") then removeDots (if rest = [] then [] :: acc else acc) rest
    else if unpercent x = some (lit "..") then removeDots (if rest = [] then [] :: acc.tail else acc.tail) rest
    else removeDots (x :: acc) rest

/-- The link `href` leads to the page for the path `p`: the browser decodes the attribute, cuts off query and fragment,
resolves dots and asks for the rest; the server decodes it and strips `/metrics`. -/
def LeadsTo (href p : Str) : Prop :=
  ∃ url, Escapes href url ∧
    unpercent (List.intercalate [47] (removeDots [] (splitByte 47 (urlPath url)))) = some (lit "/metrics" ++ p)

/-- names that keep their meaning in a link: no `?` or `#`, no `%` before two hexadecimal digits, not `.` or `..` -/
def PlainName (n : Str) : Prop :=
  (∀ b ∈ n, b ≠ 35 ∧ b ≠ 63) ∧ n ≠ lit "." ∧ n ≠ lit ".." ∧
    ∀ a x y b, n = a ++ 37 :: x :: y :: b → hexVal x = none ∨ hexVal y = none

/-- the absolute path with these components -/
def pathOf (c : List Str) : Str := lit "/" ++ List.intercalate (lit "/") c

end Tricorder.Spec
