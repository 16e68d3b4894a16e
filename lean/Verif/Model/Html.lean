import Verif.Model.Read
/-!
# The HTML page

Models `/repo/go/tricorder/html.go:15-181`: the template after its preprocessing (`html.go:84-98`) and its execution.  The
strings are written one after the other, static text and values alternating, until the writer fails.

Of `html/template` the contextual escaping of values is modelled: in text the replacement of the characters that are special in
HTML (`htmlReplacementTable`), in the `href` attribute first the normalization of URLs (`processURLOnto` with `norm`).  All
links begin with `/metrics`, so the filter for unsafe schemes does not change them.
-/

namespace Tricorder
open Go

/-- the constants of `/repo/go/tricorder/types/api.go:13-34`, and `types.Type("...")` -/
def Ty.name : Ty → Str
  | .unknown => lit ""
  | .bool => lit "bool"
  | .int8 => lit "int8"
  | .int16 => lit "int16"
  | .int32 => lit "int32"
  | .int64 => lit "int64"
  | .uint8 => lit "uint8"
  | .uint16 => lit "uint16"
  | .uint32 => lit "uint32"
  | .uint64 => lit "uint64"
  | .float32 => lit "float32"
  | .float64 => lit "float64"
  | .string => lit "string"
  | .goTime => lit "goTime"
  | .goDuration => lit "goDuration"
  | .dist => lit "distribution"
  | .list => lit "list"
  | .time => lit "time"
  | .duration => lit "duration"
  | .other s => s

/-- `Unit.String`, `/repo/go/tricorder/units/api.go:17-22`, with the constants of `api.go:7-15` -/
def MUnit.string : MUnit → Str
  | .unknown => lit "Unknown"
  | .none => lit "None"
  | .millisecond => lit "Milliseconds"
  | .second => lit "Seconds"
  | .celsius => lit "Celsius"
  | .byte => lit "Bytes"
  | .bytePerSecond => lit "BytesPerSecond"
  | .other s => s

/-- `HtmlType`, `/repo/go/tricorder/html.go:129-138` -/
def htmlType : Ty → Ty
  | .goTime => .time
  | .goDuration => .duration
  | t => t

/-- replacement of one byte by `html/template` in HTML text and in quoted attributes; used by
`/repo/go/tricorder/html.go:17-74` -/
def escByte (b : UInt8) : Str :=
  if b = 0 then [239, 191, 189]
  else if b = 34 then lit "&#34;"
  else if b = 38 then lit "&amp;"
  else if b = 39 then lit "&#39;"
  else if b = 43 then lit "&#43;"
  else if b = 60 then lit "&lt;"
  else if b = 62 then lit "&gt;"
  else [b]

/-- a value in HTML text; used by `/repo/go/tricorder/html.go:17-74` -/
def esc (s : Str) : Str := s.flatMap escByte

/-- a hexadecimal digit; used by `/repo/go/tricorder/html.go:63` -/
def isHex (b : UInt8) : Bool := (48 ≤ b && b ≤ 57) || (97 ≤ b && b ≤ 102) || (65 ≤ b && b ≤ 70)

/-- lower case hexadecimal digit; used by `/repo/go/tricorder/html.go:63` -/
def hexDigit (n : ℕ) : UInt8 := if n < 10 then UInt8.ofNat (48 + n) else UInt8.ofNat (87 + n)

/-- the bytes that `html/template` leaves unchanged in a URL: letters, digits and `-._~` and `!#$&*+,/:;=?@[]`; used
by `/repo/go/tricorder/html.go:63` -/
def urlByte (b : UInt8) : Bool :=
  (48 ≤ b && b ≤ 57) || (97 ≤ b && b ≤ 122) || (65 ≤ b && b ≤ 90) ||
    (lit "-._~!#$&*+,/:;=?@[]").contains b

/-- two hexadecimal digits come first; used by `/repo/go/tricorder/html.go:63` -/
def twoHex : Str → Bool
  | x :: y :: _ => isHex x && isHex y
  | _ => false

/-- normalization of a URL by `html/template`: valid escapes stay; used by `/repo/go/tricorder/html.go:63` -/
def urlNorm : Str → Str
  | [] => []
  | b :: rest =>
    if urlByte b then b :: urlNorm rest
    else if b = 37 ∧ twoHex rest = true then 37 :: urlNorm rest
    else 37 :: hexDigit (b.toNat / 16) :: hexDigit (b.toNat % 16) :: urlNorm rest

/-- `Link`, `/repo/go/tricorder/html.go:144-146` -/
def htmlLink (path : Str) : Str := lit "/metrics" ++ path

/-- the template before and after the body, `/repo/go/tricorder/html.go:54-58` and `:71-73` -/
def pageHead : Str :=
  lit "<html>\n<head>\n  <link rel=\"stylesheet\" type=\"text/css\" href=\"/metricsstatic/theme.css\">\n</head>\n<body>\n"
/-- the template after the body, `/repo/go/tricorder/html.go:71-73` -/
def pageFoot : Str := lit "</body>\n</html>\n  "

/-- `; unit: ...` if `HasUnit`, `/repo/go/tricorder/html.go:141-143` -/
def unitPart (u : MUnit) : List Str := if u ≠ .none then [lit "; unit: ", esc u.string] else []

/-- one row of the table of a distribution, `/repo/go/tricorder/html.go:25-35` -/
def htmlPiece (fm : Fmts) (x : Piece Fl × ℕ) : List Str :=
  if x.2 = 0 then []
  else lit "            <tr>\n" ::
    ((if x.1.first then
        [lit "              <td align=\"right\">&lt;", esc (fm.v32 x.1.stop), lit ":</td><td align=\"right\">",
         esc (fmtNat x.2), lit "</td>\n"]
      else if x.1.last then
        [lit "              <td align=\"right\">&gt;=", esc (fm.v32 x.1.start), lit ":</td><td align=\"right\"> ",
         esc (fmtNat x.2), lit "</td>\n"]
      else
        [lit "              <td align=\"right\">", esc (fm.v32 x.1.start), lit "-", esc (fm.v32 x.1.stop),
         lit ":</td> <td align=\"right\">", esc (fmtNat x.2), lit "</td>\n"]) ++
    [lit "\t    </tr>\n"])

/-- table and summary of a distribution, `/repo/go/tricorder/html.go:23-41` -/
def htmlSnapshot (fm : Fmts) (x : Snapshot Fl) : List Str :=
  lit "        <table>\n" :: (x.breakdown.flatMap (htmlPiece fm) ++ lit "\t</table>\n" ::
    if x.count = 0 then []
    else [lit "\t<span class=\"summary\"> min: ", esc (fm.v32 x.min), lit " max: ", esc (fm.v32 x.max), lit " avg: ",
      esc (fm.v32 x.average), lit " &#126;median: ", esc (fm.v32 x.median), lit " sum: ", esc (fm.v32 x.sum),
      lit " count: ", esc (fmtNat x.count), lit "</span><br><br>\n"])

/-- write strings, then go on; notation of the model, for the output of `htmlTemplate.Execute`,
`/repo/go/tricorder/html.go:154,162` -/
def writing {W : Type} (wr : Writer W) (w : W) (cs : List Str) (s : Session)
    (k : W → Prog (Session × W × Status)) : Prog (Session × W × Status) :=
  match wr.all w cs with
  | (w', .ok) => k w'
  | (w', st) => .ret (s, w', st)

/-- The template `METRIC`, `/repo/go/tricorder/html.go:18-53`: the value through `Snapshot`, `HtmlStrings` or
`AsHtmlString` with the request's session, at the moment when its turn has come. -/
def htmlMetric (fm : Fmts) {W : Type} (wr : Writer W) (mv : MetricView) (s : Session) (w : W) :
    Prog (Session × W × Status) :=
  if mv.value.valType = .dist then
    writing wr w ([lit "      ", esc mv.path, lit " <span class=\"parens\">(distribution: ", esc mv.description] ++
        unitPart mv.value.unit ++ [lit ")</span><br>\n"]) s fun w' =>
      match mv.value.dist with
      | none => .ret (s, w', .panic)
      | some i => .op (.snapshot i) fun
        | none => .ret (s, w', .panic)
        | some x => .ret (s, wr.all w' (htmlSnapshot fm x.snap))
  else if mv.value.valType = .list then
    match mv.value.alist with
    | none => .ret ((s, (wr.all w [lit "      ", esc mv.path, lit " <span class=\"parens\">(list of "]).1, .panic))
    | some i => .op (.getList i) fun
      | none => .ret (s, w, .panic)
      | some x =>
        writing wr w ([lit "      ", esc mv.path, lit " <span class=\"parens\">(list of ", esc (htmlType x.subType).name,
            lit ": ", esc mv.description] ++ unitPart mv.value.unit ++ [lit ")</span>\n      <ul>\n"]) s fun w' =>
          .op (.getList i) fun
            | none => .ret (s, w', .panic)
            | some y =>
              match renderAll (fun d => valueToHtmlString fm d y.subType mv.value.unit false) (elemsOf y.val) with
              | none => .ret (s, w', .panic)
              | some xs =>
                .ret (s, wr.all w' (xs.flatMap (fun e => [lit "        <li>", esc e, lit "</li>\n"]) ++
                  [lit "      </ul>\n"]))
  else
    writing wr w [lit "      ", esc mv.path, lit " "] s fun w' =>
      (asHtmlString fm mv.value (some s)).bind fun
        | (s', .panic) => .ret (s'.getD [], w', .panic)
        | (s', .ok x) => .ret (s'.getD [], wr.all w' ([esc x, lit " <span class=\"parens\">(",
            esc (htmlType mv.value.valType).name, lit ": ", esc mv.description] ++ unitPart mv.value.unit ++
            [lit ")</span><br>\n"]))

/-- one entry of a directory page: a link or a metric, `/repo/go/tricorder/html.go:62-66` -/
def htmlEntry (fm : Fmts) {W : Type} (wr : Writer W) (en : Entry) (s : Session) (w : W) :
    Prog (Session × W × Status) :=
  match en.dir, en.metric with
  | some d, _ => .op (.dirAbsPath d) fun
    | none => .ret (s, w, .panic)
    | some p => .ret (s, wr.all w [lit "        <a href=\"", esc (urlNorm (htmlLink p)), lit "\">", esc p,
        lit "</a><br>\n"])
  | none, some m => .op (.metric m) fun
    | none => .ret (s, w, .panic)
    | some mv => htmlMetric fm wr mv s w
  | none, none => .ret (s, w, .panic)

/-- the `range` of the template over `Directory.List`, `/repo/go/tricorder/html.go:61-67` -/
def htmlEntries (fm : Fmts) {W : Type} (wr : Writer W) : List (ℕ × Entry) → Session → W →
    Prog (Session × W × Status)
  | [], s, w => .ret (s, w, .ok)
  | (_, en) :: rest, s, w => (htmlEntry fm wr en s w).bind fun
    | (s', w', .ok) => htmlEntries fm wr rest s' w'
    | (s', w', .err e) => .ret (s', w', .err e)
    | (s', w', .panic) => .ret (s', w', .panic)
    | (s', w', .timeout) => .ret (s', w', .timeout)

/-- the end of the page, if all went well; `/repo/go/tricorder/html.go:71-73` -/
def htmlEnd {W : Type} (wr : Writer W) : Session × W × Status → Prog (Session × W × Status)
  | (s, w, .ok) => .ret (s, wr.all w [pageFoot])
  | r => .ret r

/-- `htmlEmitDirectoryOrMetric`, `/repo/go/tricorder/html.go:168-181` -/
def htmlEndpoint (fm : Fmts) {W : Type} (wr : Writer W) (path : Str) (w : W) : Prog (W × Status) :=
  (lookupPath 0 path).bind fun
    | (none, none) => .ret ((wr.write w (lit "Path does not exist.")).1, .ok)
    | (some d, none) => withSession fun s => writing wr w [pageHead] s fun w' =>
        .op (.list d) fun l => (htmlEntries fm wr (sortEntries l) s w').bind (htmlEnd wr)
    | (_, some m) => withSession fun s => writing wr w [pageHead] s fun w' => .op (.metric m) fun
      | none => .ret (s, w', .panic)
      | some mv => (htmlMetric fm wr mv s w').bind (htmlEnd wr)

end Tricorder
