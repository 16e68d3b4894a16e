import Verif.Model.Http
import Verif.Go.Utf8
/-!
# The text of JSON answers

`json.Marshal` and `json.Indent` of the standard library, as used by `/repo/go/tricorder/json.go:44,48,55`, from JSON values
(`Json`) to bytes.  A parameter is how floating point numbers are written (`strconv.AppendFloat`).
-/

namespace Tricorder
open Go

/-- parts of `encoding/json` that are parameters: the text of a floating point number (`true` for `float32`), and whether
backspace and form feed are written `\b` and `\f` (they are since Go 1.22, before `\u0008` and `\u000c`); used by
`/repo/go/tricorder/json.go:44,48` -/
structure JsonFmt where
  num : Bool → Fl → Str
  bf : Bool

/-- the array `hex` of `encoding/json`; used by `/repo/go/tricorder/json.go:44,48` -/
def jsonHex (n : ℕ) : UInt8 := if n < 10 then UInt8.ofNat (48 + n) else UInt8.ofNat (87 + n)

/-- the escape of an ASCII character that is not written as it is; used by `/repo/go/tricorder/json.go:44,48` -/
def escapeByte (f : JsonFmt) (b : UInt8) : Str :=
  if b = 92 ∨ b = 34 then [92, b]
  else if b = 10 then [92, 110]
  else if b = 13 then [92, 114]
  else if b = 9 then [92, 116]
  else if f.bf = true ∧ b = 8 then [92, 98]
  else if f.bf = true ∧ b = 12 then [92, 102]
  else [92, 117, 48, 48, jsonHex (b.toNat / 16), jsonHex (b.toNat % 16)]

/-- written as it is: `htmlSafeSet` of `encoding/json`; used by `/repo/go/tricorder/json.go:44,48` -/
def htmlSafe (b : UInt8) : Bool := decide (32 ≤ b) && b != 34 && b != 92 && b != 60 && b != 62 && b != 38

/-- the characters of a string; `s.length` steps suffice; used by `/repo/go/tricorder/json.go:44,48` -/
def quoteAux (f : JsonFmt) : ℕ → Str → Str
  | 0, _ => []
  | _, [] => []
  | fuel + 1, b :: s =>
    if b < 0x80 then (if htmlSafe b then [b] else escapeByte f b) ++ quoteAux f fuel s
    else
      let (c, n) := decodeRune (b :: s)
      (if c = 0xFFFD ∧ n = 1 then [92, 117, 102, 102, 102, 100]
        else if c = 0x2028 ∨ c = 0x2029 then [92, 117, 50, 48, 50, jsonHex (c % 16)]
        else (b :: s).take n) ++ quoteAux f fuel ((b :: s).drop n)

/-- a string in quotes; used by `/repo/go/tricorder/json.go:44,48` -/
def quoteJson (f : JsonFmt) (s : Str) : Str := 34 :: quoteAux f s.length s ++ [34]

/-- the alphabet of `base64.StdEncoding`; used by `/repo/go/tricorder/json.go:44,48` -/
def base64Digit (n : ℕ) : UInt8 :=
  if n < 26 then UInt8.ofNat (65 + n)
  else if n < 52 then UInt8.ofNat (71 + n)
  else if n < 62 then UInt8.ofNat (n - 4)
  else if n = 62 then 43
  else 47

/-- `base64.StdEncoding`; used by `/repo/go/tricorder/json.go:44,48` -/
def base64 : List ℕ → Str
  | [] => []
  | [a] => [base64Digit (a / 4), base64Digit (a % 4 * 16), 61, 61]
  | [a, b] => [base64Digit (a / 4), base64Digit (a % 4 * 16 + b / 16), base64Digit (b % 16 * 4), 61]
  | a :: b :: c :: l =>
    base64Digit (a / 4) :: base64Digit (a % 4 * 16 + b / 16) :: base64Digit (b % 16 * 4 + c / 64) ::
      base64Digit (c % 64) :: base64 l

/-- a floating point number; those that are not finite are an error, see `jsonNum`, and in no document; used by
`/repo/go/tricorder/json.go:44,48` -/
def floatJson (f : JsonFmt) (small : Bool) (x : Fl) : Str := if x.isInf || x.isNaN then [48] else f.num small x

mutual
/-- `json.Marshal`, `/repo/go/tricorder/json.go:44,48` -/
def marshal (f : JsonFmt) : Json → Str
  | .null => lit "null"
  | .bool true => lit "true"
  | .bool false => lit "false"
  | .int x => fmtInt x
  | .num small x => floatJson f small x
  | .str s => quoteJson f s
  | .bytes l => 34 :: base64 (l.map Int.toNat) ++ [34]
  | .arr l => 91 :: marshalElems f l ++ [93]
  | .obj l => 123 :: marshalFields f l ++ [125]
/-- the elements of an array; used by `/repo/go/tricorder/json.go:44,48` -/
def marshalElems (f : JsonFmt) : List Json → Str
  | [] => []
  | [j] => marshal f j
  | j :: l => marshal f j ++ 44 :: marshalElems f l
/-- the fields of a struct; used by `/repo/go/tricorder/json.go:44,48` -/
def marshalFields (f : JsonFmt) : List (Str × Json) → Str
  | [] => []
  | [(k, j)] => quoteJson f k ++ 58 :: marshal f j
  | (k, j) :: l => quoteJson f k ++ 58 :: marshal f j ++ 44 :: marshalFields f l
end

/-- where `json.Indent` is: outside strings, in a string, in a string after a backslash.  This is what it uses of the state of
the scanner, if the input is a JSON text; used by `/repo/go/tricorder/json.go:55` -/
inductive Scan where
  | out
  | str
  | esc

/-- the variables of `json.Indent`; used by `/repo/go/tricorder/json.go:55` -/
structure IndentSt where
  depth : ℕ
  need : Bool
  scan : Scan

/-- `newline` of `json.Indent` with the arguments `""` and `"\t"`, `/repo/go/tricorder/json.go:55` -/
def newline (depth : ℕ) : Str := 10 :: List.replicate depth 9

/-- the bytes written for a pending indentation; used by `/repo/go/tricorder/json.go:55` -/
def IndentSt.pending (st : IndentSt) : Str := if st.need then newline (st.depth + 1) else []

/-- a pending indentation is written; used by `/repo/go/tricorder/json.go:55` -/
def IndentSt.settle (st : IndentSt) : IndentSt := if st.need then ⟨st.depth + 1, false, st.scan⟩ else st

/-- one byte of `json.Indent`: what is written, and the variables afterwards; used by `/repo/go/tricorder/json.go:55` -/
def indentByte (st : IndentSt) (c : UInt8) : Str × IndentSt :=
  match st.scan with
  | .str => ([c], { st with scan := if c = 92 then .esc else if c = 34 then .out else .str })
  | .esc => ([c], { st with scan := .str })
  | .out =>
    if c = 32 ∨ c = 9 ∨ c = 10 ∨ c = 13 then ([], st)
    else if c = 125 ∨ c = 93 then
      if st.need then ([c], { st with need := false })
      else (newline (st.depth - 1) ++ [c], { st with depth := st.depth - 1 })
    else
      let st' := st.settle
      (st.pending ++
        if c = 44 then 44 :: newline st'.depth else if c = 58 then [58, 32] else [c],
        if c = 123 ∨ c = 91 then { st' with need := true } else if c = 34 then { st' with scan := .str } else st')

/-- the loop of `json.Indent`; used by `/repo/go/tricorder/json.go:55` -/
def indentFrom : IndentSt → Str → Str
  | _, [] => []
  | st, c :: s => (indentByte st c).1 ++ indentFrom (indentByte st c).2 s

/-- `json.Indent`, `/repo/go/tricorder/json.go:55` -/
def indent (s : Str) : Str := indentFrom ⟨0, false, .out⟩ s

/-- the body of a JSON answer, `/repo/go/tricorder/json.go:44-56` -/
def jsonText (f : JsonFmt) (j : Json) : Str := indent (marshal f j)

end Tricorder
