import Verif.Model.Client
import Verif.Spec.JsonText
/-!
# A client of the JSON interface: from the value of a text

`json.Unmarshal` into a `messages.Metric` (`/repo/go/tricorder/messages/api.go:99-125`), from the value that the text has by the
grammar of JSON (`Spec/JsonText`).  Simplified: field names are matched exactly, not also without regard to case; a zero has no
sign; a number for `bits` or `groupId` may be written in any way, if it is a natural number; numbers too large for `float64`, which
are an error in Go, become infinite.
-/

namespace Tricorder
open Go Spec

/-- the Go string of code points; for `/repo/go/tricorder/messages/api.go:99-125` -/
def goString (cs : List ℕ) : Str := cs.flatMap utf8

/-- decoding into the field `Value interface{}`, `/repo/go/tricorder/messages/api.go:114`; `gen` gives names to the Go values
`[]interface{}` and `map[string]interface{}` -/
def valueJ (gen : JVal → ℕ) : JVal → Val
  | .null => .nil
  | .bool b => .scalar none (.bool b)
  | .num q => .scalar none (.float64 (rnd b64 q))
  | .str cs => .scalar none (.string (goString cs))
  | .arr l => .other (gen (.arr l))
  | .obj l => .other (gen (.obj l))

/-- decoding into the field `TimeStamp interface{}`, `/repo/go/tricorder/messages/api.go:121`; how other values print is not
modelled -/
def stampJ : JVal → TS
  | .null => .nil
  | .str cs => .str (goString cs)
  | _ => .other []

/-- the last field with this name; for `/repo/go/tricorder/messages/api.go:99-125` -/
def fieldJ (key : Str) (fs : List (List ℕ × JVal)) : Option JVal :=
  ((fs.filter fun f => goString f.1 = key).getLast?).map Prod.snd

/-- decoding into a field of a string type: absent and null leave it empty, other values are errors; for
`/repo/go/tricorder/messages/api.go:101-109` -/
def textJ : Option JVal → Option Str
  | none | some .null => some []
  | some (.str cs) => some (goString cs)
  | some _ => none

/-- decoding into a field of type `int`; for `/repo/go/tricorder/messages/api.go:112,124` -/
def natJ : Option JVal → Option ℕ
  | none | some .null => some 0
  | some (.num q) => if q.den = 1 ∧ 0 ≤ q.num then some q.num.toNat else none
  | some _ => none

/-- `json.Unmarshal` into a `messages.Metric`, `/repo/go/tricorder/messages/api.go:99-125`; none is an error -/
def metricJ (gen : JVal → ℕ) : JVal → Option Metric
  | .obj fs =>
    match textJ (fieldJ (lit "path") fs), textJ (fieldJ (lit "description") fs), textJ (fieldJ (lit "unit") fs),
      textJ (fieldJ (lit "kind") fs), textJ (fieldJ (lit "subType") fs), natJ (fieldJ (lit "bits") fs),
      natJ (fieldJ (lit "groupId") fs) with
    | some path, some desc, some unit, some kind, some subType, some bits, some groupId =>
      some ⟨path, desc, .ofRaw unit, .ofName kind, .ofName subType, bits,
        ((fieldJ (lit "value") fs).map (valueJ gen)).getD .nil, ((fieldJ (lit "timestamp") fs).map stampJ).getD .nil, groupId⟩
    | _, _, _, _, _, _, _ => none
  | _ => none

/-- `json.Unmarshal` into a `messages.MetricList`, `/repo/go/tricorder/messages/api.go:140`; a null element, which the
answers never have, is an error here -/
def listJ (gen : JVal → ℕ) : JVal → Option (List Metric)
  | .arr l => mapAll (metricJ gen) l
  | _ => none

end Tricorder
