import Verif.Model.Http
/-!
# A client of the JSON interface

`json.Unmarshal` into a `messages.Metric` (`/repo/go/tricorder/messages/api.go:99-125`), after which the client calls
`ConvertToGoRPC` (`/repo/go/tricorder/messages/metric.go:158-183`; the comment at `:96-98` says that its input is incoming
JSON).  From the standard library: `encoding/json` on parsed documents.  Simplified: field names are matched exactly,
not also without regard to case; a negative number for `bits` or `groupId`, which the answers never have, is an error.
-/

namespace Tricorder
open Go

/-- parts of `encoding/json` that are parameters: a string as it is read back (bytes that are not UTF-8 are replaced), the
text of a string that stands for bytes, a number as a `float64`, and names for the Go values `[]interface{}` and
`map[string]interface{}` that stand for arrays and objects; for `/repo/go/tricorder/messages/api.go:114,121` -/
structure JsonIn where
  str : Str → Str
  bytes : List ℤ → Str
  int : ℤ → Fl
  num : Bool → Fl → Fl
  generic : Json → ℕ

/-- decoding into the field `Value interface{}`, `/repo/go/tricorder/messages/api.go:114` -/
def JsonIn.value (inp : JsonIn) : Json → Val
  | .null => .nil
  | .bool b => .scalar none (.bool b)
  | .int x => .scalar none (.float64 (inp.int x))
  | .num small x => .scalar none (.float64 (inp.num small x))
  | .str s => .scalar none (.string (inp.str s))
  | .bytes l => .scalar none (.string (inp.bytes l))
  | .arr l => .other (inp.generic (.arr l))
  | .obj l => .other (inp.generic (.obj l))

/-- decoding into the field `TimeStamp interface{}`, `/repo/go/tricorder/messages/api.go:121`; how other values print is
not modelled -/
def JsonIn.stamp (inp : JsonIn) : Json → TS
  | .null => .nil
  | .str s => .str (inp.str s)
  | .bytes l => .str (inp.bytes l)
  | _ => .other []

/-- the last field with this name; for `/repo/go/tricorder/messages/api.go:99-125` -/
def field (key : Str) (fs : List (Str × Json)) : Option Json :=
  ((fs.filter fun f => f.1 = key).getLast?).map Prod.snd

/-- decoding into a field of a string type: absent and null leave it empty, other values are errors; for
`/repo/go/tricorder/messages/api.go:101-109` -/
def JsonIn.text (inp : JsonIn) : Option Json → Option Str
  | none | some .null => some []
  | some (.str s) => some (inp.str s)
  | some (.bytes l) => some (inp.bytes l)
  | some _ => none

/-- decoding into a field of type `int`; for `/repo/go/tricorder/messages/api.go:112,124` -/
def jsonNat : Option Json → Option ℕ
  | none | some .null => some 0
  | some (.int x) => if 0 ≤ x then some x.toNat else none
  | some _ => none

/-- the type with this name, `/repo/go/tricorder/types/api.go:11-35` -/
def Ty.ofName (s : Str) : Ty :=
  if s = lit "" then .unknown
  else if s = lit "bool" then .bool
  else if s = lit "int8" then .int8
  else if s = lit "int16" then .int16
  else if s = lit "int32" then .int32
  else if s = lit "int64" then .int64
  else if s = lit "uint8" then .uint8
  else if s = lit "uint16" then .uint16
  else if s = lit "uint32" then .uint32
  else if s = lit "uint64" then .uint64
  else if s = lit "float32" then .float32
  else if s = lit "float64" then .float64
  else if s = lit "string" then .string
  else if s = lit "goTime" then .goTime
  else if s = lit "goDuration" then .goDuration
  else if s = lit "distribution" then .dist
  else if s = lit "list" then .list
  else if s = lit "time" then .time
  else if s = lit "duration" then .duration
  else .other s

/-- the unit that this string is, `/repo/go/tricorder/units/api.go:7-15` -/
def MUnit.ofRaw (s : Str) : MUnit :=
  if s = [] then .unknown
  else if s = lit "None" then .none
  else if s = lit "Milliseconds" then .millisecond
  else if s = lit "Seconds" then .second
  else if s = lit "Celsius" then .celsius
  else if s = lit "Bytes" then .byte
  else if s = lit "BytesPerSecond" then .bytePerSecond
  else .other s

/-- `json.Unmarshal` into a `messages.Metric`, `/repo/go/tricorder/messages/api.go:99-125`; none is an error -/
def JsonIn.metric (inp : JsonIn) : Json → Option Metric
  | .obj fs =>
    match inp.text (field (lit "path") fs), inp.text (field (lit "description") fs), inp.text (field (lit "unit") fs),
      inp.text (field (lit "kind") fs), inp.text (field (lit "subType") fs), jsonNat (field (lit "bits") fs),
      jsonNat (field (lit "groupId") fs) with
    | some path, some desc, some unit, some kind, some subType, some bits, some groupId =>
      some ⟨path, desc, .ofRaw unit, .ofName kind, .ofName subType, bits,
        ((field (lit "value") fs).map inp.value).getD .nil, ((field (lit "timestamp") fs).map inp.stamp).getD .nil, groupId⟩
    | _, _, _, _, _, _, _ => none
  | _ => none

/-- `json.Unmarshal` into a `messages.MetricList`, `/repo/go/tricorder/messages/api.go:140`; a null element, which the
answers never have, is an error here -/
def JsonIn.list (inp : JsonIn) : Json → Option (List Metric)
  | .arr l => mapAll inp.metric l
  | _ => none

end Tricorder
