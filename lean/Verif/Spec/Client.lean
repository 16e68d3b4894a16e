import Verif.Spec.Http
import Verif.Model.Client
/-!
# What a client should get from a JSON answer
-/

namespace Tricorder.Spec
open Go _root_.Spec

/-- only characters that JSON keeps -/
def Ascii (s : Str) : Prop := ∀ b ∈ s, b < 128

/-- `encoding/json` reads ASCII strings as they were written -/
def KeepsAscii (inp : JsonIn) : Prop := ∀ s, Ascii s → inp.str s = s

/-- a declared unit, or another ASCII string -/
def UnitOk (u : MUnit) : Prop :=
  ∀ s, u = .other s → Ascii s ∧ s ≠ [] ∧ s ∉ [lit "None", lit "Milliseconds", lit "Seconds", lit "Celsius", lit "Bytes",
    lit "BytesPerSecond"]

/-- the time as a client sees it: the zero time comes back as 1970 -/
def clientTime (t : Time) : Time := if t = Time.zero then ⟨0, 0⟩ else t

/-- the metric is a list of times or durations -/
def TimeList (y : Metric) : Prop := y.kind = .list ∧ (y.subType = .goTime ∨ y.subType = .goDuration)

/-- the unit is a string that JSON keeps, and times and time stamps lie within 292 million years of 1970 -/
structure Readable (y : Metric) : Prop where
  unit : UnitOk y.unit
  times : AllTimes TimeRange y.value
  stamp : ∀ t, y.timeStamp = .time t → t.Valid ∧ TimeRange t

/-- what the client has in `Value`, in terms of the RPC answer: numbers are `float64`, lists of bytes are their base64
text, other lists and distributions the generic Go value of the JSON value -/
def ClientValue (inp : JsonIn) (y : Metric) (v : Val) : Prop :=
  match y.value with
  | .scalar _ (.bool b) => v = .scalar none (.bool b)
  | .scalar _ (.int _ x) => v = .scalar none (.float64 (inp.int x))
  | .scalar _ (.float32 x) => v = .scalar none (.float64 (inp.num true x))
  | .scalar _ (.float64 x) => v = .scalar none (.float64 (inp.num false x))
  | .scalar _ (.string s) => v = .scalar none (.string (inp.str s))
  | .scalar _ (.time t) => v = .scalar none (.time (clientTime t))
  | .scalar n (.duration d) =>
    if n = none then v = .scalar none (.duration d) else v = .scalar none (.float64 (inp.int d))
  | .slice _ e es =>
    if e.base = .int .uint8 then ∃ l : List ℤ, v = .scalar none (.string (inp.bytes l)) ∧ es.getD [] = l.map (.int .uint8)
    else ∃ parts, v = .other (inp.generic (.arr parts)) ∧ List.Forall₂ (JsonBase y.subType y.unit) (es.getD []) parts
  | .dist (some d) => ∃ j, JsonDist d j ∧ v = .other (inp.generic j)
  | _ => False

/-- the client's metric `m` is the RPC answer `y` -/
structure ClientOf (inp : JsonIn) (y m : Metric) : Prop where
  path : m.path = inp.str y.path
  description : m.description = inp.str y.description
  unit : m.unit = y.unit
  kind : m.kind = y.kind
  subType : m.subType = if y.kind = .list then y.subType else .unknown
  bits : m.bits = y.bits
  value : ClientValue inp y m.value
  timeStamp : m.timeStamp = y.timeStamp
  groupId : m.groupId = y.groupId

/-- the client's metric `m`, as decoded, gives the RPC answer `y`; lists of times and durations give an error -/
def ClientGets (inp : JsonIn) (y m : Metric) : Prop :=
  (TimeList y → m.convertToGoRPC = (false, m)) ∧ (¬ TimeList y → ∃ r, m.convertToGoRPC = (true, r) ∧ ClientOf inp y r)

end Tricorder.Spec
