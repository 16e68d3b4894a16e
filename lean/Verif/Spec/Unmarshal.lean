import Verif.Spec.Client
import Verif.Spec.JsonText
/-!
# What a client should get from the bytes of a JSON answer
-/

namespace Tricorder.Spec
open Go _root_.Spec

/-- `v` is the value of the metric `y`.  All numbers are `float64` now: integers are exact up to 2⁵³, `float64` numbers
are the same but for the sign of a zero, a `float32` number comes as the `float64` nearest to its text.  Strings are the same
if they are UTF-8.  Times and durations are the same, but the zero time is 1970 (`clientTime`).  A list of bytes comes as its base64
text; other lists and distributions as the generic Go value of the JSON value. -/
def Received (gen : JVal → ℕ) (y : Metric) (v : Val) : Prop :=
  match y.value with
  | .scalar _ (.bool b) => v = .scalar none (.bool b)
  | .scalar _ (.int _ x) => ∃ z, v = .scalar none (.float64 z) ∧ (|x| ≤ 2 ^ 53 → z = .fin x)
  | .scalar _ (.float64 x) => v = .scalar none (.float64 x) ∨ x = .negZero ∧ v = .scalar none (.float64 (.fin 0))
  | .scalar _ (.float32 x) => ∃ q, ReadsAs true q x ∧ v = .scalar none (.float64 (rnd b64 q))
  | .scalar _ (.string s) => Utf8Text s → v = .scalar none (.string s)
  | .scalar _ (.time t) => v = .scalar none (.time (clientTime t))
  | .scalar none (.duration d) => v = .scalar none (.duration d)
  | .scalar (some _) (.duration d) => ∃ z, v = .scalar none (.float64 z) ∧ (|d| ≤ 2 ^ 53 → z = .fin d)
  | .slice _ e es =>
    if e.base = .int .uint8 then
      ∃ (l : List ℤ) (t : Str), es.getD [] = l.map (.int .uint8) ∧ Base64 (l.map Int.toNat) (t.map UInt8.toNat) ∧
        v = .scalar none (.string t)
    else ∃ j u, JsonValue y j ∧ Means j u ∧ v = .other (gen u)
  | _ => ∃ j u, JsonValue y j ∧ Means j u ∧ v = .other (gen u)

/-- the client has the metric `y`, as `m` -/
structure Recovered (gen : JVal → ℕ) (y m : Metric) : Prop where
  path : Utf8Text y.path → m.path = y.path
  description : Utf8Text y.description → m.description = y.description
  unit : m.unit = y.unit
  kind : m.kind = y.kind
  subType : m.subType = if y.kind = .list then y.subType else .unknown
  bits : m.bits = y.bits
  value : Received gen y m.value
  timeStamp : m.timeStamp = y.timeStamp
  groupId : m.groupId = y.groupId

/-- the metric `m`, as decoded, gives `y`; lists of times and durations give an error -/
def Gives (gen : JVal → ℕ) (y m : Metric) : Prop :=
  (TimeList y → m.convertToGoRPC = (false, m)) ∧ (¬ TimeList y → ∃ r, m.convertToGoRPC = (true, r) ∧ Recovered gen y r)

end Tricorder.Spec
