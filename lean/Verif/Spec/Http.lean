import Verif.Spec.Html
import Verif.Model.Http
/-!
# What the HTTP handlers should answer
-/

namespace Tricorder.Spec
open Go _root_.Spec

/-! ### JSON documents -/

/-- the JSON value for a value that RPC reports with metric type `t` and unit `u` -/
def JsonBase (t : Ty) (u : MUnit) : Base → Json → Prop
  | .bool b, j => j = .bool b
  | .int _ x, j => j = .int x
  | .float32 x, j => j = .num true x
  | .float64 x, j => j = .num false x
  | .string x, j => j = .str x
  | .time x, j => ∃ s, j = .str s ∧ (TimeRange x → Denotes9 s (reportedNs x * perSecond u))
  | .duration d, j => if t = .goDuration then ∃ s, j = .str s ∧ Denotes9 s (d * perSecond u) else j = .int d

/-- `fs` are the fields of an object: exactly those for which `P` holds, none twice -/
def Fields (fs : List (Str × Json)) (P : Str → Json → Prop) : Prop :=
  (fs.map Prod.fst).Nodup ∧ ∀ k j, (k, j) ∈ fs ↔ P k j

/-- the JSON object for a range -/
def JsonRange (r : RangeMsg) (j : Json) : Prop :=
  ∃ fs, j = .obj fs ∧ Fields fs fun k x =>
    k = lit "lower" ∧ x = .num false r.lower ∨ k = lit "upper" ∧ x = .num false r.upper ∨ k = lit "count" ∧ x = .int r.count

/-- the JSON object for a distribution -/
def JsonDist (d : DistMsg) (j : Json) : Prop :=
  ∃ fs rs, j = .obj fs ∧ List.Forall₂ JsonRange d.ranges rs ∧ Fields fs fun k x =>
    k = lit "min" ∧ x = .num false d.min ∨ k = lit "max" ∧ x = .num false d.max ∨
    k = lit "average" ∧ x = .num false d.average ∨ k = lit "median" ∧ x = .num false d.median ∨
    k = lit "sum" ∧ x = .num false d.sum ∨ k = lit "count" ∧ x = .int d.count ∨
    k = lit "generation" ∧ x = .int d.generation ∨
    k = lit "isNotCumulative" ∧ d.isNotCumulative = true ∧ x = .bool true ∨
    k = lit "ranges" ∧ d.ranges ≠ [] ∧ x = .arr rs

/-- the field `value`; a list of bytes is one string -/
def JsonValue (y : Metric) (j : Json) : Prop :=
  match y.value with
  | .scalar _ b => JsonBase y.kind y.unit b j
  | .slice _ e es =>
    if e.base = .int .uint8 then ∃ l : List ℤ, j = .bytes l ∧ es.getD [] = l.map (.int .uint8)
    else ∃ parts, j = .arr parts ∧ List.Forall₂ (JsonBase y.subType y.unit) (es.getD []) parts
  | .dist (some d) => JsonDist d j
  | _ => False

/-- the field `timestamp` -/
def JsonStamp : TS → Json → Prop
  | .nil, j => j = .str []
  | .time t, j => ∃ s, j = .str s ∧ (t.Valid → TimeRange t → Denotes9 s (instantNs t))
  | _, _ => False

/-- the unit as a string; the unknown unit is empty -/
def unitCode : MUnit → Str
  | .unknown => []
  | u => unitText u

/-- the JSON object for a metric, in terms of the RPC answer for this metric -/
def JsonOf (y : Metric) (j : Json) : Prop :=
  ∃ fs v ts, j = .obj fs ∧ JsonValue y v ∧ JsonStamp y.timeStamp ts ∧ Fields fs fun k x =>
    k = lit "path" ∧ x = .str y.path ∨ k = lit "description" ∧ x = .str y.description ∨
    k = lit "unit" ∧ unitCode y.unit ≠ [] ∧ x = .str (unitCode y.unit) ∨ k = lit "kind" ∧ x = .str (typeText y.kind) ∨
    k = lit "subType" ∧ y.kind = .list ∧ x = .str (typeText y.subType) ∨
    k = lit "bits" ∧ y.bits ≠ 0 ∧ x = .int y.bits ∨ k = lit "value" ∧ x = v ∨ k = lit "timestamp" ∧ x = ts ∨
    k = lit "groupId" ∧ x = .int y.groupId

/-- a number that JSON has -/
def IsFinite (x : Fl) : Prop := x ≠ .nan ∧ ∀ n, x ≠ .inf n

def FiniteBase : Base → Prop
  | .float32 x => IsFinite x
  | .float64 x => IsFinite x
  | _ => True

def FiniteDist (d : DistMsg) : Prop :=
  (∀ x ∈ [d.min, d.max, d.average, d.median, d.sum], IsFinite x) ∧ ∀ r ∈ d.ranges, IsFinite r.lower ∧ IsFinite r.upper

/-- no infinite number and no NaN in the metric -/
def FiniteMetric (y : Metric) : Prop :=
  match y.value with
  | .scalar _ b => FiniteBase b
  | .slice _ _ es => ∀ b ∈ es.getD [], FiniteBase b
  | .dist (some d) => FiniteDist d
  | _ => True

/-- the value is one of its Go type, and the metric type is that of the Go type; this is so for all metrics of registries as
in `Typed` -/
def WellTyped (y : Metric) : Prop :=
  (y.timeStamp = .nil ∨ ∃ t, y.timeStamp = .time t) ∧
  match y.value with
  | .scalar n b => b.Valid ∧ elemType (.scalar ⟨n, b.ty⟩) = some y.kind
  | .slice _ e es => y.kind = .list ∧ elemType (.scalar e) = some y.subType ∧ ElemsOk e es
  | .dist (some _) => y.kind = .dist
  | _ => False

/-! ### answers -/

/-- headers of JSON answers -/
def jsonHdr : Hdr := [(lit "Content-Type", lit "application/json"), (lit "X-Tricorder-Media-Type", lit "tricorder.v1")]

/-- the answer that was sent: status, headers, and the body in one piece -/
def Sent {W : Type} (wr : Writer W) (x : W) (v : Resp W) (code : ℕ) (hdr : Hdr) (body : Str) : Prop :=
  v.sent = some (code, hdr) ∧ v.out = (wr.write x body).1

/-- what the client gets: without a status, it is 200 with the headers as they are when the handler returns -/
def answered {W : Type} (v : Resp W) : ℕ × Hdr := v.sent.getD (200, v.hdr)

/-- a connection that takes everything; the state is what was sent -/
def sink : Writer Str := ⟨fun x b => (x ++ b, none)⟩

/-- the elements of a comma separated list -/
def commaParts : Str → List Str
  | [] => [[]]
  | b :: x => if b = 44 then [] :: commaParts x else match commaParts x with
    | [] => [[b]]
    | p :: ps => (b :: p) :: ps

/-- headers of all pages -/
def pageHdr : Hdr :=
  [(lit "X-Frame-Options", lit "DENY"), (lit "X-XSS-Protection", lit "1"),
   (lit "Content-Security-Policy", lit "default-src 'self' ;style-src 'self' 'unsafe-inline'")]

end Tricorder.Spec
