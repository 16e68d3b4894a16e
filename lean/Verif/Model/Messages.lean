import Verif.Model.Types
/-!
# Package `messages`

Models `/repo/go/tricorder/messages/metric.go` and `/repo/go/tricorder/messages/api.go`.
-/

namespace Tricorder
open Go

/-- the dynamic value of the field `TimeStamp interface{}`; `/repo/go/tricorder/messages/api.go:121` -/
inductive TS where
  | nil
  | time (t : Time)
  | str (s : Str)
  /-- any other type; `shown` is what `fmt.Sprintf("%v", i)` gives for it -/
  | other (shown : Str)
deriving DecidableEq, Repr

/-- `messages.Metric`, `/repo/go/tricorder/messages/api.go:99-125` -/
structure Metric where
  path : Str
  description : Str
  unit : MUnit
  kind : Ty
  subType : Ty
  bits : Nat
  value : Val
  timeStamp : TS
  groupId : Nat
deriving DecidableEq, Repr

/-- `timeAsString`, `/repo/go/tricorder/messages/metric.go:185-191` -/
def timeAsString (t : Time) (unit : MUnit) : Str :=
  let dur : Dur := if !t.isZero then Dur.sinceEpoch t else ⟨0, 0⟩
  dur.stringUsingUnits unit

/-- `stringAsTime`, `/repo/go/tricorder/messages/metric.go:193-201` -/
def stringAsTime (s : Str) (unit : MUnit) : Option Time :=
  (Dur.parseWithUnit s unit).map Dur.asGoTime

/-- `durationAsString`, `/repo/go/tricorder/messages/metric.go:203-205` -/
def durationAsString (d : Int) (unit : MUnit) : Str := (Dur.new d).stringUsingUnits unit

/-- `stringAsDuration`, `/repo/go/tricorder/messages/metric.go:207-215` -/
def stringAsDuration (s : Str) (unit : MUnit) : Option Int :=
  (Dur.parseWithUnit s unit).map Dur.asGoDuration

/-- `valueAsString`, `/repo/go/tricorder/messages/metric.go:12-18`: exact dynamic type `string` -/
def valueAsString : Val → Option Str
  | .scalar none (.string s) => some s
  | _ => none

/-- the strings in a list of scalars (used for elements of a `[]string`);
`/repo/go/tricorder/messages/metric.go:20-26` -/
def strOf : Base → Str
  | .string s => s
  | _ => []

/-- `valueAsStringSlice`, `/repo/go/tricorder/messages/metric.go:20-26`: exact dynamic type
`[]string` (a nil slice has length zero) -/
def valueAsStringSlice : Val → Option (List Str)
  | .slice none ⟨none, .string⟩ es => some ((es.getD []).map strOf)
  | _ => none

/-- the conversion loop: stops with an error at the first element that does not parse;
`/repo/go/tricorder/messages/metric.go:28-91` -/
def mapAll {α β : Type} (f : α → Option β) : List α → Option (List β)
  | [] => some []
  | x :: xs => match f x with
    | none => none
    | some y => match mapAll f xs with
      | none => none
      | some ys => some (y :: ys)

/-- `asGoRPC`, `/repo/go/tricorder/messages/metric.go:28-91`; `none` is a non-nil error. -/
def asGoRPC (value : Val) (kind subType : Ty) (unit : MUnit) : Option (Val × Ty × Ty) :=
  match kind with
  | .duration =>
    match valueAsString value with
    | none => none
    | some s => match stringAsDuration s unit with
      | none => none
      | some d => some (.scalar none (.duration d), .goDuration, .unknown)
  | .time =>
    match valueAsString value with
    | none => none
    | some s => match stringAsTime s unit with
      | none => none
      | some t => some (.scalar none (.time t), .goTime, .unknown)
  | .list =>
    match subType with
    | .duration =>
      match valueAsStringSlice value with
      | none => none
      | some ss => match mapAll (fun s => stringAsDuration s unit) ss with
        | none => none
        | some ds => some (.slice none ⟨none, .duration⟩ (some (ds.map .duration)), .list, .goDuration)
    | .time =>
      match valueAsStringSlice value with
      | none => none
      | some ss => match mapAll (fun s => stringAsTime s unit) ss with
        | none => none
        | some ts => some (.slice none ⟨none, .time⟩ (some (ts.map .time)), .list, .goTime)
    | st => some (value, .list, st)
  | k => some (value, k, .unknown)

/-- the durations in a `[]time.Duration`; `/repo/go/tricorder/messages/metric.go:93-142` -/
def durOf : Base → Int
  | .duration d => d
  | _ => 0

/-- the times in a `[]time.Time`; `/repo/go/tricorder/messages/metric.go:93-142` -/
def timeOf : Base → Time
  | .time t => t
  | _ => Time.zero

/-- `asJson`, `/repo/go/tricorder/messages/metric.go:93-142`; `none` is a panic (failed type
assertion, or `IsNil` of a value that has no nil).  In the last case of a list metric, a value
that is neither a slice nor a `*Distribution` is treated as panicking; Go also lets a non-nil map,
channel, function or pointer through unchanged there, which only a malformed metric can hold. -/
def asJson (value : Val) (kind subType : Ty) (unit : MUnit) : Option (Val × Ty × Ty) :=
  match kind with
  | .goDuration => match value with
    | .scalar none (.duration d) =>
      some (.scalar none (.string (durationAsString d unit)), .duration, .unknown)
    | _ => none
  | .goTime => match value with
    | .scalar none (.time t) =>
      some (.scalar none (.string (timeAsString t unit)), .time, .unknown)
    | _ => none
  | .list => match subType with
    | .goDuration => match value with
      | .slice none ⟨none, .duration⟩ es =>
        some (.slice none ⟨none, .string⟩
          (some (((es.getD []).map fun b => durationAsString (durOf b) unit).map .string)),
          .list, .duration)
      | _ => none
    | .goTime => match value with
      | .slice none ⟨none, .time⟩ es =>
        some (.slice none ⟨none, .string⟩
          (some (((es.getD []).map fun b => timeAsString (timeOf b) unit).map .string)),
          .list, .time)
      | _ => none
    | st => match value with
      | .slice n e es => some (.slice n e (some (es.getD [])), .list, st)
      | .dist (some d) => some (.dist (some d), .list, st)
      | _ => none
  | k => some (value, k, .unknown)

/-- `convertToJson`, `/repo/go/tricorder/messages/metric.go:144-156`; `none` is a panic. -/
def Metric.convertToJson (m : Metric) : Option Metric :=
  match asJson m.value m.kind m.subType m.unit with
  | none => none
  | some (v, k, s) =>
    let ts := match m.timeStamp with
      | .nil => TS.str []
      | .time t => TS.str (Dur.sinceEpoch t).toString
      | .str s => TS.str s
      | .other shown => TS.str shown
    some { m with value := v, kind := k, subType := s, timeStamp := ts }

/-- the time stamp half of `convertToGoRPC`, `/repo/go/tricorder/messages/metric.go:163-179`;
`none` is an error -/
def tsToGoRPC : TS → Option TS
  | .nil => some .nil
  | .time t => some (.time t)
  | .str s =>
    if s = [] then some .nil
    else (stringAsTime s .second).map TS.time
  | .other _ => none

/-- `convertToGoRPC`, `/repo/go/tricorder/messages/metric.go:158-183`.  Returns whether the call
succeeded and the metric afterwards (the method works in place). -/
def Metric.convertToGoRPC (m : Metric) : Bool × Metric :=
  match asGoRPC m.value m.kind m.subType m.unit with
  | none => (false, m)
  | some (v, k, s) =>
    match tsToGoRPC m.timeStamp with
    | none => (false, m)
    | some ts => (true, { m with value := v, kind := k, subType := s, timeStamp := ts })

end Tricorder
