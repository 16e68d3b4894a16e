import Verif.Model.Value
import Verif.Model.Duration
/-!
# Package `types` and the floating point part of package `duration`

Models `/repo/go/tricorder/types/api.go`, `/repo/go/tricorder/types/types.go` and
`/repo/go/tricorder/duration/duration.go:34-39,57-59`,
`/repo/go/tricorder/duration/api.go:82-99`.
-/

namespace Tricorder
open Go

/-- the `case` list of predeclared scalar types in `FromGoValueWithSubType`,
`/repo/go/tricorder/types/api.go:54-81`; plain `int` and `uint` are not listed. -/
def scalarKind : BaseTy → Option Ty
  | .bool => some .bool
  | .int .int8 => some .int8
  | .int .int16 => some .int16
  | .int .int32 => some .int32
  | .int .int64 => some .int64
  | .int .uint8 => some .uint8
  | .int .uint16 => some .uint16
  | .int .uint32 => some .uint32
  | .int .uint64 => some .uint64
  | .int .int => none
  | .int .uint => none
  | .float32 => some .float32
  | .float64 => some .float64
  | .string => some .string
  | .time => some .goTime
  | .duration => some .goDuration

/-- `FromGoValueWithSubType`, `/repo/go/tricorder/types/api.go:52-129`.  A type switch matches the
exact dynamic type, so user-declared types fall through.  `case goValue` (line 82) matches
`*messages.Distribution`; other user types that happen to have a method `Type() types.Type` are
not modelled. -/
def fromGoValueWithSubType : Val → Ty × Ty
  | .nil => (.unknown, .unknown)
  | .scalar none v => match scalarKind v.ty with
    | some k => (k, .unknown)
    | none => (.unknown, .unknown)
  | .scalar (some _) _ => (.unknown, .unknown)
  | .dist _ => (.dist, .unknown)
  | .slice none ⟨none, b⟩ _ => match scalarKind b with
    | some k => (.list, k)
    | none => (.unknown, .unknown)
  | .slice _ _ _ => (.unknown, .unknown)
  | .other _ => (.unknown, .unknown)

/-- `FromGoValue`, `/repo/go/tricorder/types/api.go:41-44` -/
def fromGoValue (v : Val) : Ty := (fromGoValueWithSubType v).1

/-- `SafeZeroValue`, `/repo/go/tricorder/types/api.go:133-168`; `none` is an error. -/
def safeZeroValue : Ty → Option Val
  | .bool => some (.scalar none (.bool false))
  | .int8 => some (.scalar none (.int .int8 0))
  | .int16 => some (.scalar none (.int .int16 0))
  | .int32 => some (.scalar none (.int .int32 0))
  | .int64 => some (.scalar none (.int .int64 0))
  | .uint8 => some (.scalar none (.int .uint8 0))
  | .uint16 => some (.scalar none (.int .uint16 0))
  | .uint32 => some (.scalar none (.int .uint32 0))
  | .uint64 => some (.scalar none (.int .uint64 0))
  | .float32 => some (.scalar none (.float32 (.fin 0)))
  | .float64 => some (.scalar none (.float64 (.fin 0)))
  | .string => some (.scalar none (.string []))
  | .time => some (.scalar none (.string (lit "0.000000000")))
  | .duration => some (.scalar none (.string (lit "0.000000000")))
  | .goTime => some (.scalar none (.time Time.zero))
  | .goDuration => some (.scalar none (.duration 0))
  | _ => none

/-- `messages.ZeroValue`, `/repo/go/tricorder/messages/api.go:157-163` -/
def zeroValueMsg (t : Ty) : Option Val :=
  if t = .dist then some (.dist none) else safeZeroValue t

/-- `SafeNilSlice`, `/repo/go/tricorder/types/api.go:182-215`; `none` is an error. -/
def safeNilSlice : Ty → Option Val
  | .bool => some (.slice none ⟨none, .bool⟩ none)
  | .int8 => some (.slice none ⟨none, .int .int8⟩ none)
  | .int16 => some (.slice none ⟨none, .int .int16⟩ none)
  | .int32 => some (.slice none ⟨none, .int .int32⟩ none)
  | .int64 => some (.slice none ⟨none, .int .int64⟩ none)
  | .uint8 => some (.slice none ⟨none, .int .uint8⟩ none)
  | .uint16 => some (.slice none ⟨none, .int .uint16⟩ none)
  | .uint32 => some (.slice none ⟨none, .int .uint32⟩ none)
  | .uint64 => some (.slice none ⟨none, .int .uint64⟩ none)
  | .float32 => some (.slice none ⟨none, .float32⟩ none)
  | .float64 => some (.slice none ⟨none, .float64⟩ none)
  | .string => some (.slice none ⟨none, .string⟩ none)
  | .time => some (.slice none ⟨none, .string⟩ none)
  | .duration => some (.slice none ⟨none, .string⟩ none)
  | .goTime => some (.slice none ⟨none, .time⟩ none)
  | .goDuration => some (.slice none ⟨none, .duration⟩ none)
  | _ => none

/-- `CanToFromFloat`, `/repo/go/tricorder/types/api.go:228-235` -/
def Ty.canToFromFloat : Ty → Bool
  | .int8 | .int16 | .int32 | .int64 | .uint8 | .uint16 | .uint32 | .uint64
  | .float32 | .float64 | .goTime | .goDuration => true
  | _ => false

/-- `IsInt`, `/repo/go/tricorder/types/api.go:303-305` -/
def Ty.isInt (t : Ty) : Bool := t = .int8 || t = .int16 || t = .int32 || t = .int64
/-- `IsUint`, `/repo/go/tricorder/types/api.go:307-309` -/
def Ty.isUint (t : Ty) : Bool := t = .uint8 || t = .uint16 || t = .uint32 || t = .uint64
/-- `IsFloat`, `/repo/go/tricorder/types/api.go:311-313` -/
def Ty.isFloat (t : Ty) : Bool := t = .float32 || t = .float64
/-- `Bits`, `/repo/go/tricorder/types/api.go:315-328` -/
def Ty.bits : Ty → Nat
  | .int8 | .uint8 => 8
  | .int16 | .uint16 => 16
  | .int32 | .uint32 | .float32 => 32
  | .int64 | .uint64 | .float64 => 64
  | _ => 0
/-- `UsesSubType`, `/repo/go/tricorder/types/api.go:331-333` -/
def Ty.usesSubType (t : Ty) : Bool := t = .list
/-- `SupportsEquality`, `/repo/go/tricorder/types/api.go:336-338` -/
def Ty.supportsEquality (t : Ty) : Bool := t ≠ .list && t ≠ .dist && t ≠ .unknown

/-- `round`, `/repo/go/tricorder/types/types.go:7-12`.  `0.5` is exact. -/
def roundF (f : Fl) : Fl :=
  if Fl.lt f (.fin 0) then Fl.sub b64 f (.fin (1/2)) else Fl.add b64 f (.fin (1/2))

/-- conversion of a `float64` to an integer type.  `none` stands for a result that Go leaves to the implementation
(NaN, infinity or out of range); used by `/repo/go/tricorder/types/api.go:239-268`. -/
def Fl.toIntKind (k : IntKind) (f : Fl) : Option Int :=
  match f.trunc with
  | none => none
  | some n => if k.InRange n then some n else none

/-- the constant `1e9` (exact); `/repo/go/tricorder/duration/duration.go:34-39` -/
def f1e9 : Fl := .fin 1000000000
/-- the constant `1e-9` converted to `float64`; `/repo/go/tricorder/duration/duration.go:57-59` -/
def f1em9 : Fl := rnd b64 (1/1000000000)

/-- `asFloat`, `/repo/go/tricorder/duration/duration.go:57-59` -/
def Dur.asFloat (d : Dur) : Fl :=
  Fl.add b64 (Fl.ofInt b64 d.sec) (Fl.mul b64 (Fl.ofInt b64 d.nsec) f1em9)

/-- `sinceEpochFloat`, `/repo/go/tricorder/duration/duration.go:34-39`; `math.Modf` splits exactly
into integer part and fraction, both with the sign of the argument.  `none`: implementation
dependent conversion. -/
def Dur.sinceEpochFloat (f : Fl) : Option Dur :=
  match f.toQ? with
  | none => none
  | some q =>
    let ii : ℤ := if q < 0 then -⌊-q⌋ else ⌊q⌋
    let ff : Fl := if q - ii = 0 then Fl.zero f.sign else .fin (q - ii)
    match Fl.toIntKind .int64 (.fin ii), Fl.toIntKind .int32 (Fl.mul b64 ff f1e9) with
    | some s, some n => some ⟨s, n⟩
    | _, _ => none

/-- `duration.ToFloat`, `/repo/go/tricorder/duration/api.go:92-94` -/
def durToFloat (d : Int) : Fl := Fl.div b64 (Fl.ofInt b64 d) f1e9
/-- `duration.FromFloat`, `/repo/go/tricorder/duration/api.go:97-99` -/
def durFromFloat (s : Fl) : Option Int :=
  Fl.toIntKind .int64 (Fl.add b64 (Fl.mul b64 s f1e9) (.fin (1/2)))
/-- `duration.TimeToFloat`, `/repo/go/tricorder/duration/api.go:87-89` -/
def timeToFloat (t : Time) : Fl := (Dur.sinceEpoch t).asFloat
/-- `duration.FloatToTime`, `/repo/go/tricorder/duration/api.go:82-84` -/
def floatToTime (f : Fl) : Option Time := (Dur.sinceEpochFloat f).map Dur.asGoTime

/-- outcome of a conversion that can panic or be implementation dependent; `/repo/go/tricorder/types/api.go:239-301`
-/
inductive Conv (α : Type) where
  | ok (a : α)
  | panic
  | unspecified
deriving DecidableEq, Repr

/-- integer case of `FromFloat`; `/repo/go/tricorder/types/api.go:239-268` -/
def fromFloatInt (k : IntKind) (f : Fl) : Conv Val :=
  match Fl.toIntKind k (roundF f) with
  | some n => .ok (.scalar none (.int k n))
  | none => .unspecified

/-- `FromFloat`, `/repo/go/tricorder/types/api.go:239-268` -/
def Ty.fromFloat (t : Ty) (f : Fl) : Conv Val :=
  match t with
  | .int8 => fromFloatInt .int8 f
  | .int16 => fromFloatInt .int16 f
  | .int32 => fromFloatInt .int32 f
  | .int64 => fromFloatInt .int64 f
  | .uint8 => fromFloatInt .uint8 f
  | .uint16 => fromFloatInt .uint16 f
  | .uint32 => fromFloatInt .uint32 f
  | .uint64 => fromFloatInt .uint64 f
  | .float32 => .ok (.scalar none (.float32 (Fl.conv b32 f)))
  | .float64 => .ok (.scalar none (.float64 f))
  | .goTime => match floatToTime f with
    | some t => .ok (.scalar none (.time t))
    | none => .unspecified
  | .goDuration => match durFromFloat f with
    | some d => .ok (.scalar none (.duration d))
    | none => .unspecified
  | _ => .panic

/-- integer case of `ToFloat`: the type assertion panics on any other dynamic type;
`/repo/go/tricorder/types/api.go:272-301` -/
def toFloatInt (k : IntKind) : Val → Conv Fl
  | .scalar none (.int k' x) => if k' = k then .ok (Fl.ofInt b64 x) else .panic
  | _ => .panic

/-- `ToFloat`, `/repo/go/tricorder/types/api.go:272-301` -/
def Ty.toFloat (t : Ty) (v : Val) : Conv Fl :=
  match t with
  | .int8 => toFloatInt .int8 v
  | .int16 => toFloatInt .int16 v
  | .int32 => toFloatInt .int32 v
  | .int64 => toFloatInt .int64 v
  | .uint8 => toFloatInt .uint8 v
  | .uint16 => toFloatInt .uint16 v
  | .uint32 => toFloatInt .uint32 v
  | .uint64 => toFloatInt .uint64 v
  | .float32 => match v with
    | .scalar none (.float32 x) => .ok (Fl.conv b64 x)
    | _ => .panic
  | .float64 => match v with
    | .scalar none (.float64 x) => .ok x
    | _ => .panic
  | .goTime => match v with
    | .scalar none (.time t) => .ok (timeToFloat t)
    | _ => .panic
  | .goDuration => match v with
    | .scalar none (.duration d) => .ok (durToFloat d)
    | _ => .panic
  | _ => .panic

end Tricorder
