import Verif.Go.Float
import Verif.Go.Time
import Verif.Model.Units
/-!
# Go values that metrics can hold

Go values are dynamically typed when they travel in an `interface{}` or a `reflect.Value`.  This
file models the part of that universe that matters to tricorder.
-/

namespace Tricorder
open Go

/-- reflect kinds of the integer types; the cases of `/repo/go/tricorder/metric.go:766-796` -/
inductive IntKind where
  | int8 | int16 | int32 | int64 | uint8 | uint16 | uint32 | uint64 | int | uint
deriving DecidableEq, Repr

/-- size in bits; `int` and `uint` have 64 bits (`intSizeInBits`,
`/repo/go/tricorder/metric.go:34`; for other sizes see `Verif/Model/Bits.lean`) -/
def IntKind.bits : IntKind → Nat
  | .int8 | .uint8 => 8
  | .int16 | .uint16 => 16
  | .int32 | .uint32 => 32
  | .int64 | .uint64 | .int | .uint => 64

/-- the kind is one of `Int...`, `/repo/go/tricorder/metric.go:756-813` -/
def IntKind.signed : IntKind → Bool
  | .int8 | .int16 | .int32 | .int64 | .int => true
  | _ => false

/-- the values of the integer type; Go language, no code in /repo -/
def IntKind.InRange (k : IntKind) (x : Int) : Prop :=
  if k.signed then -(2 ^ (k.bits - 1) : Int) ≤ x ∧ x < 2 ^ (k.bits - 1)
  else 0 ≤ x ∧ x < 2 ^ k.bits

instance (k : IntKind) (x : Int) : Decidable (k.InRange x) := by
  unfold IntKind.InRange; infer_instance

/-- underlying representation of a scalar.  `time` is the struct `time.Time`; the cases of
`/repo/go/tricorder/metric.go:756-813`. -/
inductive Base where
  | bool (b : Bool)
  | int (k : IntKind) (x : Int)
  | float32 (x : Fl)
  | float64 (x : Fl)
  | string (s : Str)
  | time (t : Time)
  | duration (d : Int)
deriving DecidableEq, Repr

/-- type of a `Base`; the cases of `/repo/go/tricorder/metric.go:756-813` -/
inductive BaseTy where
  | bool | int (k : IntKind) | float32 | float64 | string | time | duration
deriving DecidableEq, Repr

/-- type of a `Base`, the cases of `/repo/go/tricorder/metric.go:756-813` -/
def Base.ty : Base → BaseTy
  | .bool _ => .bool
  | .int k _ => .int k
  | .float32 _ => .float32
  | .float64 _ => .float64
  | .string _ => .string
  | .time _ => .time
  | .duration _ => .duration

/-- the value is one its Go type can hold; Go language, no code in /repo -/
def Base.Valid : Base → Prop
  | .bool _ => True
  | .int k x => k.InRange x
  | .float32 x => x.Rep b32
  | .float64 x => x.Rep b64
  | .string _ => True
  | .time t => t.Valid
  | .duration d => InI64 d

/-- A Go scalar type: a predeclared type, `time.Time` or `time.Duration` (`named = none`), or a user-declared type
with that underlying type (`named = some id`), e.g. `type Celsius float64`. A user-declared type never has `base =
duration` (its underlying type is then `int64`); the types that `/repo/go/tricorder/metric.go:746-813` tells apart. -/
structure ScalarTy where
  named : Option Nat
  base : BaseTy
deriving DecidableEq, Repr

/-- `*messages.RangeWithCount`, `/repo/go/tricorder/messages/api.go:21-30` -/
structure RangeMsg where
  lower : Fl
  upper : Fl
  count : Nat
deriving DecidableEq, Repr

/-- `*messages.Distribution`, `/repo/go/tricorder/messages/api.go:33-52` -/
structure DistMsg where
  min : Fl
  max : Fl
  average : Fl
  median : Fl
  sum : Fl
  count : Nat
  generation : Nat
  isNotCumulative : Bool
  ranges : List RangeMsg
deriving DecidableEq, Repr

/-- a Go value stored in an `interface{}`; the type of the field `Value`, `/repo/go/tricorder/messages/api.go:114` -/
inductive Val where
  /-- the nil interface -/
  | nil
  | scalar (named : Option Nat) (v : Base)
  /-- `*messages.Distribution`; `none` is the nil pointer -/
  | dist (d : Option DistMsg)
  /-- a slice; `sliceNamed` is set for a user-declared slice type; `none` contents is the nil slice -/
  | slice (sliceNamed : Option Nat) (elem : ScalarTy) (elems : Option (List Base))
  /-- anything else -/
  | other (id : Nat)
deriving DecidableEq, Repr

/-- `types.Type`, `/repo/go/tricorder/types/api.go:11-35`.  In Go a `string`; `other s` stands for
every string that is none of the constants. -/
inductive Ty where
  | unknown | bool | int8 | int16 | int32 | int64 | uint8 | uint16 | uint32 | uint64
  | float32 | float64 | string | goTime | goDuration | dist | list | time | duration
  | other (s : Str)
deriving DecidableEq, Repr

end Tricorder
