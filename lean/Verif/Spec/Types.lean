import Verif.Model.Types
/-! # Specification of package `types` -/

namespace Spec
open Tricorder Go

/-- the Go type in which JSON represents a kind: times and durations travel as strings -/
def goKind : Ty → Ty
  | .time | .duration => .string
  | t => t

/-- the zero value of a Go scalar type -/
def IsZero : Base → Prop
  | .bool b => b = false
  | .int _ x => x = 0
  | .float32 x => x = .fin 0
  | .float64 x => x = .fin 0
  | .string s => s = []
  | .time t => t = Time.zero
  | .duration d => d = 0

/-- the kinds that scalars and list elements can have -/
def HasZero (t : Ty) : Prop :=
  t ∈ [Ty.bool, .int8, .int16, .int32, .int64, .uint8, .uint16, .uint32, .uint64, .float32,
    .float64, .string, .goTime, .goDuration, .time, .duration]

/-- the sized integer kinds -/
def intKindOf : Ty → Option IntKind
  | .int8 => some .int8
  | .int16 => some .int16
  | .int32 => some .int32
  | .int64 => some .int64
  | .uint8 => some .uint8
  | .uint16 => some .uint16
  | .uint32 => some .uint32
  | .uint64 => some .uint64
  | _ => none

end Spec
