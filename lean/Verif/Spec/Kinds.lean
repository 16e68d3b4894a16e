import Verif.Spec.Listing
import Verif.Spec.Lists
/-!
# Metrics and their sources

`Reachable` admits any value in a `storeMetric` step.  `Grown` are the states in which every metric was stored by
`RegisterMetric`: the metric type was derived from the type of the source.
-/

namespace Tricorder.Spec
open Go

/-- the metric type of a Go type, and whether it is a pointer; none for types that cannot be reported -/
def metricType : GoTy → Option (Ty × Bool)
  | .timePtr => some (.goTime, true)
  | g => (elemType g).map fun t => (t, false)

/-- the dynamic type of a value read from the source gives the metric type of `v` -/
def DynFits (v : MValue) (d : Dyn) : Prop := ∃ g, d.ty = some g ∧ metricType g = some (v.valType, v.isPtr)

/-- The metric type of `v` is the type of its source.  For the `Get` method of a flag nothing is known: it can
return values of different types. -/
def Fits (w : World) (s : State) (v : MValue) : Prop :=
  match v.src with
  | none => v.valType = .dist ∧ v.dist.isSome ∨ v.valType = .list
  | some (.var i) => ∃ d, s.vars[i]? = some d ∧ DynFits v d
  | some (.fn f) => metricType (w.fnTy f) = some (v.valType, v.isPtr)
  | some (.flagGet _) => ∃ g, metricType g = some (v.valType, v.isPtr)
  | some (.flagString _) => v.valType = .string ∧ v.isPtr = false

/-- if the step stores a metric, its type is that of its source -/
def StoreFits (w : World) (e : Ev) : Prop :=
  ∀ d name desc v, e.cmd = .storeMetric d name desc v → Fits w e.pre v

/-- states reachable by steps that store only such metrics -/
inductive Grown (w : World) : State → Prop where
  | init : Grown w State.init
  | step {s} (c : Cmd) : Grown w s → c.Ok s → StoreFits w ⟨false, c, s⟩ → Grown w (exec w c s).1

/-- a value of a type declared by a program, or a slice of such a type or with such elements -/
def NamedVal : Val → Prop
  | .scalar n _ => n ≠ none
  | .slice n e _ => n ≠ none ∨ e.named ≠ none
  | _ => False

/-- if the source is the `Get` method of a flag, then what it returns has the type that it had at registration -/
def FlagKeeps (w : World) (S : State → Prop) (v : MValue) : Prop :=
  ∀ g σ d, v.src = some (.flagGet g) → S σ → w.flagGet σ g = some d → DynFits v d

/-- the kinds whose values are converted to a predeclared type before they are reported -/
def Converted (t : Ty) : Prop :=
  t = .int32 ∨ t = .int64 ∨ t = .uint32 ∨ t = .uint64 ∨ t = .goTime ∨ t = .goDuration ∨ t = .dist

/-- size in bits of a number of this type, 0 for other types -/
def bitsOf : Ty → ℕ
  | .int8 | .uint8 => 8
  | .int16 | .uint16 => 16
  | .int32 | .uint32 | .float32 => 32
  | .int64 | .uint64 | .float64 => 64
  | _ => 0

/-- The kind, the subtype and the number of bits of the reported metric `x` are right: `FromGoValueWithSubType` gives
back kind and subtype unless the value is of a type declared by a program. -/
def KindRight (x : Metric) : Prop :=
  (fromGoValueWithSubType x.value = (x.kind, x.subType) ↔ ¬ NamedVal x.value) ∧
  (Converted x.kind → ¬ NamedVal x.value) ∧ x.bits = bitsOf (if x.kind = .list then x.subType else x.kind)

end Tricorder.Spec
