import Verif.Model.Messages
import Verif.Spec.Duration
/-!
# Specification of wire metrics
-/

namespace Spec
open Tricorder Go

/-- the element values of a slice fit the declared element type -/
def ElemsOk (e : ScalarTy) (es : Option (List Base)) : Prop :=
  ∀ b ∈ es.getD [], b.ty = e.base ∧ b.Valid

/-- the dynamic value is one the Go type system allows -/
def ValOk : Val → Prop
  | .scalar _ v => v.Valid
  | .slice _ e es => ElemsOk e es
  | _ => True

/-- A well-formed Go RPC metric: the kind fields describe the value and are known, and the time
stamp is absent or a time. -/
structure WellFormed (m : Metric) : Prop where
  kinds : fromGoValueWithSubType m.value = (m.kind, m.subType)
  known : m.kind ≠ .unknown
  valOk : ValOk m.value
  ts : m.timeStamp = .nil ∨ ∃ t, m.timeStamp = .time t ∧ t.Valid

/-- a nil slice and an empty slice hold the same values -/
def sameValue : Val → Val → Prop
  | .slice n e es, .slice n' e' es' => n = n' ∧ e = e' ∧ es.getD [] = es'.getD []
  | a, b => a = b

/-- within about 292 million years of 1970, so that the seconds leave room for the unit factor -/
def TimeRange (t : Time) : Prop := -9223372036854774 ≤ t.sec ∧ t.sec ≤ 9223372036854774

/-- not the zero `time.Time`, and in range -/
def TimeOk (t : Time) : Prop := t ≠ Time.zero ∧ TimeRange t

/-- nanoseconds since the epoch as metrics report them: the zero time counts as the epoch -/
def reportedNs (t : Time) : Int := if t = Time.zero then 0 else instantNs t

/-- all times in a value satisfy `p` -/
def AllTimes (p : Time → Prop) : Val → Prop
  | .scalar _ (.time t) => p t
  | .slice _ _ es => ∀ t, Base.time t ∈ es.getD [] → p t
  | _ => True

end Spec
