import Verif.Spec.Kinds
/-!
# JSON answers and RPC answers
-/

namespace Tricorder.Spec
open Go

/-- a list of times or durations in a slice of a type declared by the program (`type T []time.Time`) -/
def NamedTimes (x : Metric) : Prop :=
  x.kind = .list ∧ (x.subType = .goTime ∨ x.subType = .goDuration) ∧ NamedVal x.value

/-- the JSON metrics are the RPC metrics, each converted with `ConvertToJson`, in the same order -/
def Converted₂ (js rs : List Metric) : Prop := List.Forall₂ (fun j r => r.convertToJson = some j) js rs

/-- the answer `j` to a JSON request for one metric goes with the RPC answer `r` -/
def GetAgrees : (j r : Option (Out Metric)) → Prop
  | none, none => True
  | some .panic, some .panic => True
  | some (.ok j), some (.ok r) => r.convertToJson = some j ∧ ¬ NamedTimes r
  | some .panic, some (.ok r) => NamedTimes r
  | _, _ => False

end Tricorder.Spec
