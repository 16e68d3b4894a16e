import Verif.Model.RpcClient
/-!
# What an RPC client should receive and print
-/

namespace Tricorder.Spec
open Go

/-- the same value; the difference between a nil slice and an empty slice does not count -/
def SameVal (x y : Val) : Prop := x = y ∨ ∃ n e k l, x = .slice n e k ∧ y = .slice n e l ∧ k.getD [] = [] ∧ l.getD [] = []

/-- `y` is what the server sent as `x`, but for the difference between a nil slice and an empty slice.  Units and kinds are
strings. -/
structure Arrived (x y : Metric) : Prop where
  path : y.path = x.path
  description : y.description = x.description
  unit : y.unit.raw = x.unit.raw
  kind : y.kind.name = x.kind.name
  subType : y.subType.name = x.subType.name
  bits : y.bits = x.bits
  value : SameVal x.value y.value
  timeStamp : y.timeStamp = x.timeStamp
  groupId : y.groupId = x.groupId

/-- no field of `x` is a zero value unless the same field of `old` is -/
structure Covers (old x : Metric) : Prop where
  path : x.path = [] → old.path = []
  description : x.description = [] → old.description = []
  unit : x.unit.raw = [] → old.unit.raw = []
  kind : x.kind.name = [] → old.kind.name = []
  subType : x.subType.name = [] → old.subType.name = []
  bits : x.bits = 0 → old.bits = 0
  value : x.value = .nil → old.value = .nil
  timeStamp : x.timeStamp = .nil → old.timeStamp = .nil
  groupId : x.groupId = 0 → old.groupId = 0

/-- what the client program prints for one answer -/
def printedFor (desc : Str) (j : Json) : List RpcClient.Printed := [.stdout desc, .stdin j, .stdout []]

/-- what is printed for an answer of `GetMetric` that is not required: the metric, or that there was an error.  `a` is the answer,
`old` the content of the client's variable before, `x` after. -/
def PrintedTry (jl : JsonLib) (desc err : Str) (a : Option (Out Metric)) (old x : Metric) (out : List RpcClient.Printed) : Prop :=
  (∃ y j, a = some (.ok y) ∧ (Covers old y → Arrived y x) ∧ jsonMetric jl x = some j ∧ out = printedFor desc j) ∨
    x = old ∧ (∀ y, a = some (.ok y) → gobMetric gobRegistry y = false) ∧ out = [.log err]

end Tricorder.Spec
