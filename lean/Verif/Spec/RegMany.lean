import Verif.Spec.Path
import Verif.Spec.Setup
import Verif.Spec.Registry
/-!
# Many registrations
-/

namespace Tricorder.Spec
open Go

/-- calls of `RegisterMetricInGroup` in directory `d`, one after the other, and their results -/
def registerMany (fnTy : ℕ → GoTy) (d : ℕ) : List Reg → Prog (List (Out (Except RegErr Unit)))
  | [] => .ret []
  | r :: rs => (apiRegisterMetric fnTy d r.path r.spec (some r.group) r.unit r.description).bind fun x =>
    (registerMany fnTy d rs).bind fun xs => .ret (x :: xs)

/-- The registrations fit together: every path has a component, no path is inside another, a distribution registered
twice is registered with the same unit. -/
structure FitTogether (rs : List Reg) : Prop where
  paths : ∀ r ∈ rs, ¬ Components r.path []
  apart : rs.Pairwise fun a b => ∀ p c, Components a.path p → Components b.path c → ¬ p <+: c ∧ ¬ c <+: p
  units : ∀ a ∈ rs, ∀ b ∈ rs, ∀ i, a.spec = .dist (some i) → b.spec = .dist (some i) → a.unit = b.unit

/-- The registrations fit the state: nothing is in the way of a path below `d`, neither a metric on the way nor anything
at the end; every value is of a supported type, and if it is a distribution with a unit, of that unit. -/
structure FitState (w : World) (s : State) (d : ℕ) (rs : List Reg) : Prop where
  clear : ∀ r ∈ rs, ∀ c, Components r.path c → Clear s.tree d c
  values : ∀ r ∈ rs, valueSays w s r.unit r.spec = .ok none

/-- below `d`, the path leads to a metric with this description and value -/
def MetricAt (s : State) (d : ℕ) (c : List Str) (desc : Str) (v : MValue) : Prop :=
  ∃ m mo, Reaches s.tree d c (.metric m) ∧ s.tree.metrics[m]? = some mo ∧ mo.description = desc ∧ mo.value = v

/-- a distribution after these registrations: those registered have the unit, nothing else changed -/
def UnitsSet (rs : List Reg) (i : ℕ) (D D' : Dist Fl) : Prop :=
  (∀ r ∈ rs, r.spec = .dist (some i) → D' = { D with unitSet := true, unit := r.unit }) ∧
  ((∀ r ∈ rs, r.spec ≠ .dist (some i)) → D' = D)

end Tricorder.Spec
