import Verif.Spec.Text
/-!
# Programs that follow Go's rules

`Typed` is what the claims about the pages assume about the registry.  `TypedHistory` says the same thing step by step:
what every single step of a program is allowed to do.
-/

namespace Tricorder.Spec
open Go _root_.Spec

/-- the step puts only values of the right Go types into variables and slices, and makes distributions from the ranges
of a bucketer -/
def StepTyped (s : State) : Cmd → Prop
  | .newVar d | .writeVar _ d => DynOk d
  | .newSlice c => ∀ t, c.elem = .scalar t → ElemsOk t c.data
  | .writeSlice i _ b => ∀ cell t, s.mem[i]? = some cell → cell.elem = .scalar t → b.ty = t.base ∧ b.Valid
  | .newDist pieces _ _ => ∃ l, fromEndpoints l = .ok pieces
  | _ => True

/-- states reached by such steps, in which every metric was stored by `RegisterMetric` -/
inductive TypedHistory (w : World) : State → Prop where
  | init : TypedHistory w State.init
  | step {s} (c : Cmd) : TypedHistory w s → c.Ok s → StoreFits w ⟨false, c, s⟩ → StepTyped s c →
      TypedHistory w (exec w c s).1

/-- callbacks and flags return values of their Go types -/
def CallsOk (w : World) : Prop :=
  (∀ s f d, w.fn s f = some d → DynOk d) ∧ ∀ s g d, w.flagGet s g = some d → DynOk d

end Tricorder.Spec
