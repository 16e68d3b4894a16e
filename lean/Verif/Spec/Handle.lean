import Verif.Spec.Tree
import Verif.Model.Sys
/-!
# One program does what another does
-/

namespace Tricorder.Spec
open Go

/-- From the state `s`, `q` does what `p` does.  Executed alone it has the same result and effect.  Whatever `p` may do while other
goroutines take steps, `q` may do as well, with additional steps at the beginning which change nothing. -/
structure ActsLike {α : Type} (w : World) (s : State) (q p : Prog α) : Prop where
  alone : q.run w s = p.run w s
  amid : ∀ h s' a, RunI w p s h s' a →
    ∃ h0, (∀ e ∈ h0, e.own = true ∧ e.pre = s ∧ (exec w e.cmd s).1 = s) ∧ RunI w q s (h0 ++ h) s' a

end Tricorder.Spec
