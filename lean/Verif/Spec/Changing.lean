import Verif.Spec.Registry
/-!
# The tree while others change it
-/

namespace Tricorder.Spec
open Go

/-- the step `e` unregisters a directory on the way from `d` along `p` (or at its end) -/
def Cuts (w : World) (d : ℕ) (p : List Str) (e : Ev) : Prop :=
  ∃ u x, u <+: p ∧ Reaches e.pre.tree d u (.dir x) ∧ ∀ n, ¬ Reaches (exec w e.cmd e.pre).1.tree d u n

/-- while the run `h` lasts somebody else unregisters a directory on the way from `d` along `p` -/
def CutBy (w : World) (d : ℕ) (p : List Str) (h : List Ev) : Prop :=
  ∃ e ∈ h, e.own = false ∧ Cuts w d p e

/-- the answer `r` of a look-up (a directory, or a metric, or nothing) is right in state `σ` for the path `p` from `d` -/
def RightAt (σ : State) (d : ℕ) (p : List Str) : Option ℕ × Option ℕ → Prop
  | (some x, none) => Reaches σ.tree d p (.dir x)
  | (none, some m) => Reaches σ.tree d p (.metric m)
  | (none, none) => ∀ n, ¬ Reaches σ.tree d p n
  | (some _, some _) => False

end Tricorder.Spec
