import Verif.Spec.App
import Verif.Spec.Dist
import Verif.Model.Whole
/-!
# Recording by many goroutines

The steps of a run one after another, and what they ask of one distribution.
-/

namespace Spec
open Tricorder Go

/-- the state after some steps -/
def after (w : World) : List Cmd → State → State
  | [], s => s
  | c :: cs, s => after w cs (exec w c s).1

/-- what a step asks of distribution `i`: registration sets the unit -/
def asks (i : ℕ) : Cmd → Option DCall
  | .distCall j c => if j = i then some c else none
  | .setUnit j u => if j = i then some (.setUnit u) else none
  | _ => none

/-- what some steps ask of distribution `i`, in order -/
def asked (i : ℕ) (cs : List Cmd) : List DCall := cs.filterMap (asks i)

/-- a call of the given sort on distribution `i` that returned normally -/
def Returned (w : World) (i : ℕ) (sort : DCall → Bool) (e : App.Item) : Bool :=
  match e.cmd with
  | .distCall j c => decide (j = i) && sort c && Option.isNone (α := DPanic) (exec w (.distCall j c) e.pre).2
  | _ => false

/-- the step of the shared memory, if it is one: of a call, or of an update function -/
def memStep {A : Type} (it : Whole.Item A) : Option Cmd :=
  match it.lab with
  | .own _ c | .upd _ c => some c
  | _ => none

/-- the same values were added, with any time stamps -/
def added (unit : MUnit) (cs : List DCall) : List Fl := cs.filterMap fun
  | .add v _ => amount unit v
  | _ => none

end Spec
