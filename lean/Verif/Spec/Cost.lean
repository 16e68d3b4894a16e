import Verif.Spec.Request
/-!
# How much work a request is
-/

namespace Tricorder.Spec
open Go

/-- the steps that the request itself takes -/
def ownSteps (h : List Ev) : ℕ := (h.filter fun e => e.own).length

/-- how many entries a step finds in the directory that it lists -/
def entriesOf (e : Ev) : ℕ :=
  match e.cmd with
  | .list d => (e.pre.tree.contents d).length
  | _ => 0

/-- the entries that the request finds in the directories that it lists -/
def entriesFound (h : List Ev) : ℕ := ((h.filter fun e => e.own).map entriesOf).sum

/-- the directories that the request lists -/
def dirsListed (h : List Ev) : List ℕ :=
  h.filterMap fun e => match e.own, e.cmd with
    | true, .list d => some d
    | _, _ => none

end Tricorder.Spec
