import Verif.Spec.PageWhole
/-!
# The order in which a text page is read, and pages that break off
-/

namespace Tricorder.Whole
open Go Spec

/-- `cs` is the line of a metric of the tree `T`: its path, and what is true of it in state `σ` -/
def LineIn (w : World) (fm : Fmts) (T : Tree MValue) (σ : State) (cs : List Str) : Prop :=
  ∃ id mv ds, metricView T id = some mv ∧ cs = (mv.path ++ lit " ") :: ds ∧ TextTells w fm (· = σ) mv ds

/-- what a page that breaks off tries to write after its last complete line: nothing, or the path of a metric of the tree `T`, or the path
and what was true of that metric in one of the states `S` -/
def LastLine (w : World) (fm : Fmts) (T : Tree MValue) (S : State → Prop) (cs : List Str) : Prop :=
  cs = [] ∨ ∃ id mv ds, metricView T id = some mv ∧ cs = (mv.path ++ lit " ") :: ds ∧ (ds = [] ∨ TextTells w fm S mv ds)

end Tricorder.Whole
