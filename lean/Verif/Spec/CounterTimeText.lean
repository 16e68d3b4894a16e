import Verif.Spec.CounterTime
/-!
# Running totals of time on text pages
-/

namespace Tricorder.Whole
open Go _root_.Spec

/-- every metric that was ever registered at this path shows the source `sc` as a `time.Duration`, in the unit `u` -/
def TotalAt (T : Tree MValue) (path : Str) (sc : Src) (u : MUnit) : Prop :=
  ∀ id mv, metricView T id = some mv → mv.path = path → mv.value.src = some sc ∧ mv.value.valType = .goDuration ∧ mv.value.unit = u

/-- the metric shows the source `sc` as a `time.Duration`, in the unit `u` -/
def TotalIn (T : Tree MValue) (id : ℕ) (sc : Src) (u : MUnit) : Prop :=
  ∀ mv, metricView T id = some mv → mv.value.src = some sc ∧ mv.value.valType = .goDuration ∧ mv.value.unit = u

/-- the line of the metric at this path, which shows `x` nanoseconds in the unit `u`, in decimal and exactly -/
def TimeLine (path : Str) (u : MUnit) (x : ℤ) (cs : List Str) : Prop :=
  ∃ y, Denotes9 y (x * perSecond u) ∧ cs = [path ++ lit " ", y ++ lit "\n"]

/-- In two lines of a page, if they are of metrics that show the total `sc`, the second time is not shorter than the first. -/
def LinesNotFalling (T : Tree MValue) (sc : Src) (l l' : List Str) : Prop :=
  ∀ p p' u u', l.head? = some (p ++ lit " ") → l'.head? = some (p' ++ lit " ") → TotalAt T p sc u → TotalAt T p' sc u' →
    ∃ x x', TimeLine p u x l ∧ TimeLine p' u' x' l' ∧ x ≤ x'

end Tricorder.Whole
