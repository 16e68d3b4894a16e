import Verif.Spec.CounterHtml
import Verif.Spec.PrettyOrder
import Verif.Spec.Html
/-!
# Running totals of time on HTML pages
-/

namespace Tricorder.Whole
open Go _root_.Spec Tricorder.Spec

variable {A : Type}

/-- after the steps `tr` the source, a variable or a function, gives the `time.Duration` of `x` nanoseconds -/
def GivesTime (w : World) (sc : Src) (tr : List (Item A)) (x : ℤ) : Prop :=
  Tricorder.Spec.current w (after w (tr.filterMap memStep) State.init) sc = some (.scalar none (.duration x))

/-- A running total of time: whenever it has a value, it is a `time.Duration`, and it never falls. -/
structure TimeTotal (w : World) (sc : Src) (tr : List (Item A)) : Prop where
  time : ∀ p q d, tr = p ++ q → Tricorder.Spec.current w (after w (p.filterMap memStep) State.init) sc = some d →
    ∃ x, d = .scalar none (.duration x) ∧ InI64 x
  grows : ∀ p l q x y, tr = p ++ l ++ q → GivesTime w sc p x → GivesTime w sc (p ++ l) y → x ≤ y

/-- the metric shows the source `sc` as a `time.Duration` -/
def TotalIs (T : Tree MValue) (id : ℕ) (sc : Src) : Prop :=
  ∀ mv, metricView T id = some mv → mv.value.src = some sc ∧ mv.value.valType = .goDuration

/-- `y` shows `x` nanoseconds: in the readable form, or in decimal in the unit `u` if they are negative -/
def ShowsTime (u : MUnit) (x : ℤ) (y : Str) : Prop := if x < 0 then Denotes9 y (x * perSecond u) else Pretty x.toNat y

/-- `cs` is an item of an HTML page which shows `x` nanoseconds for metric `m` -/
def TimeItem (T : Tree MValue) (m : ℕ) (x : ℤ) (cs : List Str) : Prop :=
  ∃ mv y, metricView T m = some mv ∧ ShowsTime mv.value.unit x y ∧ cs = PageItem.html (.scalar mv y)

/-- In two items, each with its entry, if they are of metrics that show the total `sc`, the second time is not shorter than the first.
If they are not negative, this also holds of the times that the texts stand for. -/
def TimesNotFalling (T T' : Tree MValue) (sc : Src) (u v : (Str × Node) × List Str) : Prop :=
  ∀ m n, u.1.2 = .metric m → v.1.2 = .metric n → TotalIs T m sc → TotalIs T' n sc →
    ∃ mv mv' y y' i j, metricView T m = some mv ∧ metricView T' n = some mv' ∧ u.2 = PageItem.html (.scalar mv y) ∧
      v.2 = PageItem.html (.scalar mv' y') ∧ ShowsTime mv.value.unit i y ∧ ShowsTime mv'.value.unit j y' ∧ i ≤ j ∧
      (0 ≤ i → ∃ r r', PrettyOf y r ∧ PrettyOf y' r' ∧ r ≤ r')

end Tricorder.Whole
