import Verif.Spec.Counter
import Verif.Spec.Decimal
import Verif.Spec.TextOrder
/-!
# Counters on text pages
-/

namespace Tricorder.Whole
open Go _root_.Spec

/-- every metric that was ever registered at this path shows the source `sc` as an integer of the type `k` -/
def CounterAt (T : Tree MValue) (path : Str) (sc : Src) (k : IntKind) : Prop :=
  ∀ id mv, metricView T id = some mv → mv.path = path → mv.value.src = some sc ∧ mv.value.valType = intTy k

/-- the metric shows the source `sc` as an integer of the type `k` -/
def CounterIs (T : Tree MValue) (id : ℕ) (sc : Src) (k : IntKind) : Prop :=
  ∀ mv, metricView T id = some mv → mv.value.src = some sc ∧ mv.value.valType = intTy k

/-- the line of the metric at this path, which shows the integer `x` in decimal -/
def LineOf (path : Str) (x : ℤ) (cs : List Str) : Prop := ∃ y, DenotesInt y x ∧ cs = [path ++ lit " ", y ++ lit "\n"]

/-- In two lines of a page, if they are of metrics that show the counter `sc`, the second number is not smaller than the first. -/
def NotFalling (T : Tree MValue) (sc : Src) (k : IntKind) (l l' : List Str) : Prop :=
  ∀ p p', l.head? = some (p ++ lit " ") → l'.head? = some (p' ++ lit " ") → CounterAt T p sc k → CounterAt T p' sc k →
    ∃ u v, LineOf p u l ∧ LineOf p' v l' ∧ u ≤ v

end Tricorder.Whole
