import Verif.Spec.Request
/-!
# What a request asks of the application, and how often
-/

namespace Tricorder.Spec
open Go

/-- the variables that the request itself reads, the callbacks it calls and the flags it asks, in order -/
def consults (h : List Ev) : List Src := h.filterMap fun e => if e.own then readsSource e.cmd else none

/-- A single value is asked for once; lists and distributions are not asked for. -/
def once (mv : MetricView) : List Src :=
  if mv.value.valType = .dist ∨ mv.value.valType = .list then [] else mv.value.src.toList

/-- the same for metric number `m` -/
def onceAt (t : Tree MValue) (m : ℕ) : List Src := ((metricView t m).map once).getD []

/-- Listings ask for numbers with a fraction twice: first to see whether the metric is to be left out. -/
def shown (mv : MetricView) : List Src := if mv.value.valType.isFloat then once mv ++ once mv else once mv

/-- What a listing that visits the metric asks for: if it reports the metric as `x`; if it leaves it out, which can only be because
it is a number with a fraction; if it gets no further. -/
inductive Consulted (t : Tree MValue) (m : ℕ) : Option (Option Metric) → List Src → Prop where
  | reported {mv x} : metricView t m = some mv → x.path = mv.path → Consulted t m (some (some x)) (shown mv)
  | leftOut {mv} : metricView t m = some mv → mv.value.valType.isFloat = true → Consulted t m (some none) (once mv)
  | failed {mv l} : metricView t m = some mv → l <+: shown mv → Consulted t m none l

/-- the same for a line of the text page, which is written or left out -/
inductive Lined (t : Tree MValue) (m : ℕ) : Option Bool → List Src → Prop where
  | written {mv} : metricView t m = some mv → Lined t m (some true) (shown mv)
  | leftOut {mv} : metricView t m = some mv → mv.value.valType.isFloat = true → Lined t m (some false) (once mv)
  | failed {mv l} : metricView t m = some mv → l <+: shown mv → Lined t m none l

end Tricorder.Spec
