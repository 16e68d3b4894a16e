import Verif.Model.Whole
import Verif.Spec.Listing
import Verif.Spec.Group
/-!
# What the properties of the whole library say

Over sequences of steps of `Model/Whole`; only labels, events and the shared memory are used.
-/

namespace Tricorder.Whole
open Go Spec

variable {A : Type}

/-- in this step the update function of group `r` returned `t` -/
def Updated (r : ℕ) (t : Time) (it : Item A) : Prop := ∃ f, Group.Ev.updEnd r f t ∈ it.evs

/-- the update function of group `r` neither begins, nor does anything, nor ends -/
def Quiet (r : ℕ) (l : List (Item A)) : Prop :=
  ∀ it ∈ l, (∀ cmd, it.lab ≠ .upd r cmd) ∧ ∀ e ∈ it.evs, Group.isUpdate r e = false

/-- after `l` nobody holds group `r` -/
def Unheld (r : ℕ) (l : List (Item A)) : Prop := ∀ cl, Group.holds cl r (l.map Item.evs).flatten = 0

/-- in `l` only the update function of group `r` changes what `sc` gives -/
def OnlyUpdate (w : World) (r : ℕ) (sc : Src) (l : List (Item A)) : Prop :=
  ∀ it ∈ l, (∀ cmd, it.lab ≠ .upd r cmd) → current w it.post sc = current w it.pre sc

/-- neither a distribution nor a list -/
def Scalar (mv : MetricView) : Prop := mv.value.valType ≠ .dist ∧ mv.value.valType ≠ .list

/-- `x`, encoded for JSON or GoRPC, reports a metric as goroutine `c` saw it during the run `tr`; for a scalar, its group id is that
of its group -/
def Reports (c : ℕ) (tr : List (Item A)) (json : Bool) (v : MetricView × Metric) (x : Metric) : Prop :=
  encodeMetric json v.2 = .ok x ∧ Describes v.2 v.1 ∧
  (∃ it ∈ tr, ∃ m, it.lab = .own c (.metric m) ∧ metricView it.pre.tree m = some v.1) ∧
  (Scalar v.1 → ∃ r, v.1.value.region = some r ∧ ∃ it ∈ tr, it.pre.regions[r]? = some v.2.groupId)

/-- All scalars of group `r` in `V` come from one update: `u`, in which the update function returned `t`.  It is the last one
before goroutine `c` took the group, and no other begins before the value is read, so if nobody else changes the source, the
value is the one that the update left. -/
def OneUpdate (w : World) (c : ℕ) (tr : List (Item A)) (r : ℕ) (V : List (MetricView × Metric)) : Prop :=
  ∃ a u b t, tr = a ++ u :: b ∧ Updated r t u ∧ ∀ v ∈ V, Scalar v.1 → v.1.value.region = some r →
    v.2.timeStamp = .time t ∧ ∃ sc d b1 rd b2, v.1.value.src = some sc ∧ b = b1 ++ rd :: b2 ∧
      (∃ x ∈ b1, ∃ cl, x.lab = .took c r cl t) ∧ Quiet r b1 ∧ (∃ cmd, rd.lab = .own c cmd) ∧
      current w rd.pre sc = some d ∧ valueToInterface d v.1.value.valType v.1.value.isPtr = some v.2.value ∧
      (OnlyUpdate w r sc b1 → current w u.post sc = some d)

end Tricorder.Whole
