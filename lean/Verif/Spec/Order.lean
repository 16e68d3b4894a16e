import Verif.Spec.ListAgain
/-!
# The order in which the metrics of one listing are read
-/

namespace Tricorder.Whole
open Go _root_.Spec

/-- `y` shows the value that metric `mv` has in state `σ`: a distribution or a list with its time and its group id, or what a scalar is -/
inductive ShowsIn (w : World) (σ : State) (mv : MetricView) (y : Metric) : Prop where
  | dist {i d sn} : mv.value.valType = .dist → mv.value.dist = some i → σ.dists[i]? = some d → d.snapshot = some sn →
      y.value = .dist (some (Tricorder.Spec.shownDist sn)) → y.timeStamp = .time sn.timeStamp → y.groupId = d.groupId → ShowsIn w σ mv y
  | list {i lv} : mv.value.valType = .list → mv.value.alist = some i → listView σ i = some lv → y.value = lv.val →
      y.timeStamp = .time lv.timeStamp → y.groupId = lv.groupId → y.subType = lv.subType → ShowsIn w σ mv y
  | scalar {sc d} : mv.value.valType ≠ .dist → mv.value.valType ≠ .list → mv.value.src = some sc → Tricorder.Spec.current w σ sc = some d →
      valueToInterface d mv.value.valType mv.value.isPtr = some y.value → ShowsIn w σ mv y

/-- `m` is the message for a metric of the tree `T`, with the value of that metric in state `σ` -/
def ReadIn (w : World) (json : Bool) (T : Tree MValue) (σ : State) (m : Metric) : Prop :=
  ∃ id mv y, metricView T id = some mv ∧ encodeMetric json y = .ok m ∧ Tricorder.Spec.Describes y mv ∧ ShowsIn w σ mv y

/-- In the listing that begins at `x` and has taken the steps `b`, metric `m` comes somewhere before metric `n`, and both are
distributions and have the same group id.  At most `2^64` steps, and all distributions have bucketers made by the constructors. -/
structure ListedTwice (w : World) (json : Bool) (a : List (Item Answer)) (x : Item Answer) (b : List (Item Answer)) (m n : Metric) :
    Prop where
  listed : ∃ s c fuel path ms st held A B C, Run w (a ++ x :: b) s ∧ x.lab = .spawn c (listCall json fuel path) ∧
    s.procs[c]? = some ⟨.run (.ret (.listing ms st)), held⟩ ∧ ms = A ++ m :: B ++ n :: C
  kinds : m.kind = .dist ∧ n.kind = .dist
  same : m.groupId = n.groupId
  short : (a ++ x :: b).length < 2 ^ 64
  made : FromBucketers (a ++ x :: b)

/-- The same for a list.  The slices the list is made of are copied. -/
structure ListListedTwice (w : World) (json : Bool) (a : List (Item Answer)) (x : Item Answer) (b : List (Item Answer))
    (m n : Metric) : Prop where
  listed : ∃ s c fuel path ms st held A B C, Run w (a ++ x :: b) s ∧ x.lab = .spawn c (listCall json fuel path) ∧
    s.procs[c]? = some ⟨.run (.ret (.listing ms st)), held⟩ ∧ ms = A ++ m :: B ++ n :: C
  kinds : m.kind = .list ∧ n.kind = .list
  same : n.groupId = m.groupId
  copied : Copied w m.groupId (a ++ x :: b)

end Tricorder.Whole
