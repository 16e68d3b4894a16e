import Verif.Spec.Whole
/-!
# Asking again
-/

namespace Tricorder.Whole
open Go Spec

/-- in step `x` goroutine `c` begins a listing or asks for a metric; in `s` it has the answer, with the metrics `ms` -/
inductive AnsweredWith (json : Bool) (c : ℕ) (x : Item Answer) (s : St Answer) (ms : List Metric) : Prop where
  | listing {fuel : ℕ} {path : Str} {st : Status} {held : List (ℕ × ℕ)} : x.lab = .spawn c (listCall json fuel path) →
      s.procs[c]? = some ⟨.run (.ret (.listing ms st)), held⟩ → AnsweredWith json c x s ms
  | single {path : Str} {m : Metric} {held : List (ℕ × ℕ)} : x.lab = .spawn c (getCall json path) →
      s.procs[c]? = some ⟨.run (.ret (.single (some (.ok m)))), held⟩ → ms = [m] → AnsweredWith json c x s ms

/-- `v` is a scalar of group `r` -/
def OfGroup (r : ℕ) (v : MetricView × Metric) : Prop := Scalar v.1 ∧ v.1.value.region = some r

/-- a metric that is neither a distribution nor a list -/
def ScalarKind (m : Metric) : Prop := m.kind ≠ .dist ∧ m.kind ≠ .list

/-- a time stamp as it is reported -/
def stamp (json : Bool) (t : Time) : TS := if json then .str (Dur.sinceEpoch t).toString else .time t

/-- `t` is not after `t'` -/
def NotAfter (t t' : Time) : Prop := t.sec < t'.sec ∨ t.sec = t'.sec ∧ t.nsec ≤ t'.nsec

/-- the update function of `r` never returns an earlier time than before -/
def NeverBack {A : Type} (r : ℕ) (tr : List (Item A)) : Prop :=
  ∀ p u q u' z t t', tr = p ++ u :: q ++ u' :: z → Updated r t u → Updated r t' u' → NotAfter t t'

/-- the update function of `r` returns a new time with each call -/
def NewTimes {A : Type} (r : ℕ) (tr : List (Item A)) : Prop :=
  ∀ p u q u' z t t', tr = p ++ u :: q ++ u' :: z → Updated r t u → Updated r t' u' → t ≠ t'

/-- The scalars of group `r` in `V` and `V'` have the times `t` and `t'`.  Those in `V'` come from a later call of the update
function than those in `V`, or all come from the same call.  In the latter case, the same metric has the same value in both, if
only the update function changes it. -/
def InOrder {A : Type} (w : World) (tr : List (Item A)) (r : ℕ) (V V' : List (MetricView × Metric)) (t t' : Time) : Prop :=
  (∀ v ∈ V, OfGroup r v → v.2.timeStamp = .time t) ∧ (∀ v ∈ V', OfGroup r v → v.2.timeStamp = .time t') ∧
  ((∃ p u q u' z, tr = p ++ u :: q ++ u' :: z ∧ Updated r t u ∧ Updated r t' u') ∨
    t' = t ∧ ∃ p u q, tr = p ++ u :: q ∧ Updated r t u ∧
      ∀ v ∈ V, ∀ v' ∈ V', OfGroup r v → OfGroup r v' → v'.1.value = v.1.value →
        (∀ sc, v.1.value.src = some sc → OnlyUpdate w r sc q) → v'.2.value = v.2.value)

end Tricorder.Whole
