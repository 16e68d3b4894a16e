import Verif.Spec.Whole
import Verif.Spec.Setup
/-!
# Calls of update functions in runs of the whole library
-/

namespace Tricorder.Whole
open Go Spec

variable {A : Type}

/-- in `l` the update function of group `r` executes `p`; others take steps in between -/
inductive Does (w : World) (r : ℕ) : Prog Unit → List (Item A) → Prop where
  | ret : Does w r (.ret ()) []
  | own {it : Item A} {cmd : Cmd} {k : cmd.Resp → Prog Unit} {l : List (Item A)} : it.lab = .upd r cmd →
      Does w r (k (exec w cmd it.pre).2) l → Does w r (.op cmd k) (it :: l)
  | skip {it : Item A} {p : Prog Unit} {l : List (Item A)} : (∀ cmd, it.lab ≠ .upd r cmd) → Does w r p l → Does w r p (it :: l)

/-- a call of the update function of group `r`: it begins in the step `x` and returns `t` in the step `u` -/
structure IsCall (r : ℕ) (t : Time) (tr a : List (Item A)) (x : Item A) (l : List (Item A)) (u : Item A) (b : List (Item A)) :
    Prop where
  split : tr = a ++ x :: (l ++ u :: b)
  begins : ∃ f, Group.Ev.updBegin r f ∈ x.evs
  ends : Updated r t u
  between : ∀ it ∈ l, ∀ e ∈ it.evs, Group.isUpdate r e = false

/-- `p` only reads and writes the variables in `X` -/
def UsesVars {α : Type} (X : ℕ → Prop) : Prog α → Prop
  | .ret _ => True
  | .op cmd k => ((∃ i, X i ∧ cmd = .readVar i) ∨ ∃ i d, X i ∧ cmd = .writeVar i d) ∧ ∀ x, UsesVars X (k x)

/-- `v` is reported as if `p` had been executed in one step in the state `σ` -/
def AsIf (w : World) (p : Prog Unit) (σ : State) (X : ℕ → Prop) (v : MetricView × Metric) : Prop :=
  ∀ i, X i → v.1.value.src = some (.var i) → ∃ d, (p.run w σ).1.vars[i]? = some d ∧
    valueToInterface d v.1.value.valType v.1.value.isPtr = some v.2.value

/-- All scalars of group `r` in `V` come from one call of its update function, and carry the time that it returned.  If the
function executes `p` on variables `X` that only it changes, they are reported as if it had been executed in one step. -/
def OneCall (w : World) (tr : List (Item A)) (r : ℕ) (V : List (MetricView × Metric)) : Prop :=
  ∃ a x l u b t, IsCall r t tr a x l u b ∧ ∀ v ∈ V, Scalar v.1 → v.1.value.region = some r → v.2.timeStamp = .time t ∧
    ∀ p X, Does w r p l → UsesVars X p → (∀ i, X i → OnlyUpdate w r (.var i) (l ++ u :: b)) → AsIf w p x.post X v

/-- in `σ`, `mv` is registered at `path` -/
def RegisteredAt (σ : State) (path : Str) (mv : MetricView) : Prop :=
  ∃ m, Reaches σ.tree 0 (newPathSpec path) (.metric m) ∧ metricView σ.tree m = some mv

/-- what the metrics of the resource usage group report: the values in the kernel's record and the number of goroutines.  Two
are missing: `/proc/memory/unshared-stack`, and the CPU times as they should be (both are wrong, see C54). -/
def usageRows (linux : Bool) (n : ℤ) (k : Rusage) : List (Str × Val) :=
  (lit "/proc/go/num-goroutines", int64Val n) ::
    ((usageTable linux k).map (fun row => (row.1, row.2.2)) ++
    (cpuTable k).map fun row => (row.1, .scalar none (.duration (nanos row.2 - 999 * row.2.usec))))

end Tricorder.Whole
