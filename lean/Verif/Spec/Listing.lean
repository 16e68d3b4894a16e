import Verif.Model.Read
import Verif.Spec.Tree
/-!
# What a listing should contain

`S` is the set of states that exist while a listing runs.  Paths are compared component by
component, components byte by byte: `p < q` on lists of lists of bytes.
-/

namespace Tricorder.Spec
open Go

/-- Following the components `p` from directory `d` leads to metric `m` if every single link is
taken at some moment in `S`. -/
inductive Seen (S : State → Prop) : ℕ → List Str → ℕ → Prop where
  | metric {d name m σ} : S σ → Reaches σ.tree d [name] (.metric m) → Seen S d [name] m
  | dir {d name d' p m σ} : S σ → Reaches σ.tree d [name] (.dir d') → Seen S d' p m →
      Seen S d (name :: p) m

/-- the same for directories -/
inductive SeenDir (S : State → Prop) : ℕ → List Str → ℕ → Prop where
  | here (d : ℕ) : SeenDir S d [] d
  | dir {d name d' p d'' σ} : S σ → Reaches σ.tree d [name] (.dir d') → SeenDir S d' p d'' →
      SeenDir S d (name :: p) d''

/-- metric `m` is at `p`, seen from directory `d`, all the time -/
def Stable (S : State → Prop) (d : ℕ) (p : List Str) (m : ℕ) : Prop :=
  ∀ σ, S σ → Reaches σ.tree d p (.metric m)

/-- All metrics at or under the path with components `c`, in canonical order: sorted by path.  As a path comes
before its extensions and siblings are compared by name, this is the depth-first order. -/
structure Canonical (t : Tree MValue) (c : List Str) (L : List (List Str × ℕ)) : Prop where
  complete : ∀ p m, (p, m) ∈ L ↔ c <+: p ∧ Reaches t 0 p (.metric m)
  sorted : L.Pairwise fun x y => x.1 < y.1

/-- the value of a source when it is read in the state `σ`; none if reading it panics -/
def current (w : World) (σ : State) : Src → Option Dyn
  | .var v => σ.vars[v]?
  | .fn f => w.fn σ f
  | .flagGet g => w.flagGet σ g
  | .flagString g => (w.flagString σ g).map fun s => .scalar none (.string s)

/-- a floating point value that is infinite or not a number -/
def InfNaN : Dyn → Prop
  | .scalar _ (.float32 x) => x.isInf = true ∨ x.isNaN = true
  | .scalar _ (.float64 x) => x.isInf = true ∨ x.isNaN = true
  | _ => False

/-- a distribution as reported: the statistics of the snapshot and one range per bucket, in order -/
def shownDist (sn : Snapshot Fl) : DistMsg where
  min := sn.min
  max := sn.max
  average := sn.average
  median := sn.median
  sum := sn.sum
  count := sn.count
  generation := sn.generation
  isNotCumulative := sn.isNotCumulative
  ranges := sn.breakdown.map fun (piece, n) => { lower := piece.start, upper := piece.stop, count := n }

/-- `x` is what metric `mv` reports (in RPC form), everything being read at moments in `S`: for a
distribution a snapshot at one moment, for a list the slice at one moment, otherwise the value of the source
at one moment, converted.  A scalar's time stamp is an answer of its group, also at a moment
in `S`. -/
inductive Tells (w : World) (S : State → Prop) (mv : MetricView) (x : Metric) : Prop where
  | dist {i d sn σ} : mv.value.valType = .dist → mv.value.dist = some i → S σ → σ.dists[i]? = some d →
      d.snapshot = some sn → x.value = .dist (some (shownDist sn)) → x.timeStamp = .time sn.timeStamp →
      x.groupId = d.groupId → Tells w S mv x
  | list {i lv σ} : mv.value.valType = .list → mv.value.alist = some i → S σ → listView σ i = some lv →
      x.value = lv.val → x.timeStamp = .time lv.timeStamp → x.groupId = lv.groupId → x.subType = lv.subType →
      Tells w S mv x
  | scalar {sc d r σ σ' σ''} : mv.value.valType ≠ .dist → mv.value.valType ≠ .list → mv.value.src = some sc → S σ →
      current w σ sc = some d → valueToInterface d mv.value.valType mv.value.isPtr = some x.value →
      mv.value.region = some r → S σ' → σ'.regions[r]? = some x.groupId → S σ'' →
      x.timeStamp = .time (w.lockTime σ'' r) → Tells w S mv x

/-- `x` names the metric `mv` and its properties -/
def Describes (x : Metric) (mv : MetricView) : Prop :=
  x.path = mv.path ∧ x.description = mv.description ∧ x.unit = mv.value.unit ∧ x.kind = mv.value.valType ∧
  x.bits = (if x.kind = .list then x.subType else x.kind).bits ∧ (x.kind ≠ .list → x.subType = .unknown)

/-- metric `m` is a floating point number that is infinite or NaN -/
def IsInfNaN (w : World) (σ : State) (m : ℕ) : Prop :=
  ∃ mv sc d, metricView σ.tree m = some mv ∧ mv.value.valType.isFloat = true ∧
    mv.value.src = some sc ∧ current w σ sc = some d ∧ InfNaN d

/-- metric `m` is registered as a floating point number, but reading it panics or gives something else (the
`Get` method of a flag can change its result type) -/
def NotFloat (w : World) (σ : State) (m : ℕ) : Prop :=
  ∃ mv, metricView σ.tree m = some mv ∧ mv.value.valType.isFloat = true ∧
    ¬ ∃ sc n x, mv.value.src = some sc ∧
      (current w σ sc = some (.scalar n (.float32 x)) ∨ current w σ sc = some (.scalar n (.float64 x)))

/-- metric `m` is a floating point number that is infinite or NaN whenever it is read -/
def AlwaysInfNaN (w : World) (S : State → Prop) (m : ℕ) : Prop :=
  ∀ σ, S σ → ∀ mv, metricView σ.tree m = some mv → mv.value.valType.isFloat = true ∧
    ∀ σ', S σ' → ∀ sc d, mv.value.src = some sc → current w σ' sc = some d → InfNaN d

/-- metric `m` is never infinite or NaN when it is read (it need not be a number) -/
def NeverInfNaN (w : World) (S : State → Prop) (m : ℕ) : Prop :=
  ∀ σ, S σ → ∀ mv, metricView σ.tree m = some mv → mv.value.valType.isFloat = true →
    ∀ σ', S σ' → ∀ sc d, mv.value.src = some sc → current w σ' sc = some d → ¬ InfNaN d

/-- the traversal itself only looks up and lists directories and releases groups -/
def Between (h : List Ev) : Prop :=
  ∀ e ∈ h, e.own = true → (∃ d name, e.cmd = .getEntry d name) ∨ (∃ d, e.cmd = .list d) ∨ ∃ r, e.cmd = .runlock r

/-- A sequence of calls of a collector for the metrics `ms`, each with the session and the state that the
call before left; the runs of the calls are parts of the history, one after the other, and between them are only
steps of other goroutines and of the traversal itself.  The sequence goes on after
success; the first call that does not succeed is the last one and its result is the result of the
sequence.  (`timeout` stands for the end of the model's fuel.) -/
inductive Calls {A : Type} (w : World) (coll : Coll A) :
    List Ev → List ℕ → Session → A → Session → A → Status → Prop where
  | done {e s a} : Between e → Calls w coll e [] s a s a .ok
  | timeout {e s a} : Between e → Calls w coll e [] s a s a .timeout
  | more {b h H m ms s a s' a' s'' a'' st σ σ'} : Between b → RunI w (collect coll m s a) σ h σ' (s', a', .ok) →
      Calls w coll H ms s' a' s'' a'' st → Calls w coll (b ++ (h ++ H)) (m :: ms) s a s'' a'' st
  | stop {b h e m s a s' a' st σ σ'} : Between b → RunI w (collect coll m s a) σ h σ' (s', a', st) →
      Between e → st ≠ .ok → Calls w coll (b ++ (h ++ e)) [m] s a s' a' st

end Tricorder.Spec
