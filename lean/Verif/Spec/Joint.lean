import Mathlib.Logic.Function.Basic
import Verif.Spec.Registry
/-!
# Several goroutines that register at the same time
-/

namespace Tricorder.Spec
open Go

/-- one step of goroutines `ι`; `who = none`: a step of somebody else -/
structure JEv (ι : Type) where
  who : Option ι
  cmd : Cmd
  pre : State

/-- Goroutines `i` execute the programs `ps i`, from the state `s` on, in any interleaving, with steps of others in
between; in the end, in state `s'`, all have returned, with results `rs i`. -/
inductive Joint (w : World) {ι : Type} [DecidableEq ι] {β : Type} :
    (ι → Prog β) → State → List (JEv ι) → State → (ι → β) → Prop where
  | done {ps s rs} : (∀ i, ps i = .ret (rs i)) → Joint w ps s [] s rs
  | go {ps s h s' rs} (i : ι) (c : Cmd) (k : c.Resp → Prog β) : ps i = .op c k →
      Joint w (Function.update ps i (k (exec w c s).2)) (exec w c s).1 h s' rs →
      Joint w ps s (⟨some i, c, s⟩ :: h) s' rs
  | other {ps s h s' rs} (c : Cmd) : c.Ok s → Joint w ps (exec w c s).1 h s' rs →
      Joint w ps s (⟨none, c, s⟩ :: h) s' rs

/-- a call of `RegisterMetric` or of `RegisterDirectory` on the directory handle `d` -/
inductive RegCall where
  | metric (d : ℕ) (path : Str) (spec : RegSpec) (group : Option ℕ) (unit : MUnit) (desc : Str)
  | directory (d : ℕ) (path : Str)

/-- the result: nil or an error, or a panic -/
def RegCall.prog (w : World) : RegCall → Prog (Out (Except RegErr Unit))
  | .metric d path spec group unit desc => apiRegisterMetric w.fnTy d path spec group unit desc
  | .directory d path => (apiRegisterDirectory d path).bind fun r => .ret (.ok (r.map fun _ => ()))

def RegCall.dir : RegCall → ℕ
  | .metric d _ _ _ _ _ => d
  | .directory d _ => d

def RegCall.path : RegCall → Str
  | .metric _ p _ _ _ _ => p
  | .directory _ p => p

def RegCall.isMetric : RegCall → Prop
  | .metric .. => True
  | .directory .. => False

/-- the value, if there is one, can be registered, as far as it is concerned, in state `σ` -/
def RegCall.ValueFine (w : World) (σ : State) : RegCall → Prop
  | .metric _ _ spec _ unit _ => valueSays w σ unit spec = .ok none
  | .directory .. => True

/-- a metric with description `desc` and value `v` is what `c` registers -/
def RegCall.Makes (desc : Str) (v : MValue) : RegCall → Prop
  | .metric _ _ spec group unit de => desc = de ∧ StandsFor v spec group unit
  | .directory .. => False

/-- `p` are the components of the path at which `c` registers, counted from the root -/
def RegCall.At (s : State) (c : RegCall) (p : List Str) : Prop :=
  ∃ a b, Reaches s.tree 0 a (.dir c.dir) ∧ Components c.path b ∧ p = a ++ b

/-- what a path leads to keeps a call from succeeding at `p`: there is a metric on the way or at `p`; for a metric: there is
anything at `p` -/
def RegCall.Blocked (t : Tree MValue) (c : RegCall) (p : List Str) : Prop :=
  (∃ u m, u <+: p ∧ Reaches t 0 u (.metric m)) ∨ c.isMetric ∧ ∃ n, Reaches t 0 p n

/-- goroutines `i` make the calls `cs i`, at the paths `ab i`; nobody else changes the tree -/
structure JRun (w : World) {ι : Type} [DecidableEq ι] (cs : ι → RegCall) (s : State) (H : List (JEv ι)) (s' : State)
    (rs : ι → Out (Except RegErr Unit)) (ab : ι → List Str) : Prop where
  joint : Joint w (fun i => (cs i).prog w) s H s' rs
  reach : Reachable w s
  at_ : ∀ i, (cs i).At s (ab i)
  others : ∀ e ∈ H, e.who = none → (exec w e.cmd e.pre).1.tree = e.pre.tree

end Tricorder.Spec
