import Verif.Spec.Whole
/-!
# What it means that a call can finish by itself
-/

namespace Tricorder.Group

/-- the event starts something: a group, another id, a request, the end of a request, a change of an update function -/
def starts {τ : Type} : Ev τ → Bool
  | .newGroup _ _ _ | .newOther _ | .opened _ | .closeBegin _ | .acceptFn _ _ _ => true
  | _ => false

end Tricorder.Group

namespace Tricorder.Whole
open Go Spec

variable {A : Type}

/-- The step is one of goroutine `c`, or a step in the event loops which starts nothing.  No other goroutine executes a step of its
program; the only thing that may happen to one that waits for an answer of an event loop is that it gets it. -/
def Alone (c : ℕ) (it : Item A) : Prop :=
  (∃ cmd, it.lab = .own c cmd) ∨ (∃ r cl, it.lab = .asks c r cl) ∨ (∃ r cl t, it.lab = .took c r cl t) ∨
  (∃ r cl, it.lab = .gives c r cl) ∨ (∃ r cl, it.lab = .gave c r cl) ∨
  it.lab = .loop ∧ ∀ e ∈ it.evs, Group.starts e = false

/-- if the step registers a metric, its group exists -/
def KnownGroup (it : Item A) : Prop :=
  ∀ d name desc v r, ((∃ c, it.lab = .own c (.storeMetric d name desc v)) ∨ ∃ q, it.lab = .upd q (.storeMetric d name desc v)) →
    v.region = some r → r < it.pre.regions.length

/-- What goroutine `c`, which executes `p`, can do after `tr`: there is a continuation in which `c` finishes its call and holds
nothing.  No other goroutine executes a step, their programs stand where they stood, and the memory is unchanged. -/
def CanFinish (w : World) (c : ℕ) (p : Prog A) : Prop :=
  ∀ (tr : List (Item A)) (s : St A), Run w tr s → (∀ it ∈ tr, KnownGroup it) → (∃ it ∈ tr, it.lab = .spawn c p) →
    ∃ tr' s' r, Run w (tr ++ tr') s' ∧ (∀ it ∈ tr', Alone c it) ∧ s'.mem = s.mem ∧
      (∀ c', c' ≠ c → s'.procs[c']? = s.procs[c']?) ∧ s'.procs[c]? = some ⟨.run (.ret r), []⟩

end Tricorder.Whole
