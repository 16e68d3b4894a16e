import Verif.Spec.Live
/-!
# Runs that go on for ever, and fairness
-/

namespace Tricorder.Whole
open Go

variable {A : Type}

/-- the library runs for ever: `σ n` is the state after `n` steps -/
structure Forever (w : World) (σ : ℕ → St A) (it : ℕ → Item A) : Prop where
  start : σ 0 = start A
  step : ∀ n, Step w (σ n) (it n) (σ (n + 1))

/-- where goroutine `c` is in its program, and, while it is in `RLock` or `RUnlock`, where it is there -/
def place (s : St A) (c : ℕ) : Option (Proc A × Option (Group.Client Time)) :=
  s.procs[c]?.map fun p => (p, match p.pc with
    | .lock cl _ _ | .unlock cl _ _ => s.grp.clients[cl]?
    | .run _ => none)

/-- where the event loop of group `r` is -/
def loopAt (s : St A) (r : ℕ) : Option (Group.Loop Time) := s.grp.regions[r]?.map Group.Region.loop

/-- goroutine `c` can take a step -/
def CanMove (w : World) (s : St A) (c : ℕ) : Prop := ∃ it s', Step w s it s' ∧ place s' c ≠ place s c

/-- the event loop of group `r` can take a step; if it has called the update function, that can return -/
def LoopCanMove (w : World) (s : St A) (r : ℕ) : Prop := ∃ it s', Step w s it s' ∧ loopAt s' r ≠ loopAt s r

/-- a goroutine that can take a step again and again takes one -/
def FairTo (w : World) (σ : ℕ → St A) (c : ℕ) : Prop :=
  (∀ n, ∃ m ≥ n, CanMove w (σ m) c) → ∀ n, ∃ m ≥ n, place (σ (m + 1)) c ≠ place (σ m) c

/-- an event loop that can take a step all the time takes one; in particular update functions return -/
def LoopRuns (w : World) (σ : ℕ → St A) (r : ℕ) : Prop :=
  (∃ n, ∀ m ≥ n, LoopCanMove w (σ m) r) → ∀ n, ∃ m ≥ n, loopAt (σ (m + 1)) r ≠ loopAt (σ m) r

/-- in every run that goes on for ever, every call of `p` by a goroutine to which the run is fair ends, and the goroutine then holds no
group; of the other goroutines nothing is assumed -/
def Finishes (w : World) (p : Prog A) : Prop :=
  ∀ (σ : ℕ → St A) (it : ℕ → Item A), Forever w σ it → (∀ n, KnownGroup (it n)) → (∀ r, LoopRuns w σ r) →
    ∀ c n0, FairTo w σ c → (it n0).lab = .spawn c p →
      ∃ n > n0, ∃ a, ∀ m ≥ n, (σ m).procs[c]? = some ⟨.run (.ret a), []⟩

end Tricorder.Whole
