import Verif.Model.Whole
/-!
# What it means that a call never waits
-/

namespace Tricorder.Whole
open Go

variable {A : Type}

/-- goroutine `c` executed a step of its program -/
def OwnStep (c : ℕ) (it : Item A) : Prop := ∃ cmd, it.lab = .own c cmd

/-- goroutine `c` begins or ends to wait for an event loop -/
def Waits (c : ℕ) (it : Item A) : Prop :=
  (∃ r cl, it.lab = .asks c r cl) ∨ (∃ r cl t, it.lab = .took c r cl t) ∨ (∃ r cl, it.lab = .gives c r cl) ∨ ∃ r cl, it.lab = .gave c r cl

open Classical in
/-- the number of steps that goroutine `c` executed -/
noncomputable def ownSteps (c : ℕ) (l : List (Item A)) : ℕ := (l.filter fun it => decide (OwnStep c it)).length

/-- A call of `p` in a state in which `ok` holds never waits: whatever the rest of the program did since the call, the caller never
asked an event loop for anything, and it can end the call at once by its own steps, with nothing else happening.  With
the steps that it executed before these are at most `n`. -/
def NeverWaits (w : World) (n : ℕ) (ok : State → Prop) (p : Prog A) : Prop :=
  ∀ (a : List (Item A)) x b s c, Run w (a ++ x :: b) s → x.lab = .spawn c p → ok x.pre →
    (∀ it ∈ b, ¬ Waits c it) ∧
    ∃ tr s' r, Run w (a ++ x :: b ++ tr) s' ∧ (∀ it ∈ tr, OwnStep c it) ∧ ownSteps c b + tr.length ≤ n ∧
      s'.procs[c]? = some ⟨.run (.ret r), []⟩ ∧ ∀ c', c' ≠ c → s'.procs[c']? = s.procs[c']?

end Tricorder.Whole
