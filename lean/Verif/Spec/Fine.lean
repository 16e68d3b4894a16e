import Verif.Model.Fine
import Verif.Spec.Locks
/-!
# What it means that the whole library can be treated as if its methods were atomic
-/

namespace Tricorder.Fine
open Go

/-- What remains of a step if methods are atomic: of a method only its effect, by goroutine `c` (`2 * c`) or by the update function
of group `r` (`2 * r + 1`); everything else as it is. -/
def coarse {A : Type} (it : Item A) : Option (Whole.Lab A × List (Group.Ev Time)) :=
  match it.lab with
  | .spawn c p => some (.spawn c p, it.evs)
  | .lk (.effect i cmd _) => some (if i % 2 = 0 then .own (i / 2) cmd else .upd (i / 2) cmd, it.evs)
  | .lk _ => none
  | .asks c r cl => some (.asks c r cl, it.evs)
  | .took c r cl t => some (.took c r cl t, it.evs)
  | .gives c r cl => some (.gives c r cl, it.evs)
  | .gave c r cl => some (.gave c r cl, it.evs)
  | .loop => some (.loop, it.evs)

/-- goroutine `c` has finished its program with the answer `a` -/
def Answered {A : Type} (procs : List (Whole.Proc A)) (c : ℕ) (a : A) : Prop := ∃ held, procs[c]? = some ⟨.run (.ret a), held⟩

/-- The run of `Model/Whole` does the same: the same effects, rendezvous and calls in the same order, with the same groups and the
same answers; a goroutine can be behind only by the return of one method.  The memory is the same, except for the fields of an
object that somebody is writing at this moment. -/
structure Same {A : Type} (tr : List (Item A)) (f : St A) (tr' : List (Whole.Item A)) (s : Whole.St A) : Prop where
  order : tr'.map (fun i => (i.lab, i.evs)) = tr.filterMap coarse
  groups : s.grp = f.grp
  answers : ∀ c a, Answered f.procs c a → Answered s.procs c a
  only : ∀ c a, Answered s.procs c a → Answered f.procs c a ∨ ∃ cmd lock r, f.lk.phases[2 * c]? = some (.done cmd lock r)
  memory : ∃ o : Locks.Objs, s.mem = Locks.whole o f.lk.shared ∧
    ∀ l, (∀ (i : ℕ) cmd rest, f.lk.phases[i]? ≠ some (.inside cmd l true rest)) → f.lk.objs l = o l

end Tricorder.Fine
