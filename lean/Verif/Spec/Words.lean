import Verif.Model.Words
import Mathlib.Data.List.Perm.Basic
/-!
# Whole values, and how the application changes variables
-/

namespace Tricorder.Words

/-- memory at all times, from the beginning on -/
def mems (m : Mem) : List Ev → List Mem
  | [] => [m]
  | .load _ _ :: tr => m :: mems m tr
  | .store a x :: tr => m :: mems (m.set a x) tr

/-- the value of `n` words at `b` -/
def valueAt (m : Mem) (b n : ℕ) : List ℕ := (List.range n).map fun i => m (b + i)

/-- the reader, who got words with their offsets, got the value `v` -/
def Got (l : List (ℕ × ℕ)) (v : List ℕ) : Prop := (l.map Prod.fst).Perm (List.range v.length) ∧ ∀ i x, (i, x) ∈ l → v[i]? = some x

/-- stores by others, in order -/
def stores : List Ev → List (ℕ × ℕ)
  | [] => []
  | .load _ _ :: tr => stores tr
  | .store a x :: tr => (a, x) :: stores tr

/-- the stores that assigning `v` to the variable at `a` takes -/
def assign (a : ℕ) (v : List ℕ) : List (ℕ × ℕ) := v.zipIdx.map fun x => (a + x.2, x.1)

/-- The application assigns the values `vs`, of `n` words each, one after the other to the variable at `a`; so far perhaps not
all of it.  It may store elsewhere as well. -/
def Assigns (a n : ℕ) (vs : List (List ℕ)) (tr : List Ev) : Prop :=
  (∀ v ∈ vs, v.length = n) ∧ ((stores tr).filter fun x => a ≤ x.1 ∧ x.1 < a + n) <+: (vs.map (assign a)).flatten

/-- variables of `n` words may be assigned to while they are read: a reader gets the value that the variable had in the
beginning or one that was assigned since -/
def AssignSafe (n : ℕ) : Prop :=
  ∀ (m m' : Mem) (a : ℕ) ord vs tr r, ord.Perm (List.range n) → Assigns a n vs tr →
    Run m (copy a ord fun l => Rd.ret l) tr m' r → ∃ v ∈ valueAt m a n :: vs, Got r v

/-- times that the pointer at `a` pointed to during the read are not changed in place from then on -/
def NotInPlace (a : ℕ) (m : Mem) (tr : List Ev) : Prop :=
  ∀ t1 b x t2, tr = t1 ++ .store b x :: t2 → ∀ mm ∈ mems m t1, mm a ≠ 0 → b < mm a ∨ mm a + timeWords ≤ b

end Tricorder.Words
