import Verif.Spec.Flow
/-!
# Min and Max of a distribution between two answers
-/

namespace Tricorder.Whole
open Go _root_.Spec

/-- the value that an Add or Update that returned normally has put in -/
def reached : DOp Fl × Option DPanic → Option Fl
  | (.add v _, none) => some v
  | (.update _ n _, none) => some n
  | _ => none

/-- a distribution that had `c` values contains some after these moves -/
def NotEmpty (c : ℕ) (moves : List (DOp Fl × Option DPanic)) : Prop := moves.countP GoesOut < c + moves.countP ComesIn

instance (c : ℕ) (moves : List (DOp Fl × Option DPanic)) : Decidable (NotEmpty c moves) := by
  unfold NotEmpty; infer_instance

/-- it had some all the time -/
def NeverEmpty (c : ℕ) (moves : List (DOp Fl × Option DPanic)) : Prop := ∀ p q, moves = p ++ q → NotEmpty c p

/-- it was empty after the moves `p`, and never again during the moves `q` -/
def EmptyLast (c : ℕ) (p q : List (DOp Fl × Option DPanic)) : Prop :=
  ¬ NotEmpty c p ∧ ∀ q1 q2, q = q1 ++ q2 → q1 ≠ [] → NotEmpty c (p ++ q1)

/-- the least number of a list -/
def LeastOf (x : Fl) (vs : List Fl) : Prop := x ∈ vs ∧ ∀ v ∈ vs, Fl.le x v = true

/-- the greatest number of a list -/
def GreatestOf (x : Fl) (vs : List Fl) : Prop := x ∈ vs ∧ ∀ v ∈ vs, Fl.le v x = true

/-- what Min and Max are after these moves -/
def MinMaxAfter (D E : DistMsg) (moves : List (DOp Fl × Option DPanic)) : Prop :=
  (NeverEmpty D.count moves → D.count ≠ 0 ∧ E.count ≠ 0 ∧
    (E.min = D.min ∨ Fl.lt E.min D.min = true) ∧ (E.max = D.max ∨ Fl.lt D.max E.max = true) ∧
    (Fl.le D.min D.max = true → (∀ v ∈ moves.filterMap reached, v ≠ .nan) →
      LeastOf E.min (D.min :: moves.filterMap reached) ∧ GreatestOf E.max (D.max :: moves.filterMap reached))) ∧
  (∀ p q, moves = p ++ q → EmptyLast D.count p q → q ≠ [] → (∀ v ∈ q.filterMap reached, v ≠ .nan) →
    E.count ≠ 0 ∧ LeastOf E.min (q.filterMap reached) ∧ GreatestOf E.max (q.filterMap reached))

end Tricorder.Whole
