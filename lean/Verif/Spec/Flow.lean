import Verif.Spec.Poll
/-!
# What goes into a distribution and what comes out of it between two answers
-/

namespace Tricorder.Whole
open Go _root_.Spec

variable {A : Type}

/-- the unit of distribution `j` -/
def unitOf (σ : State) (j : ℕ) : MUnit := ((σ.dists[j]?).map Dist.unit).getD .unknown

/-- the Add, Update or Remove of numbers that this step is, if it is one on the distribution with group id `g`; and whether it
panicked -/
def dealing (w : World) (g : ℕ) (it : Item A) : Option (DOp Fl × Option DPanic) :=
  match memStep it with
  | some (.distCall j c) =>
    if HasId it.pre j g then (toOp (unitOf it.pre j) c).map fun o => (o, (show Option DPanic from (exec w (.distCall j c) it.pre).2))
    else none
  | _ => none

/-- the value that it puts in: an Update does so also when it panics because the range of the old value is empty -/
def putIn : DOp Fl × Option DPanic → Option Fl
  | (.add v _, none) => some v
  | (.update _ n _, none) => some n
  | (.update _ n _, some .badValue) => some n
  | _ => none

/-- the value that it takes out -/
def takenOut : DOp Fl × Option DPanic → Option Fl
  | (.remove v _, none) => some v
  | (.update o _ _, none) => some o
  | _ => none

/-- it is an Add that returned normally -/
def ComesIn : DOp Fl × Option DPanic → Bool
  | (.add _ _, none) => true
  | _ => false

/-- it is a Remove that returned normally -/
def GoesOut : DOp Fl × Option DPanic → Bool
  | (.remove _ _, none) => true
  | _ => false

/-- the sum after it, with float64 arithmetic -/
def sumAfter (t : Fl) : DOp Fl × Option DPanic → Fl
  | (.add v _, none) => Fl.add b64 t v
  | (.remove v _, none) => Fl.sub b64 t v
  | (.update o n _, none) => Fl.add b64 t (Fl.sub b64 n o)
  | _ => t

/-- `v` is in range `k` of those shown: not below its lower bound unless it is the first one, and below its upper bound unless it is
the last one.  So NaN is in the last range. -/
def InRange (rs : List RangeMsg) (k : ℕ) (v : Fl) : Bool :=
  match rs[k]? with
  | some r => (decide (k = 0) || !Fl.lt v r.lower) && (decide (k + 1 = rs.length) || Fl.lt v r.upper)
  | none => false

/-- the endpoints of all bucketers are in ascending order -/
def FromAscending (tr : List (Item A)) : Prop :=
  ∀ it ∈ tr, ∀ pieces nc ts, memStep it = some (.newDist pieces nc ts) →
    ∃ l : List Fl, Ascending l ∧ newArbitraryBucketer l = .ok pieces

end Tricorder.Whole
