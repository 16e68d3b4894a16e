import Verif.Spec.Poll
import Verif.Spec.Again
import Verif.Spec.Lists
/-!
# Asking again for a list
-/

namespace Tricorder.Whole
open Go _root_.Spec

variable {A : Type}

/-- the list `i` has the group id `g` -/
def ListHasId (σ : State) (i g : ℕ) : Prop := σ.lists[i]?.map ListObj.groupId = some g

/-- Step `it` makes the list with group id `g`, or changes it, to the values that the slice `cell` has at that moment, with the
time stamp `ts`. -/
def SetsList (w : World) (g : ℕ) (it : Item A) (cell : Cell) (mutable : Bool) (ts : Time) : Prop :=
  ∃ cmd i, memStep it = some cmd ∧ Tricorder.Spec.Sets i ⟨true, cmd, it.pre⟩ cell mutable ts ∧
    ListHasId (exec w cmd it.pre).1 i g

/-- no step sets the list -/
def NoSet (w : World) (g : ℕ) (l : List (Item A)) : Prop := ∀ e ∈ l, ∀ cell m ts, ¬ SetsList w g e cell m ts

/-- Whenever the list is set, the slice is declared mutable (or its elements are `int` or `uint`), and is a slice of values of its
element type. -/
def Copied (w : World) (g : ℕ) (tr : List (Item A)) : Prop :=
  ∀ it ∈ tr, ∀ cell m ts, SetsList w g it cell m ts → Tricorder.Spec.CellOk cell ∧ (m = true ∨ Tricorder.Spec.Unsized cell)

/-- the last step of `tr` that sets the list sets it to the values of `cell`, with time stamp `ts` -/
def LastSet (w : World) (g : ℕ) (tr : List (Item A)) (cell : Cell) (ts : Time) : Prop :=
  ∃ P u Q m, tr = P ++ u :: Q ∧ SetsList w g u cell m ts ∧ NoSet w g Q

/-- `m` is the message, converted to JSON if asked for, of a list metric with the values of `cell` and the time stamp `ts` -/
def ReportsList (json : Bool) (m : Metric) (cell : Cell) (ts : Time) : Prop :=
  ∃ y, encodeMetric json y = .ok m ∧ y.kind = .list ∧ Tricorder.Spec.Shows y.value cell ∧
    Tricorder.Spec.elemType cell.elem = some y.subType ∧ y.timeStamp = .time ts

/-- One request is answered, later another one is made and answered.  `m` is in the first answer and `n` in the second one; both
are lists and have the same group id.  The slices the list is made of are copied. -/
structure AskedList (w : World) (json : Bool) (a : List (Item Answer)) (x : Item Answer) (b c : List (Item Answer)) (y : Item Answer)
    (d : List (Item Answer)) (m n : Metric) : Prop where
  first : ∃ s, Run w (a ++ x :: b) s ∧ Answered json x s m
  second : ∃ s, Run w (a ++ x :: b ++ c ++ y :: d) s ∧ Answered json y s n
  kinds : m.kind = .list ∧ n.kind = .list
  same : n.groupId = m.groupId
  copied : Copied w m.groupId (a ++ x :: b ++ c ++ y :: d)

/-- the list never gets an earlier time stamp than before -/
def SetInOrder (w : World) (g : ℕ) (tr : List (Item A)) : Prop :=
  ∀ p u q u' z cell cell' m m' t t', tr = p ++ u :: q ++ u' :: z → SetsList w g u cell m t → SetsList w g u' cell' m' t' →
    NotAfter t t'

/-- the list is always set with a new time stamp (as it is reported) -/
def NewStamps (w : World) (json : Bool) (g : ℕ) (tr : List (Item A)) : Prop :=
  ∀ p u q u' z cell cell' m m' t t', tr = p ++ u :: q ++ u' :: z → SetsList w g u cell m t → SetsList w g u' cell' m' t' →
    stamp json t ≠ stamp json t'

end Tricorder.Whole
