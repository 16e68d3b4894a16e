import Verif.Model.Alias
import Verif.Spec.Lists
/-!
# Slices that share arrays: what should hold
-/

namespace Tricorder.Spec
open Go

/-- the application makes a slice or writes to one -/
def SliceOp : Cmd → Bool
  | .newSlice _ | .writeSlice _ _ _ => true
  | _ => false

/-- the step, if it is one of the library or of the application other than with slices; the state before it as it looks
through the slices -/
def libStep (e : Alias.Ev) : Option Ev :=
  match e.act with
  | .cmd c => if SliceOp c then none else some ⟨e.own, c, e.pre.view⟩
  | _ => none

/-- all states of a run, in order -/
def aliasStates (h : List Alias.Ev) (A' : Alias.St) : List Alias.St := h.map Alias.Ev.pre ++ [A']

/-- the step changes list `i`: a `Change` that does not panic -/
def AliasChanges (i : ℕ) (e : Alias.Ev) : Prop :=
  ∃ a m ts, e.act = .cmd (.changeList i a m ts) ∧ (e.pre.changeList i a m ts).2 = true

/-- Step `e` creates list `i` from, or changes it to, a slice which has the type and the elements `cell` at that moment,
with time stamp `ts`. -/
def AliasSets (i : ℕ) (e : Alias.Ev) (cell : Cell) (mutable : Bool) (ts : Time) : Prop :=
  ∃ c h, e.pre.heads[c]? = some h ∧ cell = h.cell e.pre.arrays ∧
    (e.act = .cmd (.newList (.slice c) mutable ts) ∧ (e.pre.newList (.slice c) mutable ts).2 = some i ∨
     e.act = .cmd (.changeList i (.slice c) mutable ts) ∧ (e.pre.changeList i (.slice c) mutable ts).2 = true)

/-- element `j` of the slice `r` is element `n` of the slice `q` -/
def SameElem (r : Alias.Ref) (j : ℕ) (q : Alias.Ref) (n : ℕ) : Prop := r.arr = q.arr ∧ r.off + j = q.off + n

/-- list `i` refers to the slice `q`, and a reader gets the elements `xs` -/
def AliasReports (A : Alias.St) (i : ℕ) (q : Alias.Ref) (xs : List Base) : Prop :=
  ∃ l n t b, A.rest.lists[i]? = some l ∧ A.heads[l.slice]? = some ⟨n, .scalar t, b, some q⟩ ∧
    listView A.view i = some ⟨.slice n t (some xs), l.timeStamp, l.groupId, l.subType⟩

end Tricorder.Spec
