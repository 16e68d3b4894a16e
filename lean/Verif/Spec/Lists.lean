import Verif.Model.Sys
/-!
# What a list metric should report
-/

namespace Tricorder.Spec
open Go

/-- the metric type of the elements of a slice; none for slices that cannot be reported -/
def elemType : GoTy → Option Ty
  | .scalar ⟨none, .time⟩ => some .goTime
  | .scalar ⟨none, .duration⟩ => some .goDuration
  | .scalar ⟨some _, .time⟩ => none
  | .scalar ⟨some _, .duration⟩ => some .int64
  | .scalar ⟨_, .bool⟩ => some .bool
  | .scalar ⟨_, .string⟩ => some .string
  | .scalar ⟨_, .float32⟩ => some .float32
  | .scalar ⟨_, .float64⟩ => some .float64
  | .scalar ⟨_, .int .int8⟩ => some .int8
  | .scalar ⟨_, .int .int16⟩ => some .int16
  | .scalar ⟨_, .int .int32⟩ => some .int32
  | .scalar ⟨_, .int .int64⟩ => some .int64
  | .scalar ⟨_, .int .int⟩ => some .int64
  | .scalar ⟨_, .int .uint8⟩ => some .uint8
  | .scalar ⟨_, .int .uint16⟩ => some .uint16
  | .scalar ⟨_, .int .uint32⟩ => some .uint32
  | .scalar ⟨_, .int .uint64⟩ => some .uint64
  | .scalar ⟨_, .int .uint⟩ => some .uint64
  | .timePtr => none
  | .other _ => none

/-- the argument can be reported as a list with elements of type `t` -/
def ArgType (mem : List Cell) (a : SliceArg) (t : Ty) : Prop :=
  ∃ c cell, a = .slice c ∧ mem[c]? = some cell ∧ elemType cell.elem = some t

/-- the elements are `int` or `uint` -/
def Unsized (c : Cell) : Prop := ∃ n, c.elem = .scalar ⟨n, .int .int⟩ ∨ c.elem = .scalar ⟨n, .int .uint⟩

/-- the elements are values of the element type -/
def CellOk (c : Cell) : Prop :=
  ∃ t, c.elem = .scalar t ∧ ∀ xs, c.data = some xs → ∀ b ∈ xs, b.ty = t.base ∧ b.Valid

/-- the same number with a size -/
def sized : Base → Base
  | .int .int x => .int .int64 x
  | .int .uint x => .int .uint64 x
  | b => b

/-- `v` shows the values of the slice `c`: the same values in the same order, in a slice of the same type
except that `[]int` becomes `[]int64` and `[]uint` becomes `[]uint64`.  (A nil slice may be shown as an empty
one.) -/
def Shows (v : Val) (c : Cell) : Prop :=
  ∃ nm ty xs, v = .slice nm ty xs ∧ xs.getD [] = (c.data.getD []).map sized ∧
    (¬ Unsized c → nm = c.sliceNamed ∧ c.elem = .scalar ty) ∧
    (∀ n, c.elem = .scalar ⟨n, .int .int⟩ → nm = none ∧ ty = ⟨none, .int .int64⟩) ∧
    (∀ n, c.elem = .scalar ⟨n, .int .uint⟩ → nm = none ∧ ty = ⟨none, .int .uint64⟩)

/-- the step changes list `i`: a `Change` that does not panic -/
def ChangesList (i : ℕ) (e : Ev) : Prop :=
  ∃ a m ts, e.cmd = .changeList i a m ts ∧ (e.pre.changeList i a m ts).2 = true

/-- Step `e` creates list `i` from, or changes it to, the values of the slice `cell`, with time stamp `ts`. -/
def Sets (i : ℕ) (e : Ev) (cell : Cell) (mutable : Bool) (ts : Time) : Prop :=
  ∃ c, e.pre.mem[c]? = some cell ∧
    (e.cmd = .newList (.slice c) mutable ts ∧ (e.pre.newList (.slice c) mutable ts).2 = some i ∨
     e.cmd = .changeList i (.slice c) mutable ts ∧ (e.pre.changeList i (.slice c) mutable ts).2 = true)

end Tricorder.Spec
