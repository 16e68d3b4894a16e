import Verif.Spec.Kinds
import Verif.Spec.Lists
/-!
# What `int` and `uint` mean on machines of different size
-/

namespace Tricorder.Spec
open Go

/-- the sized integer type with the values of `int`, `uint` on a machine where they have `bits` bits -/
def sizedKind (bits : ℕ) : IntKind → IntKind
  | .int => if bits = 32 then .int32 else .int64
  | .uint => if bits = 32 then .uint32 else .uint64
  | k => k

/-- the same type with sized integers -/
def sizedGo (bits : ℕ) : GoTy → GoTy
  | .scalar ⟨n, .int k⟩ => .scalar ⟨n, .int (sizedKind bits k)⟩
  | g => g

/-- the same number with a sized type -/
def sizedBase (bits : ℕ) : Base → Base
  | .int k x => .int (sizedKind bits k) x
  | b => b

/-- the same value with a sized type -/
def sizedDyn (bits : ℕ) : Dyn → Dyn
  | .scalar n b => .scalar n (sizedBase bits b)
  | d => d

/-- a value that exists on the machine: the numbers fit in their types -/
def OnMachine (bits : ℕ) (b : Base) : Prop := (sizedBase bits b).Valid

/-- a slice that exists on the machine -/
def CellOn (bits : ℕ) (c : Cell) : Prop :=
  ∃ t, c.elem = .scalar t ∧ ∀ b ∈ c.data.getD [], b.ty = t.base ∧ OnMachine bits b

/-- the metric type of the elements of a slice on the machine -/
def elemTypeOn (bits : ℕ) (c : Cell) : Option Ty := elemType (sizedGo bits c.elem)

end Tricorder.Spec
