import Verif.Model.Misc
import Verif.Props.Types
/-!
# C34, C57: small public functions
-/

namespace Tricorder
open Go Spec

/-- **C57 (`ZeroValue`, `NilSlice`)** They panic for the same types: `Dist`, `List` and `Unknown`, as their comments say, and
strings that are no types.  Otherwise the zero value has the type that the elements of the nil slice have. -/
theorem C57_panics (t : Ty) : (t.zeroValue = none ↔ t = .dist ∨ t = .list ∨ t = .unknown ∨ ∃ s, t = .other s) ∧
    (t.nilSlice = none ↔ t.zeroValue = none) ∧
    ∀ v x, t.zeroValue = some v → t.nilSlice = some x →
      (fromGoValueWithSubType x).2 = (fromGoValueWithSubType v).1 ∧ (fromGoValueWithSubType v).1 ≠ .unknown := by
  refine ⟨?_, ?_, ?_⟩
  · cases t <;> simp [Ty.zeroValue, safeZeroValue]
  · cases t <;> simp [Ty.zeroValue, Ty.nilSlice, safeZeroValue, safeNilSlice]
  · intro v x hv hx
    cases t <;> simp only [Ty.zeroValue, Ty.nilSlice, safeZeroValue, safeNilSlice, Option.some.injEq, reduceCtorEq] at hv hx <;>
      subst hv hx <;> decide +kernel

/-- types with a zero value, and one without -/
example : Ty.zeroValue .goTime = some (.scalar none (.time Time.zero)) ∧ Ty.zeroValue .dist = none := ⟨rfl, rfl⟩

/-- **C34 (`FromSeconds`)** The factor between seconds and a unit: 1000 for milliseconds, as its comment says, 1 for all others. -/
theorem C34_from_seconds (u : MUnit) : fromSeconds u = .fin (if u = .millisecond then 1000 else 1) := by
  cases u <;> first
    | (rw [if_pos rfl]; show fromSeconds .millisecond = _; decide +kernel)
    | (rw [if_neg (by simp)]; show Fl.div b64 (Fl.ofInt b64 1) (Fl.ofInt b64 1) = _; decide +kernel)

end Tricorder
