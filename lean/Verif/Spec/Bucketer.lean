import Mathlib.Data.Rat.Defs
import Mathlib.Algebra.Order.Field.Rat
import Mathlib.Algebra.Order.Field.Basic
/-! # The 1-2-5 ladder -/

namespace Spec

/-- the numbers `10^k`, `2·10^k`, `5·10^k` in ascending order; `ladder 0 = 1` -/
def ladder (n : ℤ) : ℚ := (10 : ℚ) ^ (n / 3) * (if n % 3 = 0 then 1 else if n % 3 = 1 then 2 else 5)

example : [-3, -2, -1, 0, 1, 2, 3, 4].map ladder = [1/10, 2/10, 5/10, 1, 2, 5, 10, 20] := by
  decide +kernel

/-- `m` consecutive numbers of the ladder -/
def rungs (a : ℤ) (m : ℕ) : List ℚ := (List.range m).map fun (i : ℕ) => ladder (a + i)

end Spec
