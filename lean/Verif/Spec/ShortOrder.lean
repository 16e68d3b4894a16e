import Verif.Spec.Render
/-!
# The numbers that short forms stand for
-/

namespace Tricorder.Spec
open Go _root_.Spec

/-- `s` stands for the number `v`: it is an integer in decimal, or a decimal numeral and the name of a power of `radix` -/
def FormOf (radix : ℕ) (perSecond : Bool) (s : Str) (v : ℚ) : Prop :=
  (∃ x : ℤ, DenotesInt s x ∧ v = x) ∨
  ∃ (k n : ℕ) (m : ℤ) (num suf : Str), (names radix perSecond)[k]? = some suf ∧ s = num ++ suf ∧ DenotesFix num n m ∧ n ≤ 2 ∧
    v = (m : ℚ) / 10 ^ n * (radix : ℚ) ^ (k + 1)

end Tricorder.Spec
