import Verif.Spec.Decimal
import Verif.Model.Units
import Verif.Spec.Lists
import Mathlib.Algebra.Order.Ring.Rat
/-!
# What renderings of numbers should look like
-/

namespace Tricorder.Spec
open Go _root_.Spec

/-- `s` is `digits` cut into groups of `between` digits from the right, with separators between the groups; the
first group has between one and `between` digits -/
def Grouped (sep : UInt8) (between : ℕ) (digits s : Str) : Prop :=
  ∃ first rest, digits = first ++ List.flatten rest ∧ s = joinByte sep (first :: rest) ∧
    1 ≤ first.length ∧ first.length ≤ between ∧ ∀ g ∈ rest, g.length = between

/-- `s` is the decimal numeral of `m / 10^n` with `n` decimals -/
def DenotesFix (s : Str) (n : ℕ) (m : ℤ) : Prop :=
  ∃ ws fs : Str, AllDigits ws ∧ NoLeadingZero ws ∧ AllDigits fs ∧ fs.length = n ∧
    m.natAbs = numVal ws * 10 ^ n + numVal fs ∧
    s = (if m < 0 then [45] else []) ++ ws ++ (if n = 0 then [] else 46 :: fs)

/-- What the names stand for: the name at position `k` stands for `radix^(k+1)`. -/
def names (radix : ℕ) (perSecond : Bool) : List Str :=
  if radix = 1000 then
    [lit " thousand", lit " million", lit " billion", lit " trillion", lit "K trillion", lit "M trillion"]
  else if perSecond then [lit " KiB/s", lit " MiB/s", lit " GiB/s", lit " TiB/s", lit " PiB/s", lit " EiB/s"]
  else [lit " KiB", lit " MiB", lit " GiB", lit " TiB", lit " PiB", lit " EiB"]

/-- `s` shows `x` in a short form: exactly if it is smaller than `radix`, otherwise as a numeral `m / 10^n` and the
name of a power of `radix`.  The numeral has three significant digits, or it has no decimals and is at least 100
and at most `radix`.  It differs from the exact quotient by at most half a unit of its last digit and the error of
the floating point computation. -/
def Compact (s : Str) (x : ℤ) (radix : ℕ) (perSecond : Bool) : Prop :=
  (|x| < radix ∧ DenotesInt s x) ∨
  ((radix : ℤ) ≤ |x| ∧ ∃ (k n : ℕ) (m : ℤ) (num suf : Str), (names radix perSecond)[k]? = some suf ∧ s = num ++ suf ∧
    DenotesFix num n m ∧ n ≤ 2 ∧ 100 ≤ |m| ∧ (n ≠ 0 → |m| ≤ 999) ∧ (n = 0 → |m| ≤ radix) ∧
    |(m : ℚ) / 10 ^ n - x / (radix : ℚ) ^ (k + 1)| ≤
      1 / (2 * 10 ^ n) + |(x : ℚ)| / (radix : ℚ) ^ (k + 1) / 2 ^ 48)

/-- the value read is the integer `x` and its metric type is `t` -/
def IsIntVal (d : Dyn) (t : Ty) (x : ℤ) : Prop :=
  (∃ n k, d = .scalar n (.int k x) ∧ k.InRange x ∧ elemType (.scalar ⟨n, .int k⟩) = some t) ∨
  (∃ n, d = .scalar (some n) (.duration x) ∧ InI64 x ∧ elemType (.scalar ⟨some n, .duration⟩) = some t)

/-- bytes are counted in powers of 1024, everything else in powers of 1000 -/
def radixFor (u : MUnit) : ℕ := if u = .byte ∨ u = .bytePerSecond then 1024 else 1000

end Tricorder.Spec
