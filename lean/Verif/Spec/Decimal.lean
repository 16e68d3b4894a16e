import Verif.Go.Num
/-!
# Specification: decimal numerals

Independent of the formatting and parsing code.
-/

namespace Spec
open Go

/-- value of a sequence of decimal digits, most significant first -/
def numVal (ds : Str) : Nat := ds.foldl (fun a d => 10 * a + (d.toNat - 48)) 0

/-- all bytes are ASCII digits `'0'..'9'` -/
def AllDigits (ds : Str) : Prop := ∀ d ∈ ds, 48 ≤ d.toNat ∧ d.toNat ≤ 57

/-- no superfluous leading zero: `"0"` or first digit non-zero -/
def NoLeadingZero (ds : Str) : Prop := ds = [48] ∨ ∃ d r, ds = d :: r ∧ d ≠ 48

/-- `s` is the canonical numeral `w.fffffffff` or `-w.fffffffff` with exactly nine decimals that
denotes `v * 10⁻⁹`; the minus sign is there exactly for negative `v`. -/
def Denotes9 (s : Str) (v : Int) : Prop :=
  ∃ ws fs : Str, AllDigits ws ∧ NoLeadingZero ws ∧ AllDigits fs ∧ fs.length = 9 ∧
    v.natAbs = numVal ws * 1000000000 + numVal fs ∧
    s = (if v < 0 then [45] else []) ++ ws ++ [46] ++ fs

/-- `s` is the canonical decimal numeral of the integer `x` -/
def DenotesInt (s : Str) (x : Int) : Prop :=
  ∃ ws : Str, AllDigits ws ∧ NoLeadingZero ws ∧ x.natAbs = numVal ws ∧
    s = (if x < 0 then [45] else []) ++ ws

end Spec
