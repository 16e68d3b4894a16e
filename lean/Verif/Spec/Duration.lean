import Verif.Model.Duration
import Verif.Spec.Decimal
/-!
# Specification of durations

A `Dur` denotes the integer number of nanoseconds `sec * 10^9 + nsec`.
-/

namespace Spec
open Tricorder Go

/-- total nanoseconds denoted by a duration -/
def ns (d : Dur) : Int := d.sec * 1000000000 + d.nsec

/-- seconds and nanoseconds never have opposite signs and the nanoseconds are below one billion -/
def Coherent (d : Dur) : Prop :=
  -1000000000 < d.nsec ∧ d.nsec < 1000000000 ∧
  (0 < d.sec → 0 ≤ d.nsec) ∧ (d.sec < 0 → d.nsec ≤ 0)

instance (d : Dur) : Decidable (Coherent d) := by unfold Coherent; infer_instance

/-- how many of this unit make a second, for units of time; every other unit is treated by the
package as seconds -/
def perSecond : MUnit → Int
  | .millisecond => 1000
  | _ => 1

/-- nanoseconds since the Unix epoch of an instant -/
def instantNs (t : Time) : Int := t.sec * 1000000000 + t.nsec

/-- The language of plain decimal numbers: optional minus sign, digits (value below 2^63),
optionally a point and any number of digits.  `v` is the value in units of 10⁻⁹ truncated toward
zero. -/
def PlainDecimal (s : Str) (v : Int) : Prop :=
  ∃ (neg : Bool) (ws fs : Str), ws ≠ [] ∧ AllDigits ws ∧ AllDigits fs ∧
    numVal ws < 9223372036854775808 ∧
    (s = (if neg then [45] else []) ++ ws ++ [46] ++ fs ∨
      fs = [] ∧ s = (if neg then [45] else []) ++ ws) ∧
    v = (if neg then -1 else 1) *
      ((numVal ws * 1000000000 + numVal (fs ++ List.replicate 9 48) / 10 ^ fs.length : Nat) : Int)

end Spec

namespace Spec
open Tricorder Go

/-- `a` is exactly three digits with value `k` -/
def Digits3 (a : Str) (k : Nat) : Prop := AllDigits a ∧ a.length = 3 ∧ numVal a = k

/-- `s` is a human readable form of `n` nanoseconds: its fields denote `n` truncated to the
precision of the last field, sexagesimal fields are in range, and the unit is the one prescribed
for the magnitude of `n`. -/
def Pretty (n : Nat) (s : Str) : Prop :=
  (n < 10000 ∧ ∃ a, DenotesInt a n ∧ s = a ++ lit "ns") ∨
  (10000 ≤ n ∧ n < 10000000 ∧ ∃ (us : Nat) (a : Str), us * 1000 ≤ n ∧ n < (us + 1) * 1000 ∧
    DenotesInt a us ∧ s = a ++ [0xCE, 0xBC] ++ lit "s") ∨
  (10000000 ≤ n ∧ n < 1000000000 ∧ ∃ (ms : Nat) (a : Str), ms * 1000000 ≤ n ∧
    n < (ms + 1) * 1000000 ∧ DenotesInt a ms ∧ s = a ++ lit "ms") ∨
  (1000000000 ≤ n ∧ n < 60000000000 ∧ ∃ (sec ms : Nat) (a b : Str),
    (sec * 1000 + ms) * 1000000 ≤ n ∧ n < (sec * 1000 + ms + 1) * 1000000 ∧ ms < 1000 ∧
    DenotesInt a sec ∧ Digits3 b ms ∧ s = a ++ lit "." ++ b ++ lit "s") ∨
  (60000000000 ≤ n ∧ n < 3600000000000 ∧ ∃ (min sec ms : Nat) (a b c : Str),
    ((min * 60 + sec) * 1000 + ms) * 1000000 ≤ n ∧
    n < ((min * 60 + sec) * 1000 + ms + 1) * 1000000 ∧ sec < 60 ∧ ms < 1000 ∧
    DenotesInt a min ∧ DenotesInt b sec ∧ Digits3 c ms ∧
    s = a ++ lit "m " ++ b ++ lit "." ++ c ++ lit "s") ∨
  (3600000000000 ≤ n ∧ n < 86400000000000 ∧ ∃ (h min sec : Nat) (a b c : Str),
    ((h * 60 + min) * 60 + sec) * 1000000000 ≤ n ∧
    n < ((h * 60 + min) * 60 + sec + 1) * 1000000000 ∧ min < 60 ∧ sec < 60 ∧
    DenotesInt a h ∧ DenotesInt b min ∧ DenotesInt c sec ∧
    s = a ++ lit "h " ++ b ++ lit "m " ++ c ++ lit "s") ∨
  (86400000000000 ≤ n ∧ ∃ (dd h min sec : Nat) (z a b c : Str),
    (((dd * 24 + h) * 60 + min) * 60 + sec) * 1000000000 ≤ n ∧
    n < (((dd * 24 + h) * 60 + min) * 60 + sec + 1) * 1000000000 ∧
    h < 24 ∧ min < 60 ∧ sec < 60 ∧
    DenotesInt z dd ∧ DenotesInt a h ∧ DenotesInt b min ∧ DenotesInt c sec ∧
    s = z ++ lit "d " ++ a ++ lit "h " ++ b ++ lit "m " ++ c ++ lit "s")

/-- What the parser really accepts (value in units of 10⁻⁹): an optional minus sign; then an
optional plus sign, or, after a minus sign, a second minus sign if the integer part is zero;
digits; then nothing, or a point and a rest of which only the first nine bytes need to be digits. -/
def LaxDecimal (s : Str) (v : Int) : Prop :=
  ∃ (neg : Bool) (inner ws tail fs : Str), ws ≠ [] ∧ AllDigits ws ∧
    numVal ws < 9223372036854775808 ∧
    (inner = [] ∨ inner = [43] ∨ neg = true ∧ inner = [45] ∧ numVal ws = 0) ∧
    (tail = [] ∧ fs = [] ∨ tail = 46 :: fs ∧ AllDigits (fs.take 9)) ∧
    s = (if neg then [45] else []) ++ inner ++ ws ++ tail ∧
    v = (if neg then -1 else 1) *
      ((numVal ws * 1000000000 + numVal ((fs ++ List.replicate 9 48).take 9) : Nat) : Int)

end Spec
