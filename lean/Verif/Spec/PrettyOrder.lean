import Verif.Spec.Duration
import Mathlib.Data.Nat.Notation
/-!
# The numbers that readable durations stand for
-/

namespace Spec
open Tricorder Go

/-- The forms of a readable duration: the text after each number, and the nanoseconds that one of it stands for.  In the last number of
`1.500s` and `1m 1.500s` one stands for a millisecond. -/
def prettyForms : List (List (Str × ℕ)) :=
  [[(lit "ns", 1)], [([0xCE, 0xBC] ++ lit "s", 1000)], [(lit "ms", 1000000)], [(lit ".", 1000000000), (lit "s", 1000000)],
   [(lit "m ", 60000000000), (lit ".", 1000000000), (lit "s", 1000000)],
   [(lit "h ", 3600000000000), (lit "m ", 60000000000), (lit "s", 1000000000)],
   [(lit "d ", 86400000000000), (lit "h ", 3600000000000), (lit "m ", 60000000000), (lit "s", 1000000000)]]

/-- `s` stands for `v` nanoseconds: it consists of numbers in decimal, each with what follows it in one of the forms -/
def PrettyOf (s : Str) (v : ℕ) : Prop :=
  ∃ L : List (Str × (Str × ℕ)), L.map Prod.snd ∈ prettyForms ∧ (∀ x ∈ L, x.1 ≠ [] ∧ AllDigits x.1) ∧
    s = L.flatMap (fun x => x.1 ++ x.2.1) ∧ v = L.foldr (fun x r => numVal x.1 * x.2.2 + r) 0

end Spec
