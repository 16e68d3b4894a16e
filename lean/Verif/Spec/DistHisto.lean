import Verif.Spec.Dist
/-!
# Specification of the statistics of a histogram

Order statistics, and ranges with their end points included.
-/

namespace Spec
open Tricorder Go

/-- `v` is number `k` of the values when they are put in ascending order, counting from 0 -/
def IsNth {F : Type} [Arith F] (vs : List F) (k : ℕ) (v : F) : Prop :=
  ∃ l : List F, l.Perm vs ∧ l.Pairwise (fun a b => Arith.lt b a = false) ∧ l[k]? = some v

/-- the range of a piece contains the number `v` -/
def Holds (p : Piece ℚ) (v : ℚ) : Prop :=
  (p.first = true ∨ p.start ≤ v) ∧ (p.last = true ∨ v < p.stop)

/-- `x` is in the range of the piece or at its upper end -/
def Covers (p : Piece ℚ) (x : ℚ) : Prop :=
  (p.first = true ∨ p.start ≤ x) ∧ (p.last = true ∨ x ≤ p.stop)

/-- `x` is in the range of the piece, whose ends are float64 numbers, or at its upper end -/
def CoversFl (p : Piece Fl) (x : ℚ) : Prop :=
  (p.first = true ∨ ∀ q, p.start.toQ? = some q → q ≤ x) ∧
  (p.last = true ∨ ∀ q, p.stop.toQ? = some q → x ≤ q)

end Spec
