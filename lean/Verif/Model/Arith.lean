import Verif.Go.Float
/-!
# Arithmetic used by distributions

The distribution and bucketer code is written once over an abstract arithmetic and used at two
instances: `Fl` with IEEE binary64 operations, which is what the Go code computes, and exact
rationals, which is what it approximates.
-/

namespace Tricorder
open Go

/-- the operations on `float64` in `/repo/go/tricorder/metric.go:216-593` -/
class Arith (F : Type) where
  /-- a small integer constant of the source text (exactly representable) -/
  lit : ℤ → F
  add : F → F → F
  sub : F → F → F
  mul : F → F → F
  div : F → F → F
  /-- `<` -/
  lt : F → F → Bool
  /-- `<=` -/
  le : F → F → Bool
  /-- conversion `float64(n)` of a `uint64` -/
  ofNat : ℕ → F
  /-- `math.Min` -/
  fmin : F → F → F
  /-- `math.Max` -/
  fmax : F → F → F

/-- what the code of `/repo/go/tricorder/metric.go:216-593` computes with -/
instance : Arith Fl where
  lit n := .fin n
  add := Fl.add b64
  sub := Fl.sub b64
  mul := Fl.mul b64
  div := Fl.div b64
  lt := Fl.lt
  le := Fl.le
  ofNat n := Fl.ofInt b64 n
  fmin := Fl.min
  fmax := Fl.max

/-- exact arithmetic, for comparison with `/repo/go/tricorder/metric.go:216-593` -/
instance : Arith ℚ where
  lit n := n
  add := (· + ·)
  sub := (· - ·)
  mul := (· * ·)
  div := (· / ·)
  lt a b := decide (a < b)
  le a b := decide (a ≤ b)
  ofNat n := n
  fmin := min
  fmax := max

end Tricorder
