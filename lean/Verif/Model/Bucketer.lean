import Verif.Model.Arith
/-!
# Bucketers

Models `/repo/go/tricorder/metric.go:204-299` and `/repo/go/tricorder/api.go:149-200`.
-/

namespace Tricorder
open Go Arith

variable {F : Type} [Arith F]

/-- `bucketPiece`, `/repo/go/tricorder/metric.go:205-214` -/
structure Piece (F : Type) where
  start : F
  stop : F
  first : Bool
  last : Bool
deriving DecidableEq, Repr

/-- outcome of a constructor: a value, a panic, or no result within the given number of loop iterations; for
`/repo/go/tricorder/metric.go:216-299` -/
inductive Res (α : Type) where
  | ok (a : α)
  | panic
  | timeout
deriving DecidableEq, Repr

/-- the loop of `newExponentialBucketerStream`, `/repo/go/tricorder/metric.go:223-226`:
`n` values starting with `current` -/
def expLoop (scale : F) : ℕ → F → List F
  | 0, _ => []
  | n + 1, current => current :: expLoop scale n (mul current scale)

/-- `newExponentialBucketerStream`, `/repo/go/tricorder/metric.go:216-228` -/
def expStream (count : ℤ) (start scale : F) : Res (List F) :=
  if count < 2 || le start (lit 0) || le scale (lit 1) then .panic
  else .ok (expLoop scale (count - 1).toNat start)

/-- the loop of `newLinearBucketerStream`, `/repo/go/tricorder/metric.go:237-240` -/
def linLoop (increment : F) : ℕ → F → List F
  | 0, _ => []
  | n + 1, current => current :: linLoop increment n (add current increment)

/-- `newLinearBucketerStream`, `/repo/go/tricorder/metric.go:230-242` -/
def linStream (count : ℤ) (start increment : F) : Res (List F) :=
  if count < 2 || le increment (lit 0) then .panic
  else .ok (linLoop increment (count - 1).toNat start)

/-- `coefficientsForGeometricBucketer`, `/repo/go/tricorder/metric.go:244-246` -/
def coef : ℕ → F
  | 0 => lit 1
  | 1 => lit 2
  | _ => lit 5

/-- first loop of `findGeometricBaseAndOffset`, `/repo/go/tricorder/metric.go:250-253`;
`none` when the fuel is used up -/
def geoUp : ℕ → F → F → Option (F × F)
  | 0, _, _ => none
  | n + 1, x, base =>
    if le (lit 10) x then geoUp n (div x (lit 10)) (mul base (lit 10)) else some (x, base)

/-- second loop, `/repo/go/tricorder/metric.go:254-257` -/
def geoDown : ℕ → F → F → Option (F × F)
  | 0, _, _ => none
  | n + 1, x, base =>
    if lt x (lit 1) then geoDown n (mul x (lit 10)) (div base (lit 10)) else some (x, base)

/-- third loop, `/repo/go/tricorder/metric.go:258-264`, unrolled -/
def geoPick (x base : F) : F × ℕ :=
  if le (coef 2) x then (base, 2)
  else if le (coef 1) x then (base, 1)
  else if le (coef 0) x then (base, 0)
  else (div base (lit 10), 2)

/-- `findGeometricBaseAndOffset`, `/repo/go/tricorder/metric.go:248-265`; each loop may use `fuel`
iterations -/
def findGeo (fuel : ℕ) (x : F) : Option (F × ℕ) :=
  match geoUp fuel x (lit 1) with
  | none => none
  | some (x, base) => match geoDown fuel x base with
    | none => none
    | some (x, base) => some (geoPick x base)

/-- the emitting loop of `newGeometricBucketerStream`, `/repo/go/tricorder/metric.go:273-283`.
`emitValue` is always `base * coef offset`. -/
def geoEmit (upper : F) : ℕ → F → ℕ → Option (List F)
  | 0, _, _ => none
  | n + 1, base, offset =>
    let v := mul base (coef offset)
    if lt v upper then
      let next := if offset + 1 = 3 then geoEmit upper n (mul base (lit 10)) 0
        else geoEmit upper n base (offset + 1)
      match next with
      | none => none
      | some l => some (v :: l)
    else some [v]

/-- `newGeometricBucketerStream`, `/repo/go/tricorder/metric.go:267-285` -/
def geoStream (fuel : ℕ) (lower upper : F) : Res (List F) :=
  if le lower (lit 0) || lt upper lower then .panic
  else match findGeo fuel lower with
    | none => .timeout
    | some (base, offset) => match geoEmit upper fuel base offset with
      | none => .timeout
      | some l => .ok l

/-- the loop of `newBucketerFromEndpoints`, `/repo/go/tricorder/metric.go:291-297`, including the
final piece -/
def pieceLoop : F → List F → List (Piece F)
  | lower, [] => [⟨lower, lit 0, false, true⟩]
  | lower, upper :: rest => ⟨lower, upper, false, false⟩ :: pieceLoop upper rest

/-- `newBucketerFromEndpoints`, `/repo/go/tricorder/metric.go:287-299`; indexing an empty slice
panics -/
def fromEndpoints : List F → Res (List (Piece F))
  | [] => .panic
  | lower :: rest => .ok (⟨lit 0, lower, true, false⟩ :: pieceLoop lower rest)

/-- notation of the model: one constructor after another, a panic ends both (`/repo/go/tricorder/api.go:168-200`) -/
def Res.bind {α β : Type} : Res α → (α → Res β) → Res β
  | .ok a, f => f a
  | .panic, _ => .panic
  | .timeout, _ => .timeout

/-- `NewExponentialBucketer`, `/repo/go/tricorder/api.go:168-171` -/
def newExponentialBucketer (count : ℤ) (start scale : F) : Res (List (Piece F)) :=
  (expStream count start scale).bind fromEndpoints
/-- `NewLinearBucketer`, `/repo/go/tricorder/api.go:177-180` -/
def newLinearBucketer (count : ℤ) (start increment : F) : Res (List (Piece F)) :=
  (linStream count start increment).bind fromEndpoints
/-- `NewArbitraryBucketer`, `/repo/go/tricorder/api.go:188-190` -/
def newArbitraryBucketer (endpoints : List F) : Res (List (Piece F)) := fromEndpoints endpoints
/-- `NewGeometricBucketer`, `/repo/go/tricorder/api.go:197-200` -/
def newGeometricBucketer (fuel : ℕ) (lower upper : F) : Res (List (Piece F)) :=
  (geoStream fuel lower upper).bind fromEndpoints

end Tricorder
