import Mathlib.Data.Rat.Floor
/-!
# IEEE-754 binary floating point

An executable model of Go's `float64` and `float32`: round to nearest, ties to even, with
subnormal numbers, overflow to infinity, signed zero and one NaN (Go code cannot tell NaNs apart
by arithmetic or comparison).

A number is represented by its exact rational value.  `Fl` does not itself enforce that the value
is representable; `Fl.Rep fmt` is that predicate, every operation produces representable results.
-/

namespace Go

inductive Fl where
  | nan
  | inf (neg : Bool)
  | negZero
  | fin (q : ℚ)
deriving DecidableEq, Repr

/-- a binary interchange format: precision, exponent of the least subnormal, and the exponent of
the first power of two that overflows -/
structure Fmt where
  prec : ℕ
  emin : ℤ
  emax : ℤ

/-- IEEE binary64 -/
def b64 : Fmt := ⟨53, -1074, 1024⟩
/-- IEEE binary32 -/
def b32 : Fmt := ⟨24, -149, 128⟩

/-- `2^e` -/
def p2 : ℤ → ℚ
  | .ofNat n => ((2 ^ n : ℕ) : ℚ)
  | .negSucc n => 1 / ((2 ^ (n + 1) : ℕ) : ℚ)

/-- the greatest `e` with `2^e ≤ q`, for positive `q` -/
def ilog2 (q : ℚ) : ℤ :=
  let e : ℤ := (Nat.log2 q.num.natAbs : ℤ) - (Nat.log2 q.den : ℤ)
  if p2 e ≤ q then e else e - 1

/-- round to the nearest integer, ties to even -/
def rne (x : ℚ) : ℤ :=
  let f := ⌊x⌋
  let r := x - f
  if r < 1/2 then f
  else if 1/2 < r then f + 1
  else if f % 2 = 0 then f else f + 1

/-- exponent of the unit in the last place used for a number of magnitude `a > 0` -/
def Fmt.ulpExp (fmt : Fmt) (a : ℚ) : ℤ := max (ilog2 a - (fmt.prec - 1)) fmt.emin

/-- the nearest multiple of the unit in the last place of `a > 0` (unbounded exponent above) -/
def Fmt.rndAbs (fmt : Fmt) (a : ℚ) : ℚ :=
  (rne (a / p2 (fmt.ulpExp a)) : ℚ) * p2 (fmt.ulpExp a)

/-- rounding of an exact real result -/
def rnd (fmt : Fmt) (q : ℚ) : Fl :=
  if q = 0 then .fin 0
  else
    let v := fmt.rndAbs |q|
    if p2 fmt.emax ≤ v then .inf (decide (q < 0))
    else if v = 0 then (if q < 0 then .negZero else .fin 0)
    else .fin (if q < 0 then -v else v)

/-- finite value -/
def Fl.toQ? : Fl → Option ℚ
  | .nan | .inf _ => none
  | .negZero => some 0
  | .fin q => some q

/-- the sign bit (`false` for NaN) -/
def Fl.sign : Fl → Bool
  | .nan => false
  | .inf n => n
  | .negZero => true
  | .fin q => decide (q < 0)

/-- a zero with a given sign -/
def Fl.zero (neg : Bool) : Fl := if neg then .negZero else .fin 0

/-- Go unary minus -/
def Fl.neg : Fl → Fl
  | .nan => .nan
  | .inf n => .inf (!n)
  | .negZero => .fin 0
  | .fin q => if q = 0 then .negZero else .fin (-q)

/-- Go `x + y` -/
def Fl.add (fmt : Fmt) : Fl → Fl → Fl
  | .nan, _ => .nan
  | _, .nan => .nan
  | .inf a, .inf b => if a = b then .inf a else .nan
  | .inf a, _ => .inf a
  | _, .inf b => .inf b
  | .negZero, .negZero => .negZero
  | .negZero, .fin q => .fin q
  | .fin q, .negZero => .fin q
  | .fin a, .fin b => rnd fmt (a + b)

/-- Go `x - y` -/
def Fl.sub (fmt : Fmt) (x y : Fl) : Fl := Fl.add fmt x y.neg

/-- Go `x * y` -/
def Fl.mul (fmt : Fmt) (x y : Fl) : Fl :=
  match x.toQ?, y.toQ? with
  | some a, some b => if a * b = 0 then Fl.zero (x.sign != y.sign) else rnd fmt (a * b)
  | some a, none => if y = .nan then .nan else if a = 0 then .nan else .inf (x.sign != y.sign)
  | none, some b => if x = .nan then .nan else if b = 0 then .nan else .inf (x.sign != y.sign)
  | none, none => if x = .nan then .nan else if y = .nan then .nan else .inf (x.sign != y.sign)

/-- Go `x / y` -/
def Fl.div (fmt : Fmt) (x y : Fl) : Fl :=
  match x.toQ?, y.toQ? with
  | some a, some b =>
    if b = 0 then (if a = 0 then .nan else .inf (x.sign != y.sign))
    else if a = 0 then Fl.zero (x.sign != y.sign) else rnd fmt (a / b)
  | some _, none => if y = .nan then .nan else Fl.zero (x.sign != y.sign)
  | none, some _ => if x = .nan then .nan else .inf (x.sign != y.sign)
  | none, none => .nan

/-- Go `x < y` -/
def Fl.lt : Fl → Fl → Bool
  | .nan, _ => false
  | _, .nan => false
  | .inf a, .inf b => a && !b
  | .inf a, _ => a
  | _, .inf b => !b
  | .negZero, .negZero => false
  | .negZero, .fin q => decide (0 < q)
  | .fin q, .negZero => decide (q < 0)
  | .fin a, .fin b => decide (a < b)

/-- Go `x == y` -/
def Fl.eq : Fl → Fl → Bool
  | .nan, _ => false
  | _, .nan => false
  | .inf a, .inf b => a == b
  | .inf _, _ => false
  | _, .inf _ => false
  | .negZero, .negZero => true
  | .negZero, .fin q => decide (q = 0)
  | .fin q, .negZero => decide (q = 0)
  | .fin a, .fin b => decide (a = b)

/-- Go `x <= y` -/
def Fl.le (x y : Fl) : Bool := Fl.lt x y || Fl.eq x y

/-- `math.IsNaN` -/
def Fl.isNaN (x : Fl) : Bool := decide (x = .nan)
/-- `math.IsInf(x, 0)` -/
def Fl.isInf : Fl → Bool
  | .inf _ => true
  | _ => false

/-- conversion of an integer to a floating point type -/
def Fl.ofInt (fmt : Fmt) (x : ℤ) : Fl := rnd fmt (x : ℚ)

/-- conversion between floating point types -/
def Fl.conv (fmt : Fmt) : Fl → Fl
  | .nan => .nan
  | .inf n => .inf n
  | .negZero => .negZero
  | .fin q => rnd fmt q

/-- truncation toward zero of a finite value; `none` for NaN and infinities.  Go leaves the
conversion to an integer type that cannot represent the result to the implementation; users of
this function say what they assume. -/
def Fl.trunc (x : Fl) : Option ℤ :=
  match x.toQ? with
  | none => none
  | some q => some (if q < 0 then -⌊-q⌋ else ⌊q⌋)

/-- `math.Min` (Go standard library): `-Inf` wins, then NaN, then the smaller, `-0 < +0` -/
def Fl.min (x y : Fl) : Fl :=
  if x = .inf true ∨ y = .inf true then .inf true
  else if x = .nan ∨ y = .nan then .nan
  else if (x.toQ? = some 0) ∧ Fl.eq x y then (if x.sign then x else y)
  else if Fl.lt x y then x else y

/-- `math.Max` (Go standard library): `+Inf` wins, then NaN, then the greater, `+0 > -0` -/
def Fl.max (x y : Fl) : Fl :=
  if x = .inf false ∨ y = .inf false then .inf false
  else if x = .nan ∨ y = .nan then .nan
  else if (x.toQ? = some 0) ∧ Fl.eq x y then (if x.sign then y else x)
  else if Fl.lt y x then x else y

/-- the value is one of the format (or a special value) -/
def Fl.Rep (fmt : Fmt) (x : Fl) : Prop :=
  match x with
  | .fin q => rnd fmt q = .fin q
  | _ => True

instance (fmt : Fmt) (x : Fl) : Decidable (x.Rep fmt) := by
  unfold Fl.Rep; cases x <;> infer_instance

end Go
