import Verif.Go.Str
/-!
# Go integers

Machine integers are `Int` values; `i64`, `i32` are the conversions/wrap-around
that Go applies to results of `int64`/`int32` arithmetic (two's complement).
`u64` is the wrap-around of `uint64`.
-/

namespace Go

/-- wrap to `int64` -/
def i64 (x : Int) : Int := (x + 9223372036854775808) % 18446744073709551616 - 9223372036854775808
/-- wrap to `int32` -/
def i32 (x : Int) : Int := (x + 2147483648) % 4294967296 - 2147483648
/-- wrap to `uint64` -/
def u64 (x : Nat) : Nat := x % 18446744073709551616

/-- the value is representable as `int64` -/
def InI64 (x : Int) : Prop := -9223372036854775808 ≤ x ∧ x ≤ 9223372036854775807
/-- the value is representable as `int32` -/
def InI32 (x : Int) : Prop := -2147483648 ≤ x ∧ x ≤ 2147483647

instance (x : Int) : Decidable (InI64 x) := by unfold InI64; infer_instance
instance (x : Int) : Decidable (InI32 x) := by unfold InI32; infer_instance

theorem i64_eq {x : Int} (h : InI64 x) : i64 x = x := by unfold i64; unfold InI64 at h; omega
theorem i32_eq {x : Int} (h : InI32 x) : i32 x = x := by unfold i32; unfold InI32 at h; omega
theorem i64_in (x : Int) : InI64 (i64 x) := by unfold i64 InI64; omega
theorem i32_in (x : Int) : InI32 (i32 x) := by unfold i32 InI32; omega

/-- Go `/` on signed integers truncates toward zero (never applied to a zero divisor here). -/
abbrev quo (a b : Int) : Int := Int.tdiv a b
/-- Go `%` on signed integers: sign of the dividend. -/
abbrev rem (a b : Int) : Int := Int.tmod a b

theorem quo_nonneg {a : Int} (b : Int) (h : 0 ≤ a) : quo a b = a / b :=
  Int.tdiv_eq_ediv_of_nonneg h
theorem rem_nonneg {a : Int} (b : Int) (h : 0 ≤ a) : rem a b = a % b :=
  Int.tmod_eq_emod_of_nonneg h
theorem quo_neg {a : Int} (b : Int) (h : a ≤ 0) : quo a b = -((-a) / b) := by
  have h1 : quo (-(-a)) b = -(quo (-a) b) := Int.neg_tdiv (-a) b
  rw [Int.neg_neg] at h1
  rw [h1, quo_nonneg b (by omega)]
theorem rem_neg {a : Int} (b : Int) (h : a ≤ 0) : rem a b = -((-a) % b) := by
  have h1 : rem (-(-a)) b = -(rem (-a) b) := Int.neg_tmod (-a) b
  rw [Int.neg_neg] at h1
  rw [h1, rem_nonneg b (by omega)]

/-! ## Decimal formatting: `strconv.FormatInt/FormatUint(x, 10)` and `%d`, `%09d`, `%03d` -/

/-- the ASCII byte of a digit `0..9` -/
def digitByte (d : Nat) : UInt8 := UInt8.ofNat (48 + d)

def digitsAux : Nat → Nat → Str
  | 0, _ => []
  | f + 1, n => if n < 10 then [digitByte n] else digitsAux f (n / 10) ++ [digitByte (n % 10)]

/-- `strconv.FormatUint(n, 10)`; `%d` of a non-negative integer. -/
def fmtNat (n : Nat) : Str := digitsAux (n + 1) n

/-- `strconv.FormatInt(x, 10)`; `%d`. -/
def fmtInt (x : Int) : Str :=
  if x < 0 then 45 :: fmtNat x.natAbs else fmtNat x.natAbs

/-- pad with zeros on the left to width `w` -/
def zeroPad (w : Nat) (s : Str) : Str := List.replicate (w - s.length) 48 ++ s

/-- `fmt.Sprintf("%0<w>d", x)`: zero padding goes between sign and digits and the sign
counts for the width. -/
def fmtIntPad (w : Nat) (x : Int) : Str :=
  if x < 0 then 45 :: zeroPad (w - 1) (fmtNat x.natAbs) else zeroPad w (fmtNat x.natAbs)

/-! ## Decimal parsing: `strconv.ParseUint(s, 10, bits)`, `strconv.ParseInt(s, 10, 64)` -/

/-- digit loop of `ParseUint` base 10 without the range check: `none` on a non-digit -/
def parseDigits : Nat → Str → Option Nat
  | acc, [] => some acc
  | acc, c :: cs => if isDigit c then parseDigits (acc * 10 + (c.toNat - 48)) cs else none

/-- `strconv.ParseUint(s, 10, bits)`: error (`none`) on the empty string, a non-digit, or a value
`≥ 2^bits`.  (Go checks the range while reading, so for a string with both defects only the kind
of error differs.) -/
def parseUint (bits : Nat) (s : Str) : Option Nat :=
  if s = [] then none
  else match parseDigits 0 s with
    | none => none
    | some n => if n < 2 ^ bits then some n else none

/-- `strconv.ParseInt(s, 10, 64)`: optional `+`/`-`, then `ParseUint(s, 10, 64)`, then range check. -/
def parseInt64 (s : Str) : Option Int :=
  match s with
  | [] => none
  | c :: cs =>
    let neg : Bool := c = 45
    let body := if c = 43 ∨ c = 45 then cs else s
    match parseUint 64 body with
    | none => none
    | some un =>
      if !neg && decide (un ≥ 9223372036854775808) then none
      else if neg && decide (un > 9223372036854775808) then none
      else some (if neg then -(un : Int) else (un : Int))

end Go
