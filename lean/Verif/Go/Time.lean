import Verif.Go.Num
/-!
# Instants

A Go `time.Time` is modelled by the instant it denotes: Unix seconds (an `int64`) and the
nanosecond within the second.  Location and monotonic reading are not modelled; equality of
instants is what `Time.Equal` decides.
-/

namespace Go

structure Time where
  /-- `t.Unix()` -/
  sec : Int
  /-- `t.Nanosecond()`, in `[0, 10^9)` -/
  nsec : Int
deriving DecidableEq, Repr

/-- representable instants -/
def Time.Valid (t : Time) : Prop := InI64 t.sec ∧ 0 ≤ t.nsec ∧ t.nsec < 1000000000

instance (t : Time) : Decidable t.Valid := by unfold Time.Valid; infer_instance

/-- the zero `time.Time{}`: January 1, year 1 UTC -/
def Time.zero : Time := ⟨-62135596800, 0⟩

/-- `t.IsZero()` -/
def Time.isZero (t : Time) : Bool := decide (t = Time.zero)

/-- `time.Unix(sec, nsec)`: normalises `nsec` into `[0, 10^9)` (Go standard library, `time.Unix`). -/
def Time.unix (sec nsec : Int) : Time :=
  if nsec < 0 ∨ nsec ≥ 1000000000 then
    let n := quo nsec 1000000000
    let sec := i64 (sec + n)
    let nsec := nsec - n * 1000000000
    if nsec < 0 then ⟨i64 (sec - 1), nsec + 1000000000⟩ else ⟨sec, nsec⟩
  else ⟨sec, nsec⟩

end Go
