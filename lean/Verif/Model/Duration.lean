import Verif.Go.Time
import Verif.Model.Units
/-!
# Package `duration`

Models `/repo/go/tricorder/duration/duration.go` and the non floating point part of
`/repo/go/tricorder/duration/api.go`.  A `time.Duration` is its `int64` number of nanoseconds.
-/

namespace Tricorder
open Go

/-- `duration.Duration`, `/repo/go/tricorder/duration/api.go:12-15` (`int64` and `int32` fields). -/
structure Dur where
  sec : Int
  nsec : Int
deriving DecidableEq, Repr

namespace Dur

/-- the fields fit their Go types; `/repo/go/tricorder/duration/api.go` -/
def Typed (d : Dur) : Prop := InI64 d.sec ∧ InI32 d.nsec

instance (d : Dur) : Decidable d.Typed := by unfold Typed; infer_instance

/-- `newDuration`, `/repo/go/tricorder/duration/duration.go:17-21`. -/
def new (d : Int) : Dur :=
  ⟨i64 (quo d 1000000000), i32 (quo (rem d 1000000000) 1)⟩

/-- `sinceEpoch`, `/repo/go/tricorder/duration/duration.go:24-32`. -/
def sinceEpoch (t : Time) : Dur :=
  let s := t.sec
  let n := i32 t.nsec
  if s < 0 ∧ n > 0 then ⟨i64 (s + 1), i32 (n - 1000000000)⟩ else ⟨s, n⟩

/-- `asGoDuration`, `/repo/go/tricorder/duration/duration.go:41-43`. -/
def asGoDuration (d : Dur) : Int :=
  i64 (i64 (1000000000 * d.sec) + i64 (d.nsec * 1))

/-- `asGoTime`, `/repo/go/tricorder/duration/duration.go:45-47`. -/
def asGoTime (d : Dur) : Time := Time.unix d.sec d.nsec

/-- `isNegative`, `/repo/go/tricorder/duration/duration.go:61-63`. -/
def isNegative (d : Dur) : Bool := decide (d.nsec < 0) || decide (d.sec < 0)

/-- `mult`, `/repo/go/tricorder/duration/duration.go:101-108`. -/
def mult (d : Dur) (scalar : Int) : Dur :=
  let fracprod := i64 (d.nsec * scalar)
  let wholeprod := i64 (i64 (d.sec * scalar) + quo fracprod 1000000000)
  let fracprod := rem fracprod 1000000000
  ⟨wholeprod, i32 fracprod⟩

/-- `div`, `/repo/go/tricorder/duration/duration.go:110-117`.  Go panics for `scalar == 0`;
`convert` never passes zero. -/
def div (d : Dur) (scalar : Int) : Dur :=
  let wholequot := i64 (quo d.sec scalar)
  let wholerem := rem d.sec scalar
  let fracquot := i64 (quo (i64 (d.nsec + i64 (wholerem * 1000000000))) scalar)
  ⟨wholequot, i32 fracquot⟩

/-- `toString`, `/repo/go/tricorder/duration/duration.go:49-55`. -/
def toString (d : Dur) : Str :=
  if d.isNegative then
    let posd := d.mult (-1)
    45 :: (fmtInt posd.sec ++ 46 :: fmtIntPad 9 posd.nsec)
  else fmtInt d.sec ++ 46 :: fmtIntPad 9 d.nsec

/-- `convert`, `/repo/go/tricorder/duration/duration.go:119-125`. -/
def convert (d : Dur) (frm to : MUnit) : Dur :=
  let (fromNum, fromDen) := fromSecondsRational frm
  let (toNum, toDen) := fromSecondsRational to
  let num := i64 (toNum * fromDen)
  let den := i64 (toDen * fromNum)
  (d.mult num).div den

/-- `StringUsingUnits`, `/repo/go/tricorder/duration/api.go:65-67`. -/
def stringUsingUnits (d : Dur) (unit : MUnit) : Str := (d.convert .second unit).toString

/-- `prettyFormat`, `/repo/go/tricorder/duration/duration.go:65-99`; `none` is the panic.
`μ` is the two UTF-8 bytes `CE BC`. -/
def prettyFormat (d : Dur) : Option Str :=
  if d.isNegative then none
  else if d.sec = 0 ∧ d.nsec < 10000 then
    some (fmtInt d.nsec ++ lit "ns")
  else if d.sec = 0 ∧ d.nsec < 10000000 then
    some (fmtInt (quo d.nsec 1000) ++ ([0xCE, 0xBC] ++ lit "s"))
  else if d.sec = 0 then
    some (fmtInt (quo d.nsec 1000000) ++ lit "ms")
  else if d.sec < 60 then
    some (fmtInt d.sec ++ lit "." ++ fmtIntPad 3 (quo d.nsec 1000000) ++ lit "s")
  else if d.sec < 60 * 60 then
    some (fmtInt (quo d.sec 60) ++ lit "m " ++ fmtInt (rem d.sec 60) ++ lit "." ++
      fmtIntPad 3 (quo d.nsec 1000000) ++ lit "s")
  else if d.sec < 24 * 60 * 60 then
    some (fmtInt (quo d.sec (60 * 60)) ++ lit "h " ++
      fmtInt (quo (rem d.sec (60 * 60)) 60) ++ lit "m " ++ fmtInt (rem d.sec 60) ++ lit "s")
  else
    some (fmtInt (quo d.sec (24 * 60 * 60)) ++ lit "d " ++
      fmtInt (quo (rem d.sec (24 * 60 * 60)) (60 * 60)) ++ lit "h " ++
      fmtInt (quo (rem d.sec (60 * 60)) 60) ++ lit "m " ++ fmtInt (rem d.sec 60) ++ lit "s")

/-- leading minus sign, `/repo/go/tricorder/duration/duration.go:128-132` -/
def cutMinus (str : Str) : Bool × Str :=
  match cutByte 45 str with
  | some rest => (true, rest)
  | none => (false, str)

/-- the part after the point, `/repo/go/tricorder/duration/duration.go:142-154` -/
def parseFrac : Option Str → Option Nat
  | none => some 0
  | some fracStr =>
    let fracStr :=
      if fracStr.length < 9 then fracStr ++ List.replicate (9 - fracStr.length) 48
      else fracStr.take 9
    parseUint 32 fracStr

/-- `parse`, `/repo/go/tricorder/duration/duration.go:127-167`; `none` is a non-nil error (the
error text is not modelled).  The test `frac > 999999999` (line 155) is kept although nine digits
cannot exceed it. -/
def parse (str : Str) : Option Dur :=
  let (bNegative, str) := cutMinus str
  let (number0, number1) := splitN2 46 str
  match parseInt64 number0 with
  | none => none
  | some whole =>
    if whole < 0 then none
    else
      match parseFrac number1 with
      | none => none
      | some frac =>
        if frac > 999999999 then none
        else if bNegative then some ⟨i64 (-1 * whole), i32 (-1 * i32 frac)⟩
        else some ⟨whole, i32 frac⟩

/-- `ParseWithUnit`, `/repo/go/tricorder/duration/api.go:33-40`. -/
def parseWithUnit (str : Str) (unit : MUnit) : Option Dur :=
  match parse str with
  | none => none
  | some inUnit => some (inUnit.convert unit .second)

end Dur
end Tricorder
