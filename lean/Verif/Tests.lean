import Verif.Model.Bucketer
import Verif.Model.Dist
import Verif.Model.Types
import Verif.Model.Messages
import Verif.Model.Render
/-!
# The project's unit tests, evaluated in the model

Expectations copied from the Go tests.  They are tests of the model, not proofs of properties: no theorem depends on this
file.
-/

namespace Tricorder.Tests
open Go

/-- a constant of the source text as a `float64` or `float32` -/
private def fl (x : ℚ) : Fl := rnd b64 x
private def fl32 (x : ℚ) : Fl := rnd b32 x

private def pieces : Res (List (Piece Fl)) → List (Piece Fl)
  | .ok l => l
  | _ => []

/-- the upper ends of all pieces but the last, as `verifyBucketer` reads them -/
private def ends : Res (List (Piece Fl)) → Option (List Fl)
  | .ok l => some (l.dropLast.map (·.stop))
  | _ => none

private def median (b : Res (List (Piece Fl))) (vals : List Fl) : Option Fl :=
  let d := ((newDist (pieces b) false ⟨0, 0⟩ 0).setUnit .none).1
  ((vals.foldl (fun d x => (d.addWithTs (.scalar none (.float64 x)) ⟨0, 0⟩).1) d).snapshot).map (·.median)

private def thou : List Str := [lit " thou", lit " mil", lit " bil"]

/-! ### `/repo/go/tricorder/metric_test.go:1401-1444`: bucketers -/

example : ends (newLinearBucketer 3 (fl (12)) (fl (5))) = some [(fl (12)), (fl (17))] := by decide +kernel
example : ends (newExponentialBucketer 5 (fl (12)) (fl (7/2))) =
    some [(fl (12)), (fl (42)), (fl (147)), (fl (1029/2))] := by decide +kernel
example : ends (newGeometricBucketer 400 (fl (1/2)) (fl (20))) =
    some [(fl (1/2)), (fl (1)), (fl (2)), (fl (5)), (fl (10)), (fl (20))] := by decide +kernel
example : ends (newGeometricBucketer 400 (fl (51/100)) (fl (199/10))) =
    some [(fl (1/2)), (fl (1)), (fl (2)), (fl (5)), (fl (10)), (fl (20))] := by decide +kernel
example : ends (newGeometricBucketer 400 (fl (49/100)) (fl (201/10))) =
    some [(fl (1/5)), (fl (1/2)), (fl (1)), (fl (2)), (fl (5)), (fl (10)), (fl (20)), (fl (50))] := by decide +kernel
example : ends (newGeometricBucketer 400 (fl (100)) (fl (1000))) =
    some [(fl (100)), (fl (200)), (fl (500)), (fl (1000))] := by decide +kernel
example : ends (newGeometricBucketer 400 (fl (9999/100)) (fl (1000))) =
    some [(fl (50)), (fl (100)), (fl (200)), (fl (500)), (fl (1000))] := by decide +kernel
example : ends (newGeometricBucketer 400 (fl (9999/100)) (fl (100001/100))) =
    some [(fl (50)), (fl (100)), (fl (200)), (fl (500)), (fl (1000)), (fl (2000))] := by decide +kernel
example : ends (newGeometricBucketer 400 (fl (1/50)) (fl (5))) =
    some [(fl (1/50)), (fl (1/20)), (fl (1/10)), (fl (1/5)), (fl (1/2)), (fl (1)), (fl (2)), (fl (5))] := by decide +kernel
example : ends (newGeometricBucketer 400 (fl (201/10000)) (fl (501/100))) =
    some [(fl (1/50)), (fl (1/20)), (fl (1/10)), (fl (1/5)), (fl (1/2)), (fl (1)), (fl (2)), (fl (5)), (fl (10))] := by decide +kernel
example : ends (newGeometricBucketer 400 (fl (199/10000)) (fl (499/100))) =
    some [(fl (1/100)), (fl (1/50)), (fl (1/20)), (fl (1/10)), (fl (1/5)), (fl (1/2)), (fl (1)), (fl (2)), (fl (5))] := by decide +kernel
example : ends (newGeometricBucketer 400 (fl (1/200)) (fl (1/200))) = some [(fl (1/200))] := by decide +kernel
example : ends (newGeometricBucketer 400 (fl (7/1000)) (fl (7/1000))) =
    some [(fl (1/200)), (fl (1/100))] := by decide +kernel

/-! ### `/repo/go/tricorder/metric_test.go:1446-1602`: distributions -/

/-- the test up to the snapshots, `t` minutes after `kUsualTimeStamp` -/
private def arbitrary : Dist Fl :=
  let at' (m : ℤ) : Time := ⟨1460000000 + 60 * m, 0⟩
  let val (x : ℤ) : Val := .scalar none (.float64 (.fin x))
  let d := ((newDist (pieces (newArbitraryBucketer [fl 10, fl 22, fl 50])) true (at' 0) 0).setUnit .none).1
  let down := (List.range 100).reverse.map (fun i : ℕ => (i : ℤ) + 1)
  let d := down.foldl (fun d i => (d.addWithTs (val 100) (at' i)).1) d
  let d := down.foldl (fun d i => (d.updateWithTs (val 100) (val i) (at' (60 + i))).1) d
  (List.range 100).foldl
    (fun d i => (((d.addWithTs (val 100) (at' i)).1).removeWithTs (val 100) (at' i)).1) d

example : arbitrary.snapshot.map (fun s => [s.min, s.max, s.average, s.sum]) = some [fl 1, fl 100, fl (101/2), fl 5050] := by
  decide +kernel
example : arbitrary.snapshot.map (fun s => (s.count, s.generation, s.isNotCumulative, s.timeStamp)) =
    some (100, 400, true, ⟨1460000000 + 60 * 99, 0⟩) := by decide +kernel
example : arbitrary.snapshot.map (·.breakdown) =
    some [(⟨fl 0, fl 10, true, false⟩, 9), (⟨fl 10, fl 22, false, false⟩, 12), (⟨fl 22, fl 50, false, false⟩, 28),
      (⟨fl 50, fl 0, false, true⟩, 51)] := by decide +kernel
example : (arbitrary.snapshot.map fun s => Fl.le (fl (99/2)) s.median && Fl.lt s.median (fl (103/2))) = some true := by
  decide +kernel
example : median (newArbitraryBucketer [(fl (1000))]) [(fl (200)), (fl (300))] = some (fl (250)) := by decide +kernel
example : median (newArbitraryBucketer [(fl (1000))]) [(fl (3000)), (fl (3000)), (fl (7000))] =
    some (fl (5000)) := by decide +kernel
example : median (newArbitraryBucketer [(fl (1000)), (fl (3000))]) [(fl (7000))] = some (fl (7000)) := by decide +kernel
example : median (newArbitraryBucketer [(fl (1000)), (fl (3000))]) [(fl (1700))] = some (fl (1700)) := by decide +kernel
example : median (newArbitraryBucketer [(fl (1000)), (fl (3000))]) [(fl (350))] = some (fl (350)) := by decide +kernel
example : median (newArbitraryBucketer [(fl (500)), (fl (700)), (fl (1000)), (fl (3000))]) [(fl (1000)), (fl (1000)), (fl (1000)), (fl (1000)), (fl (2900))] =
    some (fl (1950)) := by decide +kernel
example : ((median (newExponentialBucketer 7 (fl 1) (fl 10)) ((List.range 500).map fun i => .fin (i + 0 : ℕ))).map
    fun m => Fl.le m (fl 251) && Fl.le (fl 249) m) = some true := by decide +kernel
example : ((median (newExponentialBucketer 7 (fl 1) (fl 10)) ((List.range 500).map fun i => .fin (i + 500 : ℕ))).map
    fun m => Fl.le m (fl 751) && Fl.le (fl 749) m) = some true := by decide +kernel

/-! ### `/repo/go/tricorder/metric_test.go:1604-1645`: compact numbers -/

example : iCompactForm 0 900 thou = some (lit "0") := by decide +kernel
example : iCompactForm 93 900 thou = some (lit "93") := by decide +kernel
example : iCompactForm (-93) 900 thou = some (lit "-93") := by decide +kernel
example : iCompactForm 899 900 thou = some (lit "899") := by decide +kernel
example : iCompactForm (-899) 900 thou = some (lit "-899") := by decide +kernel
example : iCompactForm 900 900 thou = some (lit "1.00 thou") := by decide +kernel
example : iCompactForm (-900) 900 thou = some (lit "-1.00 thou") := by decide +kernel
example : iCompactForm 905 900 thou = some (lit "1.01 thou") := by decide +kernel
example : iCompactForm (-905) 900 thou = some (lit "-1.01 thou") := by decide +kernel
example : iCompactForm 8995 900 thou = some (lit "9.99 thou") := by decide +kernel
example : iCompactForm (-8995) 900 thou = some (lit "-9.99 thou") := by decide +kernel
example : iCompactForm 8996 900 thou = some (lit "10.0 thou") := by decide +kernel
example : iCompactForm (-8996) 900 thou = some (lit "-10.0 thou") := by decide +kernel
example : iCompactForm 10000 900 thou = some (lit "11.1 thou") := by decide +kernel
example : iCompactForm (-10000) 900 thou = some (lit "-11.1 thou") := by decide +kernel
example : iCompactForm 89954 900 thou = some (lit "99.9 thou") := by decide +kernel
example : iCompactForm (-89954) 900 thou = some (lit "-99.9 thou") := by decide +kernel
example : iCompactForm 89955 900 thou = some (lit "100 thou") := by decide +kernel
example : iCompactForm (-89955) 900 thou = some (lit "-100 thou") := by decide +kernel
example : iCompactForm 809999 900 thou = some (lit "900 thou") := by decide +kernel
example : iCompactForm (-809999) 900 thou = some (lit "-900 thou") := by decide +kernel
example : iCompactForm 810000 900 thou = some (lit "1.00 mil") := by decide +kernel
example : iCompactForm (-810000) 900 thou = some (lit "-1.00 mil") := by decide +kernel
example : uCompactForm 0 900 thou = some (lit "0") := by decide +kernel
example : uCompactForm 93 900 thou = some (lit "93") := by decide +kernel
example : uCompactForm 899 900 thou = some (lit "899") := by decide +kernel
example : uCompactForm 900 900 thou = some (lit "1.00 thou") := by decide +kernel
example : uCompactForm 905 900 thou = some (lit "1.01 thou") := by decide +kernel
example : uCompactForm 8995 900 thou = some (lit "9.99 thou") := by decide +kernel
example : uCompactForm 8996 900 thou = some (lit "10.0 thou") := by decide +kernel
example : uCompactForm 10000 900 thou = some (lit "11.1 thou") := by decide +kernel
example : uCompactForm 89954 900 thou = some (lit "99.9 thou") := by decide +kernel
example : uCompactForm 89955 900 thou = some (lit "100 thou") := by decide +kernel
example : uCompactForm 809999 900 thou = some (lit "900 thou") := by decide +kernel
example : uCompactForm 810000 900 thou = some (lit "1.00 mil") := by decide +kernel

/-! ### `/repo/go/tricorder/duration/duration_test.go:9-19`: conversion to and from `float64` -/

example : timeToFloat ⟨1464217799, 0⟩ = fl 1464217799 := by decide +kernel
example : floatToTime (fl 1464217799) = some ⟨1464217799, 0⟩ := by decide +kernel
example : durToFloat 3625000000 = fl (29/8) := by decide +kernel
example : durFromFloat (fl (29/8)) = some 3625000000 := by decide +kernel

/-! ### `/repo/go/tricorder/duration/duration_test.go:21-164`: durations and times -/

example : Dur.new (0) = (⟨0, 0⟩ : Dur) := by decide +kernel
example : (⟨0, 0⟩ : Dur).asGoDuration = 0 := by decide +kernel
example : (⟨0, 0⟩ : Dur).isNegative = false := by decide +kernel
example : Dur.sinceEpoch ⟨0, 0⟩ = (⟨0, 0⟩ : Dur) := by decide +kernel
example : (⟨0, 0⟩ : Dur).asGoTime = ⟨0, 0⟩ := by decide +kernel
example : Dur.new (1) = (⟨0, 1⟩ : Dur) := by decide +kernel
example : (⟨0, 1⟩ : Dur).asGoDuration = 1 := by decide +kernel
example : (⟨0, 1⟩ : Dur).isNegative = false := by decide +kernel
example : Dur.sinceEpoch ⟨0, 1⟩ = (⟨0, 1⟩ : Dur) := by decide +kernel
example : (⟨0, 1⟩ : Dur).asGoTime = ⟨0, 1⟩ := by decide +kernel
example : Dur.new (1000000000) = (⟨1, 0⟩ : Dur) := by decide +kernel
example : (⟨1, 0⟩ : Dur).asGoDuration = 1000000000 := by decide +kernel
example : (⟨1, 0⟩ : Dur).isNegative = false := by decide +kernel
example : Dur.sinceEpoch ⟨1, 0⟩ = (⟨1, 0⟩ : Dur) := by decide +kernel
example : (⟨1, 0⟩ : Dur).asGoTime = ⟨1, 0⟩ := by decide +kernel
example : Dur.new (1999999999) = (⟨1, 999999999⟩ : Dur) := by decide +kernel
example : (⟨1, 999999999⟩ : Dur).asGoDuration = 1999999999 := by decide +kernel
example : (⟨1, 999999999⟩ : Dur).isNegative = false := by decide +kernel
example : Dur.sinceEpoch ⟨1, 999999999⟩ = (⟨1, 999999999⟩ : Dur) := by decide +kernel
example : (⟨1, 999999999⟩ : Dur).asGoTime = ⟨1, 999999999⟩ := by decide +kernel
example : Dur.new (-1) = (⟨0, -1⟩ : Dur) := by decide +kernel
example : (⟨0, -1⟩ : Dur).asGoDuration = -1 := by decide +kernel
example : (⟨0, -1⟩ : Dur).isNegative = true := by decide +kernel
example : Dur.sinceEpoch ⟨-1, 999999999⟩ = (⟨0, -1⟩ : Dur) := by decide +kernel
example : (⟨0, -1⟩ : Dur).asGoTime = ⟨-1, 999999999⟩ := by decide +kernel
example : Dur.new (-1000000000) = (⟨-1, 0⟩ : Dur) := by decide +kernel
example : (⟨-1, 0⟩ : Dur).asGoDuration = -1000000000 := by decide +kernel
example : (⟨-1, 0⟩ : Dur).isNegative = true := by decide +kernel
example : Dur.sinceEpoch ⟨-1, 0⟩ = (⟨-1, 0⟩ : Dur) := by decide +kernel
example : (⟨-1, 0⟩ : Dur).asGoTime = ⟨-1, 0⟩ := by decide +kernel
example : Dur.new (-1999999999) = (⟨-1, -999999999⟩ : Dur) := by decide +kernel
example : (⟨-1, -999999999⟩ : Dur).asGoDuration = -1999999999 := by decide +kernel
example : (⟨-1, -999999999⟩ : Dur).isNegative = true := by decide +kernel
example : Dur.sinceEpoch ⟨-2, 1⟩ = (⟨-1, -999999999⟩ : Dur) := by decide +kernel
example : (⟨-1, -999999999⟩ : Dur).asGoTime = ⟨-2, 1⟩ := by decide +kernel

/-! ### `/repo/go/tricorder/duration/duration_test.go:166-221`: text forms of durations -/

example : (⟨57, 0⟩ : Dur).toString = lit "57.000000000" := by decide +kernel
example : (⟨-53, -200000000⟩ : Dur).toString = lit "-53.200000000" := by decide +kernel
example : (⟨-53, -200000000⟩ : Dur).stringUsingUnits .millisecond = lit "-53200.000000000" := by decide +kernel
example : (⟨53, 123456789⟩ : Dur).stringUsingUnits .millisecond = lit "53123.456789000" := by decide +kernel
example : (⟨0, 0⟩ : Dur).prettyFormat = some (lit "0ns") := by decide +kernel
example : (⟨0, 7⟩ : Dur).prettyFormat = some (lit "7ns") := by decide +kernel
example : (⟨0, 9999⟩ : Dur).prettyFormat = some (lit "9999ns") := by decide +kernel
example : (⟨0, 10000⟩ : Dur).prettyFormat = some (lit "10" ++ [0xCE, 0xBC] ++ lit "s") := by decide +kernel
example : (⟨0, 13789⟩ : Dur).prettyFormat = some (lit "13" ++ [0xCE, 0xBC] ++ lit "s") := by decide +kernel
example : (⟨0, 9999999⟩ : Dur).prettyFormat = some (lit "9999" ++ [0xCE, 0xBC] ++ lit "s") := by decide +kernel
example : (⟨0, 10000000⟩ : Dur).prettyFormat = some (lit "10ms") := by decide +kernel
example : (⟨0, 678000000⟩ : Dur).prettyFormat = some (lit "678ms") := by decide +kernel
example : (⟨0, 999000000⟩ : Dur).prettyFormat = some (lit "999ms") := by decide +kernel
example : (⟨1, 0⟩ : Dur).prettyFormat = some (lit "1.000s") := by decide +kernel
example : (⟨35, 871000000⟩ : Dur).prettyFormat = some (lit "35.871s") := by decide +kernel
example : (⟨59, 999000000⟩ : Dur).prettyFormat = some (lit "59.999s") := by decide +kernel
example : (⟨60, 0⟩ : Dur).prettyFormat = some (lit "1m 0.000s") := by decide +kernel
example : (⟨3541, 10000000⟩ : Dur).prettyFormat = some (lit "59m 1.010s") := by decide +kernel
example : (⟨3600, 0⟩ : Dur).prettyFormat = some (lit "1h 0m 0s") := by decide +kernel
example : (⟨83000, 0⟩ : Dur).prettyFormat = some (lit "23h 3m 20s") := by decide +kernel
example : (⟨86400, 0⟩ : Dur).prettyFormat = some (lit "1d 0h 0m 0s") := by decide +kernel
example : (⟨200000, 0⟩ : Dur).prettyFormat = some (lit "2d 7h 33m 20s") := by decide +kernel

/-! ### `/repo/go/tricorder/duration/duration_test.go:223-253`: parsing -/

example : (Dur.parseWithUnit (lit "-4326.1601") .second).map Dur.toString =
    some (lit "-4326.160100000") := by decide +kernel
example : (Dur.parseWithUnit (lit "8078.211436") .millisecond).map Dur.toString =
    some (lit "8.078211436") := by decide +kernel
example : (Dur.parseWithUnit (lit "793") .second).map Dur.toString = some (lit "793.000000000") := by decide +kernel
example : (Dur.parseWithUnit (lit "-8") .millisecond).map Dur.toString = some (lit "-0.008000000") := by decide +kernel
example : (Dur.parseWithUnit (lit "0") .millisecond).map Dur.toString = some (lit "0.000000000") := by decide +kernel
example : Dur.parseWithUnit (lit "abcde") .second = none := by decide +kernel

/-! ### `/repo/go/tricorder/types/types_test.go:10-69`: zero values, `CanToFromFloat`, `ToFloat` -/

example : safeZeroValue .bool = some (.scalar none (.bool false)) := by decide +kernel
example : safeZeroValue .int8 = some (.scalar none (.int .int8 (0))) := by decide +kernel
example : safeZeroValue .int16 = some (.scalar none (.int .int16 (0))) := by decide +kernel
example : safeZeroValue .int32 = some (.scalar none (.int .int32 (0))) := by decide +kernel
example : safeZeroValue .int64 = some (.scalar none (.int .int64 (0))) := by decide +kernel
example : safeZeroValue .uint8 = some (.scalar none (.int .uint8 (0))) := by decide +kernel
example : safeZeroValue .uint16 = some (.scalar none (.int .uint16 (0))) := by decide +kernel
example : safeZeroValue .uint32 = some (.scalar none (.int .uint32 (0))) := by decide +kernel
example : safeZeroValue .uint64 = some (.scalar none (.int .uint64 (0))) := by decide +kernel
example : safeZeroValue .float32 = some (.scalar none (.float32 (fl32 (0)))) := by decide +kernel
example : safeZeroValue .float64 = some (.scalar none (.float64 (fl (0)))) := by decide +kernel
example : safeZeroValue .string = some (.scalar none (.string (lit ""))) := by decide +kernel
example : Ty.canToFromFloat .bool = false := by decide +kernel
example : Ty.canToFromFloat .int8 = true := by decide +kernel
example : Ty.canToFromFloat .int16 = true := by decide +kernel
example : Ty.canToFromFloat .int32 = true := by decide +kernel
example : Ty.canToFromFloat .int64 = true := by decide +kernel
example : Ty.canToFromFloat .uint8 = true := by decide +kernel
example : Ty.canToFromFloat .uint16 = true := by decide +kernel
example : Ty.canToFromFloat .uint32 = true := by decide +kernel
example : Ty.canToFromFloat .uint64 = true := by decide +kernel
example : Ty.canToFromFloat .float32 = true := by decide +kernel
example : Ty.canToFromFloat .float64 = true := by decide +kernel
example : Ty.canToFromFloat .string = false := by decide +kernel
example : Ty.canToFromFloat .dist = false := by decide +kernel
example : Ty.toFloat .int8 (.scalar none (.int .int8 (-128))) = .ok (fl (-128)) := by decide +kernel
example : Ty.toFloat .int8 (.scalar none (.int .int8 (127))) = .ok (fl (127)) := by decide +kernel
example : Ty.toFloat .int8 (.scalar none (.int .int8 (55))) = .ok (fl (55)) := by decide +kernel
example : Ty.toFloat .int16 (.scalar none (.int .int16 (-32768))) = .ok (fl (-32768)) := by decide +kernel
example : Ty.toFloat .int16 (.scalar none (.int .int16 (32767))) = .ok (fl (32767)) := by decide +kernel
example : Ty.toFloat .int16 (.scalar none (.int .int16 (55))) = .ok (fl (55)) := by decide +kernel
example : Ty.toFloat .int32 (.scalar none (.int .int32 (-2147483648))) = .ok (fl (-2147483648)) := by decide +kernel
example : Ty.toFloat .int32 (.scalar none (.int .int32 (2147483647))) = .ok (fl (2147483647)) := by decide +kernel
example : Ty.toFloat .int32 (.scalar none (.int .int32 (55))) = .ok (fl (55)) := by decide +kernel
example : Ty.toFloat .int64 (.scalar none (.int .int64 (12345678901))) = .ok (fl (12345678901)) := by decide +kernel
example : Ty.toFloat .int64 (.scalar none (.int .int64 (-12345678901))) = .ok (fl (-12345678901)) := by decide +kernel
example : Ty.toFloat .uint8 (.scalar none (.int .uint8 (0))) = .ok (fl (0)) := by decide +kernel
example : Ty.toFloat .uint8 (.scalar none (.int .uint8 (255))) = .ok (fl (255)) := by decide +kernel
example : Ty.toFloat .uint8 (.scalar none (.int .uint8 (55))) = .ok (fl (55)) := by decide +kernel
example : Ty.toFloat .uint16 (.scalar none (.int .uint16 (0))) = .ok (fl (0)) := by decide +kernel
example : Ty.toFloat .uint16 (.scalar none (.int .uint16 (65535))) = .ok (fl (65535)) := by decide +kernel
example : Ty.toFloat .uint16 (.scalar none (.int .uint16 (55))) = .ok (fl (55)) := by decide +kernel
example : Ty.toFloat .uint32 (.scalar none (.int .uint32 (0))) = .ok (fl (0)) := by decide +kernel
example : Ty.toFloat .uint32 (.scalar none (.int .uint32 (4294967295))) = .ok (fl (4294967295)) := by decide +kernel
example : Ty.toFloat .uint32 (.scalar none (.int .uint32 (55))) = .ok (fl (55)) := by decide +kernel
example : Ty.toFloat .uint64 (.scalar none (.int .uint64 (12345678901))) = .ok (fl (12345678901)) := by decide +kernel
example : Ty.toFloat .uint64 (.scalar none (.int .uint64 (0))) = .ok (fl (0)) := by decide +kernel
example : Ty.toFloat .float32 (.scalar none (.float32 (fl32 (277/4)))) = .ok (fl (277/4)) := by decide +kernel
example : Ty.toFloat .float32 (.scalar none (.float32 (fl32 (-307/8)))) = .ok (fl (-307/8)) := by decide +kernel
example : Ty.toFloat .float64 (.scalar none (.float64 (fl (277/4)))) = .ok (fl (277/4)) := by decide +kernel
example : Ty.toFloat .float64 (.scalar none (.float64 (fl (-307/8)))) = .ok (fl (-307/8)) := by decide +kernel

/-! ### `/repo/go/tricorder/types/types_test.go:71-151`: `FromGoValue`, `FromFloat` -/

example : fromGoValue (.scalar none (.bool true)) = .bool := by decide +kernel
example : fromGoValue (.scalar none (.int .int8 (0))) = .int8 := by decide +kernel
example : fromGoValue (.scalar none (.int .int16 (32))) = .int16 := by decide +kernel
example : fromGoValue (.scalar none (.int .int32 (47))) = .int32 := by decide +kernel
example : fromGoValue (.scalar none (.int .int64 (50))) = .int64 := by decide +kernel
example : fromGoValue (.scalar none (.int .uint8 (0))) = .uint8 := by decide +kernel
example : fromGoValue (.scalar none (.int .uint16 (32))) = .uint16 := by decide +kernel
example : fromGoValue (.scalar none (.int .uint32 (47))) = .uint32 := by decide +kernel
example : fromGoValue (.scalar none (.int .uint64 (50))) = .uint64 := by decide +kernel
example : fromGoValue (.scalar none (.float32 (fl32 (231/25)))) = .float32 := by decide +kernel
example : fromGoValue (.scalar none (.float64 (fl (231/25)))) = .float64 := by decide +kernel
example : fromGoValue (.scalar none (.string (lit "boo"))) = .string := by decide +kernel
example : fromGoValue (.scalar none (.duration 60000000000)) = .goDuration := by decide +kernel
example : fromGoValue (.scalar none (.time ⟨1460000000, 5⟩)) = .goTime := by decide +kernel
example : fromGoValue (.dist none) = .dist := by decide +kernel
example : Ty.fromFloat .int8 (fl (-128)) = .ok (.scalar none (.int .int8 (-128))) := by decide +kernel
example : Ty.fromFloat .int8 (fl (-12849/100)) = .ok (.scalar none (.int .int8 (-128))) := by decide +kernel
example : Ty.fromFloat .int8 (fl (-255/2)) = .ok (.scalar none (.int .int8 (-128))) := by decide +kernel
example : Ty.fromFloat .int8 (fl (-12749/100)) = .ok (.scalar none (.int .int8 (-127))) := by decide +kernel
example : Ty.fromFloat .int8 (fl (0)) = .ok (.scalar none (.int .int8 (0))) := by decide +kernel
example : Ty.fromFloat .int8 (fl (1/2)) = .ok (.scalar none (.int .int8 (1))) := by decide +kernel
example : Ty.fromFloat .int8 (fl (49/100)) = .ok (.scalar none (.int .int8 (0))) := by decide +kernel
example : Ty.fromFloat .int8 (fl (12749/100)) = .ok (.scalar none (.int .int8 (127))) := by decide +kernel
example : Ty.fromFloat .int16 (fl (-32768)) = .ok (.scalar none (.int .int16 (-32768))) := by decide +kernel
example : Ty.fromFloat .int16 (fl (-3276849/100)) = .ok (.scalar none (.int .int16 (-32768))) := by decide +kernel
example : Ty.fromFloat .int16 (fl (-65535/2)) = .ok (.scalar none (.int .int16 (-32768))) := by decide +kernel
example : Ty.fromFloat .int16 (fl (-3276749/100)) = .ok (.scalar none (.int .int16 (-32767))) := by decide +kernel
example : Ty.fromFloat .int16 (fl (0)) = .ok (.scalar none (.int .int16 (0))) := by decide +kernel
example : Ty.fromFloat .int16 (fl (1/2)) = .ok (.scalar none (.int .int16 (1))) := by decide +kernel
example : Ty.fromFloat .int16 (fl (49/100)) = .ok (.scalar none (.int .int16 (0))) := by decide +kernel
example : Ty.fromFloat .int16 (fl (3276749/100)) = .ok (.scalar none (.int .int16 (32767))) := by decide +kernel
example : Ty.fromFloat .int32 (fl (-2147483648)) = .ok (.scalar none (.int .int32 (-2147483648))) := by decide +kernel
example : Ty.fromFloat .int32 (fl (-214748364849/100)) =
    .ok (.scalar none (.int .int32 (-2147483648))) := by decide +kernel
example : Ty.fromFloat .int32 (fl (-4294967295/2)) = .ok (.scalar none (.int .int32 (-2147483648))) := by decide +kernel
example : Ty.fromFloat .int32 (fl (-214748364749/100)) =
    .ok (.scalar none (.int .int32 (-2147483647))) := by decide +kernel
example : Ty.fromFloat .int32 (fl (0)) = .ok (.scalar none (.int .int32 (0))) := by decide +kernel
example : Ty.fromFloat .int32 (fl (1/2)) = .ok (.scalar none (.int .int32 (1))) := by decide +kernel
example : Ty.fromFloat .int32 (fl (49/100)) = .ok (.scalar none (.int .int32 (0))) := by decide +kernel
example : Ty.fromFloat .int32 (fl (214748364749/100)) =
    .ok (.scalar none (.int .int32 (2147483647))) := by decide +kernel
example : Ty.fromFloat .int64 (fl (-2147483648)) = .ok (.scalar none (.int .int64 (-2147483648))) := by decide +kernel
example : Ty.fromFloat .int64 (fl (-214748364849/100)) =
    .ok (.scalar none (.int .int64 (-2147483648))) := by decide +kernel
example : Ty.fromFloat .int64 (fl (-4294967295/2)) = .ok (.scalar none (.int .int64 (-2147483648))) := by decide +kernel
example : Ty.fromFloat .int64 (fl (-214748364749/100)) =
    .ok (.scalar none (.int .int64 (-2147483647))) := by decide +kernel
example : Ty.fromFloat .int64 (fl (0)) = .ok (.scalar none (.int .int64 (0))) := by decide +kernel
example : Ty.fromFloat .int64 (fl (1/2)) = .ok (.scalar none (.int .int64 (1))) := by decide +kernel
example : Ty.fromFloat .int64 (fl (49/100)) = .ok (.scalar none (.int .int64 (0))) := by decide +kernel
example : Ty.fromFloat .int64 (fl (214748364749/100)) =
    .ok (.scalar none (.int .int64 (2147483647))) := by decide +kernel
example : Ty.fromFloat .uint8 (fl (0)) = .ok (.scalar none (.int .uint8 (0))) := by decide +kernel
example : Ty.fromFloat .uint8 (fl (1/2)) = .ok (.scalar none (.int .uint8 (1))) := by decide +kernel
example : Ty.fromFloat .uint8 (fl (49/100)) = .ok (.scalar none (.int .uint8 (0))) := by decide +kernel
example : Ty.fromFloat .uint8 (fl (25549/100)) = .ok (.scalar none (.int .uint8 (255))) := by decide +kernel
example : Ty.fromFloat .uint16 (fl (0)) = .ok (.scalar none (.int .uint16 (0))) := by decide +kernel
example : Ty.fromFloat .uint16 (fl (1/2)) = .ok (.scalar none (.int .uint16 (1))) := by decide +kernel
example : Ty.fromFloat .uint16 (fl (49/100)) = .ok (.scalar none (.int .uint16 (0))) := by decide +kernel
example : Ty.fromFloat .uint16 (fl (6553549/100)) = .ok (.scalar none (.int .uint16 (65535))) := by decide +kernel
example : Ty.fromFloat .uint32 (fl (0)) = .ok (.scalar none (.int .uint32 (0))) := by decide +kernel
example : Ty.fromFloat .uint32 (fl (1/2)) = .ok (.scalar none (.int .uint32 (1))) := by decide +kernel
example : Ty.fromFloat .uint32 (fl (49/100)) = .ok (.scalar none (.int .uint32 (0))) := by decide +kernel
example : Ty.fromFloat .uint32 (fl (429496729549/100)) =
    .ok (.scalar none (.int .uint32 (4294967295))) := by decide +kernel
example : Ty.fromFloat .uint64 (fl (0)) = .ok (.scalar none (.int .uint64 (0))) := by decide +kernel
example : Ty.fromFloat .uint64 (fl (1/2)) = .ok (.scalar none (.int .uint64 (1))) := by decide +kernel
example : Ty.fromFloat .uint64 (fl (49/100)) = .ok (.scalar none (.int .uint64 (0))) := by decide +kernel
example : Ty.fromFloat .uint64 (fl (429496729549/100)) =
    .ok (.scalar none (.int .uint64 (4294967295))) := by decide +kernel
example : Ty.fromFloat .float32 (fl (277/4)) = .ok (.scalar none (.float32 (fl32 (277/4)))) := by decide +kernel
example : Ty.fromFloat .float32 (fl (-307/8)) = .ok (.scalar none (.float32 (fl32 (-307/8)))) := by decide +kernel
example : Ty.fromFloat .float64 (fl (277/4)) = .ok (.scalar none (.float64 (fl (277/4)))) := by decide +kernel
example : Ty.fromFloat .float64 (fl (-307/8)) = .ok (.scalar none (.float64 (fl (-307/8)))) := by decide +kernel

/-! ### `/repo/go/tricorder/messages/metric_test.go:17-392`: conversion between JSON and Go RPC -/

example : (⟨[], [], .none, .int64, .unknown, 0, .scalar none (.int .int64 69), .time ⟨1468442100, 0⟩, 0⟩ : Metric).convertToJson =
    some (⟨[], [], .none, .int64, .unknown, 0, .scalar none (.int .int64 69), .str (lit "1468442100.000000000"), 0⟩ : Metric) := by decide +kernel
example : (⟨[], [], .none, .int64, .unknown, 0, .scalar none (.int .int64 69), .str (lit "1468442100.000000000"), 0⟩ : Metric).convertToJson =
    some (⟨[], [], .none, .int64, .unknown, 0, .scalar none (.int .int64 69), .str (lit "1468442100.000000000"), 0⟩ : Metric) := by decide +kernel
example : (⟨[], [], .none, .int64, .unknown, 0, .scalar none (.int .int64 69), .str (lit "1468442100.000000000"), 0⟩ : Metric).convertToGoRPC =
    (true, (⟨[], [], .none, .int64, .unknown, 0, .scalar none (.int .int64 69), .time ⟨1468442100, 0⟩, 0⟩ : Metric)) := by decide +kernel
example : (⟨[], [], .none, .int64, .unknown, 0, .scalar none (.int .int64 69), .time ⟨1468442100, 0⟩, 0⟩ : Metric).convertToGoRPC =
    (true, (⟨[], [], .none, .int64, .unknown, 0, .scalar none (.int .int64 69), .time ⟨1468442100, 0⟩, 0⟩ : Metric)) := by decide +kernel
example : (⟨[], [], .millisecond, .goDuration, .unknown, 0, .scalar none (.duration 960357000000), .time ⟨1468442100, 0⟩, 0⟩ : Metric).convertToJson =
    some (⟨[], [], .millisecond, .duration, .unknown, 0, .scalar none (.string (lit "960357.000000000")), .str (lit "1468442100.000000000"), 0⟩ : Metric) := by decide +kernel
example : (⟨[], [], .millisecond, .duration, .unknown, 0, .scalar none (.string (lit "960357.000000000")), .str (lit "1468442100.000000000"), 0⟩ : Metric).convertToJson =
    some (⟨[], [], .millisecond, .duration, .unknown, 0, .scalar none (.string (lit "960357.000000000")), .str (lit "1468442100.000000000"), 0⟩ : Metric) := by decide +kernel
example : (⟨[], [], .millisecond, .duration, .unknown, 0, .scalar none (.string (lit "960357.000000000")), .str (lit "1468442100.000000000"), 0⟩ : Metric).convertToGoRPC =
    (true, (⟨[], [], .millisecond, .goDuration, .unknown, 0, .scalar none (.duration 960357000000), .time ⟨1468442100, 0⟩, 0⟩ : Metric)) := by decide +kernel
example : (⟨[], [], .millisecond, .goDuration, .unknown, 0, .scalar none (.duration 960357000000), .time ⟨1468442100, 0⟩, 0⟩ : Metric).convertToGoRPC =
    (true, (⟨[], [], .millisecond, .goDuration, .unknown, 0, .scalar none (.duration 960357000000), .time ⟨1468442100, 0⟩, 0⟩ : Metric)) := by decide +kernel
example : (⟨[], [], .second, .goDuration, .unknown, 0, .scalar none (.duration 960357000000), .time ⟨1468442100, 0⟩, 0⟩ : Metric).convertToJson =
    some (⟨[], [], .second, .duration, .unknown, 0, .scalar none (.string (lit "960.357000000")), .str (lit "1468442100.000000000"), 0⟩ : Metric) := by decide +kernel
example : (⟨[], [], .second, .duration, .unknown, 0, .scalar none (.string (lit "960.357000000")), .str (lit "1468442100.000000000"), 0⟩ : Metric).convertToJson =
    some (⟨[], [], .second, .duration, .unknown, 0, .scalar none (.string (lit "960.357000000")), .str (lit "1468442100.000000000"), 0⟩ : Metric) := by decide +kernel
example : (⟨[], [], .second, .duration, .unknown, 0, .scalar none (.string (lit "960.357000000")), .str (lit "1468442100.000000000"), 0⟩ : Metric).convertToGoRPC =
    (true, (⟨[], [], .second, .goDuration, .unknown, 0, .scalar none (.duration 960357000000), .time ⟨1468442100, 0⟩, 0⟩ : Metric)) := by decide +kernel
example : (⟨[], [], .second, .goDuration, .unknown, 0, .scalar none (.duration 960357000000), .time ⟨1468442100, 0⟩, 0⟩ : Metric).convertToGoRPC =
    (true, (⟨[], [], .second, .goDuration, .unknown, 0, .scalar none (.duration 960357000000), .time ⟨1468442100, 0⟩, 0⟩ : Metric)) := by decide +kernel
example : (⟨[], [], .millisecond, .goTime, .unknown, 0, .scalar none (.time ⟨1468442116, 924000000⟩), .time ⟨1468442100, 0⟩, 0⟩ : Metric).convertToJson =
    some (⟨[], [], .millisecond, .time, .unknown, 0, .scalar none (.string (lit "1468442116924.000000000")), .str (lit "1468442100.000000000"), 0⟩ : Metric) := by decide +kernel
example : (⟨[], [], .millisecond, .time, .unknown, 0, .scalar none (.string (lit "1468442116924.000000000")), .str (lit "1468442100.000000000"), 0⟩ : Metric).convertToJson =
    some (⟨[], [], .millisecond, .time, .unknown, 0, .scalar none (.string (lit "1468442116924.000000000")), .str (lit "1468442100.000000000"), 0⟩ : Metric) := by decide +kernel
example : (⟨[], [], .millisecond, .time, .unknown, 0, .scalar none (.string (lit "1468442116924.000000000")), .str (lit "1468442100.000000000"), 0⟩ : Metric).convertToGoRPC =
    (true, (⟨[], [], .millisecond, .goTime, .unknown, 0, .scalar none (.time ⟨1468442116, 924000000⟩), .time ⟨1468442100, 0⟩, 0⟩ : Metric)) := by decide +kernel
example : (⟨[], [], .millisecond, .goTime, .unknown, 0, .scalar none (.time ⟨1468442116, 924000000⟩), .time ⟨1468442100, 0⟩, 0⟩ : Metric).convertToGoRPC =
    (true, (⟨[], [], .millisecond, .goTime, .unknown, 0, .scalar none (.time ⟨1468442116, 924000000⟩), .time ⟨1468442100, 0⟩, 0⟩ : Metric)) := by decide +kernel
example : (⟨[], [], .second, .goTime, .unknown, 0, .scalar none (.time ⟨1468442116, 924000000⟩), .time ⟨1468442100, 0⟩, 0⟩ : Metric).convertToJson =
    some (⟨[], [], .second, .time, .unknown, 0, .scalar none (.string (lit "1468442116.924000000")), .str (lit "1468442100.000000000"), 0⟩ : Metric) := by decide +kernel
example : (⟨[], [], .second, .time, .unknown, 0, .scalar none (.string (lit "1468442116.924000000")), .str (lit "1468442100.000000000"), 0⟩ : Metric).convertToJson =
    some (⟨[], [], .second, .time, .unknown, 0, .scalar none (.string (lit "1468442116.924000000")), .str (lit "1468442100.000000000"), 0⟩ : Metric) := by decide +kernel
example : (⟨[], [], .second, .time, .unknown, 0, .scalar none (.string (lit "1468442116.924000000")), .str (lit "1468442100.000000000"), 0⟩ : Metric).convertToGoRPC =
    (true, (⟨[], [], .second, .goTime, .unknown, 0, .scalar none (.time ⟨1468442116, 924000000⟩), .time ⟨1468442100, 0⟩, 0⟩ : Metric)) := by decide +kernel
example : (⟨[], [], .second, .goTime, .unknown, 0, .scalar none (.time ⟨1468442116, 924000000⟩), .time ⟨1468442100, 0⟩, 0⟩ : Metric).convertToGoRPC =
    (true, (⟨[], [], .second, .goTime, .unknown, 0, .scalar none (.time ⟨1468442116, 924000000⟩), .time ⟨1468442100, 0⟩, 0⟩ : Metric)) := by decide +kernel
example : (⟨[], [], .second, .list, .goDuration, 0, .slice none ⟨none, .duration⟩ (some [.duration 631000000]), .time ⟨1468442100, 0⟩, 0⟩ : Metric).convertToJson =
    some (⟨[], [], .second, .list, .duration, 0, .slice none ⟨none, .string⟩ (some [.string (lit "0.631000000")]), .str (lit "1468442100.000000000"), 0⟩ : Metric) := by decide +kernel
example : (⟨[], [], .second, .list, .duration, 0, .slice none ⟨none, .string⟩ (some [.string (lit "0.631000000")]), .str (lit "1468442100.000000000"), 0⟩ : Metric).convertToJson =
    some (⟨[], [], .second, .list, .duration, 0, .slice none ⟨none, .string⟩ (some [.string (lit "0.631000000")]), .str (lit "1468442100.000000000"), 0⟩ : Metric) := by decide +kernel
example : (⟨[], [], .second, .list, .duration, 0, .slice none ⟨none, .string⟩ (some [.string (lit "0.631000000")]), .str (lit "1468442100.000000000"), 0⟩ : Metric).convertToGoRPC =
    (true, (⟨[], [], .second, .list, .goDuration, 0, .slice none ⟨none, .duration⟩ (some [.duration 631000000]), .time ⟨1468442100, 0⟩, 0⟩ : Metric)) := by decide +kernel
example : (⟨[], [], .second, .list, .goDuration, 0, .slice none ⟨none, .duration⟩ (some [.duration 631000000]), .time ⟨1468442100, 0⟩, 0⟩ : Metric).convertToGoRPC =
    (true, (⟨[], [], .second, .list, .goDuration, 0, .slice none ⟨none, .duration⟩ (some [.duration 631000000]), .time ⟨1468442100, 0⟩, 0⟩ : Metric)) := by decide +kernel
example : (⟨[], [], .second, .list, .goTime, 0, .slice none ⟨none, .time⟩ (some [.time ⟨1468442100, 453000000⟩]), .time ⟨1468442100, 0⟩, 0⟩ : Metric).convertToJson =
    some (⟨[], [], .second, .list, .time, 0, .slice none ⟨none, .string⟩ (some [.string (lit "1468442100.453000000")]), .str (lit "1468442100.000000000"), 0⟩ : Metric) := by decide +kernel
example : (⟨[], [], .second, .list, .time, 0, .slice none ⟨none, .string⟩ (some [.string (lit "1468442100.453000000")]), .str (lit "1468442100.000000000"), 0⟩ : Metric).convertToJson =
    some (⟨[], [], .second, .list, .time, 0, .slice none ⟨none, .string⟩ (some [.string (lit "1468442100.453000000")]), .str (lit "1468442100.000000000"), 0⟩ : Metric) := by decide +kernel
example : (⟨[], [], .second, .list, .time, 0, .slice none ⟨none, .string⟩ (some [.string (lit "1468442100.453000000")]), .str (lit "1468442100.000000000"), 0⟩ : Metric).convertToGoRPC =
    (true, (⟨[], [], .second, .list, .goTime, 0, .slice none ⟨none, .time⟩ (some [.time ⟨1468442100, 453000000⟩]), .time ⟨1468442100, 0⟩, 0⟩ : Metric)) := by decide +kernel
example : (⟨[], [], .second, .list, .goTime, 0, .slice none ⟨none, .time⟩ (some [.time ⟨1468442100, 453000000⟩]), .time ⟨1468442100, 0⟩, 0⟩ : Metric).convertToGoRPC =
    (true, (⟨[], [], .second, .list, .goTime, 0, .slice none ⟨none, .time⟩ (some [.time ⟨1468442100, 453000000⟩]), .time ⟨1468442100, 0⟩, 0⟩ : Metric)) := by decide +kernel
example : (⟨[], [], .none, .int64, .unknown, 0, .scalar none (.int .int64 69), .nil, 0⟩ : Metric).convertToJson =
    some (⟨[], [], .none, .int64, .unknown, 0, .scalar none (.int .int64 69), .str [], 0⟩ : Metric) := by decide +kernel
example : (⟨[], [], .none, .int64, .unknown, 0, .scalar none (.int .int64 69), .str [], 0⟩ : Metric).convertToGoRPC =
    (true, (⟨[], [], .none, .int64, .unknown, 0, .scalar none (.int .int64 69), .nil, 0⟩ : Metric)) := by decide +kernel
example : (⟨[], [], .none, .list, .int32, 0, .slice none ⟨none, .int .int32⟩ none, .time ⟨1468442100, 0⟩, 0⟩ : Metric).convertToJson =
    some (⟨[], [], .none, .list, .int32, 0, .slice none ⟨none, .int .int32⟩ (some []), .str (lit "1468442100.000000000"), 0⟩ : Metric) := by decide +kernel
example : (⟨[], [], .none, .int64, .unknown, 0, .scalar none (.int .int64 69), .str [], 0⟩ : Metric).convertToJson =
    some (⟨[], [], .none, .int64, .unknown, 0, .scalar none (.int .int64 69), .str [], 0⟩ : Metric) := by decide +kernel
example : (⟨[], [], .none, .int64, .unknown, 0, .scalar none (.int .int64 69), .nil, 0⟩ : Metric).convertToGoRPC =
    (true, (⟨[], [], .none, .int64, .unknown, 0, .scalar none (.int .int64 69), .nil, 0⟩ : Metric)) := by decide +kernel
example : (⟨[], [], .none, .list, .int32, 0, .slice none ⟨none, .int .int32⟩ (some []), .str (lit "1468442100.000000000"), 0⟩ : Metric).convertToGoRPC =
    (true, (⟨[], [], .none, .list, .int32, 0, .slice none ⟨none, .int .int32⟩ (some []), .time ⟨1468442100, 0⟩, 0⟩ : Metric)) := by decide +kernel
example : (⟨[], [], .none, .list, .int32, 0, .slice none ⟨none, .int .int32⟩ (some []), .time ⟨1468442100, 0⟩, 0⟩ : Metric).convertToGoRPC =
    (true, (⟨[], [], .none, .list, .int32, 0, .slice none ⟨none, .int .int32⟩ (some []), .time ⟨1468442100, 0⟩, 0⟩ : Metric)) := by decide +kernel

end Tricorder.Tests
