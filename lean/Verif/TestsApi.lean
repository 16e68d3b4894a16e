import Verif.Model.Api
import Verif.Model.Setup
import Verif.Model.Read
/-!
# The project's test of the whole package, run in the model

`TestAPI`, `/repo/go/tricorder/metric_test.go:330-1399`, and the tests of lists and of errors,
`/repo/go/tricorder/metric_test.go:1647-1998`, as programs of the model.  A program returns the numbers of the expectations
that are not met.  They are tests of the model, not proofs of properties: no theorem depends on this file.  The groups of
the test, `/repo/go/tricorder/metric_test.go:139-328`, are in `Verif/TestsGroup.lean`.
-/

namespace Tricorder.Tests
open Go

private def s64 (x : ℤ) : Dyn := .scalar none (.int .int64 x)
private def f64 (x : ℚ) : Dyn := .scalar none (.float64 (.fin x))
private def dur (x : ℤ) : Dyn := .scalar none (.duration x)
private def str (x : Str) : Dyn := .scalar none (.string x)
private def boo (x : Bool) : Dyn := .scalar none (.bool x)
private def tim (t : Time) : Dyn := .scalar none (.time t)
private def sec : ℤ := 1000000000

/-- `kUsualTimeStamp`, 2016-05-13 14:27:35 -/
private def usual : Time := ⟨1463149655, 0⟩
private def later (h : ℤ) : Time := ⟨1463149655 + 3600 * h, 0⟩

/-- the flags: variables 27 to 31 -/
private def flagVar (g : ℕ) : ℕ := 27 + g

/-- the callbacks of the test; the order of maps is backwards; all groups answer with `kUsualTimeStamp` -/
private def apiFn (f : ℕ) : Dyn :=
  match f with
  | 1 => .scalar none (.float32 .nan)
  | 2 => .scalar none (.float64 (.inf false))
  | 3 => .scalar none (.int .uint 500)
  | 4 => .scalar none (.float32 (.fin (99/8)))
  | 5 => boo false
  | 6 => .other 1
  | _ => s64 0

private def strOf' : Option Dyn → Option Str
  | some (.scalar _ (.string s)) => some s
  | _ => some []

private def apiWorld : World where
  ord := fun _ l => l.reverse
  ord_perm := fun _ l => List.reverse_perm l
  fnTy := fun f => ((apiFn f).ty).getD (.other 0)
  fn := fun _ f => some (apiFn f)
  fn_ty := by
    intro s f d h
    cases h
    unfold apiFn
    split <;> rfl
  flagGet := fun s g => if g = 2 then some (.other 0) else s.vars[flagVar g]?
  flagString := fun s g => strOf' s.vars[flagVar g]?
  lockTime := fun _ _ => usual

private def fnTy : ℕ → GoTy := apiWorld.fnTy

private def apiFmts : Fmts where
  f32 := fun x => if x = .fin (99/8) then lit "12.375" else []
  f64 := fun x => if x = .fin (45/2) then lit "22.5" else if x = .fin (47/2) then lit "23.5" else []
  time := fun t =>
    if t = ⟨1447594013, 7265341⟩ then lit "2015-11-15T13:26:53.007265341Z"
    else if t = ⟨1441517195, 0⟩ then lit "2015-09-06T05:26:35Z"
    else if t = Time.zero then lit "0001-01-01T00:00:00Z"
    else if t = later 1 then lit "2016-05-13T15:27:35Z"
    else if t = later 3 then lit "2016-05-13T17:27:35Z" else []
  notString := fun _ => []
  v32 := fun _ => []

/-- an expectation -/
private def expect (n : ℕ) (b : Bool) : List ℕ := if b then [] else [n]

private def reg (path : Str) (m : RegSpec) (u : MUnit) (desc : Str) : Prog (Option (Except RegErr Unit)) := do
  match ← Api.registerMetric fnTy path m u desc with
  | .ok r => return some r
  | .panic => return none

private def isErr (e : RegErr) : Option (Except RegErr Unit) → Bool
  | some (.error e') => e = e'
  | _ => false

private def isOk : Option (Except RegErr Unit) → Bool
  | some (.ok _) => true
  | _ => false

/-- registrations that succeed -/
private def regAll : List (Str × RegSpec × MUnit × Str) → Prog Bool
  | [] => return true
  | (p, m, u, d) :: rest => do
    let r ← reg p m u d
    let b ← regAll rest
    return isOk r && b

private def newVars' : List Dyn → Prog (List ℕ)
  | [] => return []
  | d :: ds => do
    let v ← Prog.step (.newVar d)
    let vs ← newVars' ds
    return v :: vs

/-- `GetMetric` with all that the tests look at: path, description, unit, type, bits, value, and time and group if wanted -/
private structure Want where
  path : Str
  desc : Str
  unit : MUnit
  kind : Ty
  bits : ℕ
  value : Val
  usual : Bool

private def stampIs (json : Bool) : TS → Bool
  | .str x => json && x = lit "1463149655.000000000"
  | .time t => !json && t = usual
  | _ => false

private def Want.ok (wt : Want) (json : Bool) (m : Metric) : Bool :=
  m.path = wt.path && m.description = wt.desc && m.unit = wt.unit && m.kind = wt.kind && m.bits = wt.bits &&
    m.value = wt.value && (!wt.usual || (stampIs json m.timeStamp && m.groupId = 0))

private def verify (json : Bool) (p : Str) (wt : Want) : Prog Bool := do
  match ← getMetricMsg json p with
  | some (.ok m) => return wt.ok json m
  | _ => return false

/-- `verifyJsonAndRpcDefaultTsGroupId` -/
private def verifyBoth (p desc : Str) (u : MUnit) (k : Ty) (bits : ℕ) (v : Val) : Prog Bool := do
  let a ← verify true p ⟨p, desc, u, k, bits, v, true⟩
  let b ← verify false p ⟨p, desc, u, k, bits, v, true⟩
  return a && b

private def html (p : Str) : Prog (Option Str) := do
  match ← getMetric 0 p with
  | none => return none
  | some m => match ← Prog.step (.metric m) with
    | none => return none
    | some mv => match (← asHtmlString apiFmts mv.value none).2 with
      | .ok x => return some x
      | .panic => return none

private def text (p : Str) : Prog (Option Str) := do
  match ← getMetric 0 p with
  | none => return none
  | some m => match ← Prog.step (.metric m) with
    | none => return none
    | some mv => match (← asTextString apiFmts mv.value none).2 with
      | .ok x => return some x
      | .panic => return none

/-- the names of `List()`; without a directory the test would panic -/
private def names (path : Str) : Prog (Option (List Str)) := do
  match ← Api.dirGetDirectory 0 path with
  | none => return none
  | some d => return some ((sortEntries (← Prog.step (.list d))).map fun e => e.2.name)

/-- `metricNamesListType` -/
private def nameColl : Coll (List Str) := fun m s a => do
  match ← Prog.step (.metric m) with
  | none => return (s, a, .panic)
  | some mv => return (s, a ++ [mv.path], .ok)

private def allNames (d : ℕ) (path : Str) : Prog (List Str × Status) := getAllMetricsByPath nameColl 10 d path []

private def sc (d : Dyn) : Val := match d with
  | .scalar n b => .scalar n b
  | _ => .nil

private def dirOf (r : Except RegErr ℕ) : ℕ := match r with
  | .ok d => d
  | .error _ => 1000

private def testFlags : List Flag :=
  [⟨lit "duration_flag", lit "A duration flag", 1, true⟩, ⟨lit "int_flag", lit "An integer flag", 0, true⟩,
    ⟨lit "no_getter_slice_flag", lit "A no getter slice flag", 3, false⟩,
    ⟨lit "slice_flag", lit "A slice flag", 2, true⟩, ⟨lit "unit_flag", lit "A unit flag", 4, true⟩]

private def rpcPieces : List (Piece Fl) := match newExponentialBucketer 6 (.fin 10) (.fin (5/2)) with
  | .ok p => p
  | _ => []

/-- `for i := 0; i < 500; i++ { rpcDistribution.Add(dur); dur += time.Millisecond }` -/
private def addAll (rpc : ℕ) : ℕ → ℤ → Prog Bool
  | 0, _ => return true
  | n + 1, d => do
    match ← Prog.step (.distCall rpc (.add (.scalar none (.duration d)) usual)) with
    | none => addAll rpc n (d + 1000000)
    | some _ => return false

private def u32s (l : Option (List Base)) : Val := .slice none ⟨none, .int .uint32⟩ l
private def procNames : List Str :=
  [lit "args", lit "cpu", lit "flags", lit "foo", lit "go", lit "io", lit "ipc", lit "memory", lit "name", lit "rpc-count",
    lit "rpc-latency", lit "rpc-latency-again", lit "scheduler", lit "signals", lit "some-time", lit "some-time-ptr",
    lit "start-time", lit "temperature", lit "test-start-time"]
private def rootNames : List Str :=
  [lit "bytes", lit "firstGroup", lit "list", lit "nan", lit "proc", lit "secondGroup", lit "testargs", lit "testname",
    lit "times"]

/-- what the test makes -/
private structure Made where
  vs : List ℕ
  rpc : ℕ
  int64List : ℕ
  fooDir : ℕ
  firstListGroup : ℕ

private def Made.v (o : Made) (i : ℕ) : ℕ := o.vs.getD i 1000

/-- `/repo/go/tricorder/metric_test.go:330-635`: the registrations -/
private def register : Prog (Made × List ℕ) := do
  let _ ← initDefaultMetrics fnTy ⟨lit "prog", [lit "x"], lit "go1.5", true⟩ ⟨1, 0⟩
  -- the flags of `init`, `/repo/go/tricorder/metric_test.go:2305-2315`
  let _ ← newVars' [s64 0, dur (60 * sec), str [], str [], f64 0]
  let _ ← registerFlags fnTy (setFlagUnit [] (lit "unit_flag") .celsius) testFlags
  let g1 ← Prog.step .newRegion
  let g3 ← Prog.step .newRegion
  let g7 ← Prog.step .newRegion
  let gs ← newVars' ((List.range 8).map fun i : ℕ => .scalar none (.int .int (100 * (i + 1))))
  let inGroup := fun (p : Str) (i g : ℕ) =>
    Api.registerMetricInGroup fnTy p (.ptr (gs.getD i 1000)) (some g) .none []
  let _ ← inGroup (lit "/firstGroup/first") 0 g1
  let _ ← inGroup (lit "/firstGroup/second") 1 g1
  let _ ← inGroup (lit "/firstGroup/third") 2 g3
  let _ ← inGroup (lit "/firstGroup/fourth") 3 g3
  let _ ← inGroup (lit "/secondGroup/fifth") 4 g3
  let _ ← inGroup (lit "/secondGroup/sixth") 5 g3
  let _ ← inGroup (lit "/secondGroup/seventh") 6 g7
  let _ ← inGroup (lit "/secondGroup/eighth") 7 g7
  let vs ← newVars' [s64 0, f64 0, s64 0, str [], str [], tim Time.zero, .timePtr none, boo false, dur 0, dur 0,
    .scalar none (.int .int32 0), .scalar none (.int .uint32 0), .scalar none (.float64 .nan),
    .scalar none (.float64 (.inf true)), .scalar none (.int .int 0)]
  let v := fun i => vs.getD i 1000
  let rpc ← Prog.step (.newDist rpcPieces false usual)
  let nonC ← Prog.step (.newDist rpcPieces true usual)
  let c1 ← Prog.step (.newSlice ⟨none, .scalar ⟨none, .int .int64⟩,
    some [.int .int64 2, .int .int64 3, .int .int64 5, .int .int64 7], false⟩)
  let l1 ← Prog.step (.newList (.slice c1) false usual)
  let c2 ← Prog.step (.newSlice ⟨none, .scalar ⟨none, .duration⟩, some [.duration sec, .duration (60 * sec)], false⟩)
  let l2 ← Prog.step (.newList (.slice c2) false (later 2))
  let c3 ← Prog.step (.newSlice ⟨none, .scalar ⟨none, .int .uint32⟩, none, false⟩)
  let l3 ← Prog.step (.newList (.slice c3) false (later 6))
  let l4 ← Prog.step (.newList (.slice c3) true (later 9))
  let lv ← Prog.step (.getList (l1.getD 1000))
  let e1 ← regAll
    [(lit "/nan/nan32", .func 1 1, .none, lit "NaN as float32"), (lit "/nan/nan64", .ptr (v 12), .none, lit "NaN as float64"),
      (lit "/nan/inf", .func 1 2, .none, lit "Inf"), (lit "/nan/neginf", .ptr (v 13), .none, lit "-Inf"),
      (lit "/times/asdf", .dist (some nonC), .none, lit "Test adding a non cumulative distribution"),
      (lit "/bytes/bytes", .ptr (v 10), .byte, lit "Size in Bytes"),
      (lit "/bytes/bytesPerSecond", .ptr (v 11), .bytePerSecond, lit "Speed in Bytes per Second"),
      (lit "/times/milliseconds", .ptr (v 9), .millisecond, lit "In milliseconds"),
      (lit "/times/seconds", .ptr (v 8), .second, lit "In seconds"),
      (lit "/proc/rpc-latency", .dist (some rpc), .millisecond, lit "RPC latency"),
      (lit "/proc/rpc-latency-again", .dist (some rpc), .millisecond, lit "RPC latency again")]
  let e2 ← reg (lit "/proc/rpc-latency-wrong") (.dist (some rpc)) .second (lit "RPC latency wrong units")
  let e3 ← regAll
    [(lit "/proc/rpc-count", .func 1 3, .none, lit "RPC count"),
      (lit "/proc/test-start-time", .ptr (v 0), .second, lit "Start Time"),
      (lit "/proc/some-time", .ptr (v 5), .none, lit "Some time"),
      (lit "/proc/some-time-ptr", .ptr (v 6), .none, lit "Some time pointer"),
      (lit "/proc/temperature", .ptr (v 1), .celsius, lit "Temperature"),
      (lit "/testname", .ptr (v 3), .none, lit "Name of app"), (lit "/testargs", .ptr (v 4), .none, lit "Args passed to app"),
      (lit "/list/int64", .list l1, .none, lit "list of int 64s"),
      (lit "/list/duration", .list l2, .none, lit "list of durations"), (lit "/list/nil", .list l3, .none, lit "nil list"),
      (lit "/list/empty", .list l4, .none, lit "empty list")]
  let foo := dirOf (← Api.registerDirectory (lit "proc/foo"))
  let bar := dirOf (← Api.dirRegisterDirectory foo (lit "bar"))
  let b1 ← Api.dirRegisterMetric fnTy bar (lit "baz") (.func 1 4) .none (lit "An error")
  let b2 ← Api.dirRegisterMetric fnTy bar (lit "abool") (.ptr (v 7)) .none (lit "A boolean value")
  let b3 ← Api.dirRegisterMetric fnTy bar (lit "anotherBool") (.func 1 5) .none (lit "A boolean callback value")
  let f1 ← reg (lit "/proc/foo/bar") (.ptr (v 2)) .none (lit "Bad registration")
  let f2 ← reg (lit "proc/foo/bar/baz") (.ptr (v 2)) .none (lit "Bad registration")
  let f3 ← Api.dirRegisterDirectory foo (lit "/bar/baz")
  let f4 ← reg (lit "/") (.ptr (v 2)) .none (lit "Empty path")
  let f5 ← reg (lit "/proc/args/illegal") (.ptr (v 2)) .none (lit "parent dir already a metric")
  let f6 ← Api.registerDirectory (lit "/proc/foo")
  return (⟨vs, rpc, l1.getD 1000, foo, (lv.map ListView.groupId).getD 1000⟩,
    expect 1 e1 ++ expect 2 (isErr .wrongUnit e2) ++ expect 3 e3 ++ expect 4 (b1 = .ok (.ok ())) ++
    expect 5 (b2 = .ok (.ok ())) ++ expect 6 (b3 = .ok (.ok ())) ++ expect 7 (isErr .pathInUse f1) ++
    expect 8 (isErr .pathInUse f2) ++ expect 9 (f3 = .error .pathInUse) ++ expect 10 (isErr .pathInUse f4) ++
    expect 11 (isErr .pathInUse f5) ++ expect 12 (f6 = .ok foo))

/-- `/repo/go/tricorder/metric_test.go:637-652`: the values -/
private def setValues (o : Made) : Prog Unit := do
  let _ ← Prog.step (.writeVar (o.v 3) (str (lit "My application")))
  let _ ← Prog.step (.writeVar (o.v 4) (str (lit "--help")))
  let _ ← Prog.step (.writeVar (o.v 0) (s64 (-1234567)))
  let _ ← Prog.step (.writeVar (o.v 1) (f64 (45/2)))
  let _ ← Prog.step (.writeVar (o.v 7) (boo true))
  let _ ← Prog.step (.writeVar (o.v 8) (dur (-21 * sec - 53000000)))
  let _ ← Prog.step (.writeVar (o.v 9) (dur (7 * sec + 8000000)))
  let _ ← Prog.step (.writeVar (o.v 10) (.scalar none (.int .int32 934912)))
  let _ ← Prog.step (.writeVar (o.v 11) (.scalar none (.int .uint32 3538944)))
  let _ ← Prog.step (.writeVar (o.v 5) (tim ⟨1447594013, 7265341⟩))
  return ()

/-- `/repo/go/tricorder/metric_test.go:665-807`: the tree -/
private def testTree : Prog (List ℕ) := do
  let n1 ← names []
  let n2 ← names (lit "proc")
  let procDir := ((← Api.dirGetDirectory 0 (lit "proc"))).getD 1000
  let a1 ← allNames 0 (lit "/nan")
  let a2 ← allNames procDir (lit "foo/bar/baz")
  let a3 ← allNames procDir (lit "ddd")
  let a4 ← allNames 0 (lit "proc/foo")
  let a5 ← getAllMetricsByPath (A := Unit) (fun _ s a => .ret (s, a, .err 77)) 10 0 (lit "/proc/foo") ()
  let n3 ← names (lit "proc/foo/bar")
  let g1 ← Api.dirGetDirectory 0 (lit "/testargs/foo")
  let g2 ← Api.dirGetMetric 0 (lit "/testargs/foo")
  let g3 ← Api.dirGetDirectory 0 (lit "/big/small/little")
  let g4 ← Api.dirGetMetric 0 (lit "/big/small/little")
  let g5 ← Api.dirGetDirectory 0 (lit "/proc/big/small")
  let g6 ← Api.dirGetMetric 0 (lit "/proc/big/small")
  let g7 ← Api.dirGetMetric 0 (lit "/")
  let r1 ← listMetrics false 10 (lit "/some-non-existent-metric")
  let r2 ← listMetrics false 10 (lit "/proc/temperature")
  let d1 ← apiGetDirectory (lit "/proc/flags/int_flag")
  let d2 ← apiGetDirectory (lit "/does/not/exist")
  let d3 ← apiGetDirectory (lit "/")
  return expect 101 (n1 = some rootNames) ++ expect 102 (n2 = some procNames) ++ expect 103 (a1 = ([], .ok)) ++
    expect 104 (a2 = ([lit "/proc/foo/bar/baz"], .ok)) ++ expect 105 (a3 = ([], .ok)) ++
    expect 106 (a4 = ([lit "/proc/foo/bar/abool", lit "/proc/foo/bar/anotherBool", lit "/proc/foo/bar/baz"], .ok)) ++
    expect 107 (a5 = ((), .err 77)) ++ expect 108 (n3 = some [lit "abool", lit "anotherBool", lit "baz"]) ++
    expect 109 ([g1, g2, g3, g4, g5, g6, g7] = List.replicate 7 none) ++ expect 110 (r1 = ([], .ok)) ++
    expect 111 (r2 = ([⟨lit "/proc/temperature", lit "Temperature", .celsius, .float64, .unknown, 64, sc (f64 (45/2)),
      .time usual, 0⟩], .ok)) ++
    expect 112 (d1 = .error .pathInUse) ++ expect 113 (d2 = .error .notFound) ++ expect 114 (d3 = .ok 0)

/-- `/repo/go/tricorder/metric_test.go:809-873`: the flags -/
private def testFlagValues : Prog (List ℕ) := do
  let _ ← Prog.step (.writeVar (flagVar 0) (s64 923))
  let b1 ← verifyBoth (lit "/proc/flags/int_flag") (lit "An integer flag") .none .int64 64 (sc (s64 923))
  let h1 ← html (lit "/proc/flags/int_flag")
  let _ ← Prog.step (.writeVar (flagVar 1) (dur (25 * sec)))
  let p := lit "/proc/flags/duration_flag"
  let b2 ← verify true p ⟨p, lit "A duration flag", .second, .duration, 0, sc (str (lit "25.000000000")), true⟩
  let b3 ← verify false p ⟨p, lit "A duration flag", .second, .goDuration, 0, sc (dur (25 * sec)), true⟩
  let h2 ← html p
  let _ ← Prog.step (.writeVar (flagVar 2) (str (lit "one,two,three")))
  let b4 ← verifyBoth (lit "/proc/flags/slice_flag") (lit "A slice flag") .none .string 0 (sc (str (lit "one,two,three")))
  let h3 ← html (lit "/proc/flags/slice_flag")
  let _ ← Prog.step (.writeVar (flagVar 3) (str (lit "four,five")))
  let b5 ← verifyBoth (lit "/proc/flags/no_getter_slice_flag") (lit "A no getter slice flag") .none .string 0
    (sc (str (lit "four,five")))
  let h4 ← html (lit "/proc/flags/no_getter_slice_flag")
  let _ ← Prog.step (.writeVar (flagVar 4) (f64 (47/2)))
  let b6 ← verifyBoth (lit "/proc/flags/unit_flag") (lit "A unit flag") .celsius .float64 64 (sc (f64 (47/2)))
  let h5 ← html (lit "/proc/flags/unit_flag")
  return expect 201 b1 ++ expect 202 b2 ++ expect 203 b3 ++ expect 204 b4 ++ expect 205 b5 ++ expect 206 b6 ++
    expect 207 (h1 = some (lit "923")) ++ expect 208 (h2 = some (lit "25.000s")) ++
    expect 209 (h3 = some (lit "\"one,two,three\"")) ++ expect 210 (h4 = some (lit "\"four,five\"")) ++
    expect 211 (h5 = some (lit "23.5"))

/-- `/repo/go/tricorder/metric_test.go:875-967`: strings, sizes and durations -/
private def testValues1 : Prog (List ℕ) := do
  let b1 ← verifyBoth (lit "/testargs") (lit "Args passed to app") .none .string 0 (sc (str (lit "--help")))
  let h1 ← html (lit "/testargs")
  let b2 ← verifyBoth (lit "/testname") (lit "Name of app") .none .string 0 (sc (str (lit "My application")))
  let h2 ← html (lit "/testname")
  let b3 ← verifyBoth (lit "/bytes/bytes") (lit "Size in Bytes") .byte .int32 32 (.scalar none (.int .int32 934912))
  let h3 ← html (lit "/bytes/bytes")
  let t3 ← text (lit "/bytes/bytes")
  let b4 ← verifyBoth (lit "/bytes/bytesPerSecond") (lit "Speed in Bytes per Second") .bytePerSecond .uint32 32
    (.scalar none (.int .uint32 3538944))
  let h4 ← html (lit "/bytes/bytesPerSecond")
  let t4 ← text (lit "/bytes/bytesPerSecond")
  let p := lit "/times/seconds"
  let b5 ← verify true p ⟨p, lit "In seconds", .second, .duration, 0, sc (str (lit "-21.053000000")), true⟩
  let b6 ← verify false p ⟨p, lit "In seconds", .second, .goDuration, 0, sc (dur (-21 * sec - 53000000)), true⟩
  let h5 ← html p
  let t5 ← text p
  let q := lit "/times/milliseconds"
  let b7 ← verify true q ⟨q, lit "In milliseconds", .millisecond, .duration, 0, sc (str (lit "7008.000000000")), true⟩
  let b8 ← verify false q ⟨q, lit "In milliseconds", .millisecond, .goDuration, 0, sc (dur (7 * sec + 8000000)), true⟩
  let h6 ← html q
  let t6 ← text q
  return expect 301 b1 ++ expect 302 b2 ++ expect 303 b3 ++ expect 304 b4 ++ expect 305 b5 ++ expect 306 b6 ++
    expect 307 b7 ++ expect 308 b8 ++ expect 309 (h1 = some (lit "\"--help\"")) ++
    expect 310 (h2 = some (lit "\"My application\"")) ++ expect 311 (h3 = some (lit "913 KiB")) ++
    expect 312 (t3 = some (lit "934912")) ++ expect 313 (h4 = some (lit "3.38 MiB/s")) ++
    expect 314 (t4 = some (lit "3538944")) ++ expect 315 (h5 = some (lit "-21.053000000")) ++
    expect 316 (t5 = some (lit "-21.053000000")) ++ expect 317 (h6 = some (lit "7.008s")) ++
    expect 318 (t6 = some (lit "7008.000000000"))

/-- `/repo/go/tricorder/metric_test.go:969-1069`: numbers, times and booleans -/
private def testValues2 (o : Made) : Prog (List ℕ) := do
  let b1 ← verifyBoth (lit "/proc/temperature") (lit "Temperature") .celsius .float64 64 (sc (f64 (45/2)))
  let h1 ← html (lit "/proc/temperature")
  let b2 ← verifyBoth (lit "/proc/test-start-time") (lit "Start Time") .second .int64 64 (sc (s64 (-1234567)))
  let t2 ← text (lit "/proc/test-start-time")
  let h2 ← html (lit "/proc/test-start-time")
  let p := lit "/proc/some-time"
  let b3 ← verify true p ⟨p, lit "Some time", .none, .time, 0, sc (str (lit "1447594013.007265341")), true⟩
  let b4 ← verify false p ⟨p, lit "Some time", .none, .goTime, 0, sc (tim ⟨1447594013, 7265341⟩), true⟩
  let h3 ← html p
  let q := lit "/proc/some-time-ptr"
  let b5 ← verify true q ⟨q, lit "Some time pointer", .none, .time, 0, sc (str (lit "0.000000000")), true⟩
  let b6 ← verify false q ⟨q, lit "Some time pointer", .none, .goTime, 0, sc (tim Time.zero), true⟩
  let h4 ← html q
  let _ ← Prog.step (.writeVar (o.v 6) (.timePtr (some ⟨1441517195, 0⟩)))
  let b7 ← verify true q ⟨q, lit "Some time pointer", .none, .time, 0, sc (str (lit "1441517195.000000000")), true⟩
  let b8 ← verify false q ⟨q, lit "Some time pointer", .none, .goTime, 0, sc (tim ⟨1441517195, 0⟩), true⟩
  let h5 ← html q
  let b9 ← verifyBoth (lit "/proc/rpc-count") (lit "RPC count") .none .uint64 64 (.scalar none (.int .uint64 500))
  let h6 ← html (lit "/proc/rpc-count")
  let b10 ← verifyBoth (lit "/proc/foo/bar/baz") (lit "An error") .none .float32 32 (.scalar none (.float32 (.fin (99/8))))
  let h7 ← html (lit "proc/foo/bar/baz")
  let b11 ← verifyBoth (lit "/proc/foo/bar/abool") (lit "A boolean value") .none .bool 0 (sc (boo true))
  let h8 ← html (lit "proc/foo/bar/abool")
  let b12 ← verifyBoth (lit "/proc/foo/bar/anotherBool") (lit "A boolean callback value") .none .bool 0 (sc (boo false))
  let h9 ← html (lit "proc/foo/bar/anotherBool")
  return expect 401 b1 ++ expect 402 b2 ++ expect 403 b3 ++ expect 404 b4 ++ expect 405 b5 ++ expect 406 b6 ++
    expect 407 b7 ++ expect 408 b8 ++ expect 409 b9 ++ expect 410 b10 ++ expect 411 b11 ++ expect 412 b12 ++
    expect 413 (h1 = some (lit "22.5")) ++ expect 414 (t2 = some (lit "-1234567")) ++
    expect 415 (h2 = some (lit "-1.23 million")) ++ expect 416 (h3 = some (lit "2015-11-15T13:26:53.007265341Z")) ++
    expect 417 (h4 = some (lit "0001-01-01T00:00:00Z")) ++ expect 418 (h5 = some (lit "2015-09-06T05:26:35Z")) ++
    expect 419 (h6 = some (lit "500")) ++ expect 420 (h7 = some (lit "12.375")) ++ expect 421 (h8 = some (lit "true")) ++
    expect 422 (h9 = some (lit "false"))

private def msgOf : Option (Out Metric) → Option Metric
  | some (.ok m) => some m
  | _ => none

/-- `/repo/go/tricorder/metric_test.go:1071-1153`: the lists -/
private def testLists (o : Made) : Prog (List ℕ) := do
  let p := lit "/list/int64"
  let v1 : Val := .slice none ⟨none, .int .int64⟩ (some [.int .int64 2, .int .int64 3, .int .int64 5, .int .int64 7])
  let b1 ← verify true p ⟨p, lit "list of int 64s", .none, .list, 64, v1, false⟩
  let b2 ← verify false p ⟨p, lit "list of int 64s", .none, .list, 64, v1, false⟩
  let m1 := msgOf (← getMetricMsg true p)
  let m2 := msgOf (← getMetricMsg false p)
  let q := lit "/list/duration"
  let b3 ← verify true q ⟨q, lit "list of durations", .none, .list, 0,
    .slice none ⟨none, .string⟩ (some [.string (lit "1.000000000"), .string (lit "60.000000000")]), false⟩
  let b4 ← verify false q ⟨q, lit "list of durations", .none, .list, 0,
    .slice none ⟨none, .duration⟩ (some [.duration sec, .duration (60 * sec)]), false⟩
  let m3 := msgOf (← getMetricMsg true q)
  let m4 := msgOf (← getMetricMsg false q)
  let r := lit "/list/nil"
  let b5 ← verify true r ⟨r, lit "nil list", .none, .list, 32, u32s (some []), false⟩
  let b6 ← verify false r ⟨r, lit "nil list", .none, .list, 32, u32s none, false⟩
  let t := lit "/list/empty"
  let b7 ← verify true t ⟨t, lit "empty list", .none, .list, 32, u32s (some []), false⟩
  let b8 ← verify false t ⟨t, lit "empty list", .none, .list, 32, u32s (some []), false⟩
  let g := o.firstListGroup
  let is := fun (m : Option Metric) (k : Ty) (gid : ℕ) (ts : TS) => decide
    (m.map (fun m => (m.subType, m.groupId, m.timeStamp)) = some (k, gid, ts))
  return expect 501 b1 ++ expect 502 b2 ++ expect 503 b3 ++ expect 504 b4 ++ expect 505 b5 ++ expect 506 b6 ++
    expect 507 b7 ++ expect 508 b8 ++ expect 509 (is m1 .int64 g (.str (lit "1463149655.000000000"))) ++
    expect 510 (is m2 .int64 g (.time usual)) ++ expect 511 (is m3 .duration (g + 1) (.str (lit "1463156855.000000000"))) ++
    expect 512 (is m4 .goDuration (g + 1) (.time (later 2)))

/-- `/repo/go/tricorder/metric_test.go:1288-1398`: removing -/
private def testRemove (o : Made) : Prog (List ℕ) := do
  let a1 : Option Str ← Prog.step (.dirAbsPath o.fooDir)
  Api.unregisterPath (lit "/proc/foo/pathDoesNotExist")
  Api.unregisterPath (lit "/proc/pathDoesNotExist/pathDoesNotExist")
  Api.unregisterPath (lit "/pathDoesNotExist/pathDoesNotExist/pathDoesNotExist")
  Api.unregisterPath (lit "/")
  let r1 ← Api.dirRegisterMetric fnTy o.fooDir (lit "/bar/baz") (.ptr (o.v 14)) .none (lit "Metric already exists")
  Api.dirUnregisterPath o.fooDir (lit "/bar/baz")
  let r2 ← Api.dirRegisterMetric fnTy o.fooDir (lit "/bar/baz") (.ptr (o.v 14)) .none (lit "some metric")
  let r3 ← reg (lit "/proc/foo/bar/baz") (.ptr (o.v 14)) .none (lit "Metric already exists")
  Api.unregisterDirectory o.fooDir
  let n1 ← names (lit "proc")
  let r4 ← reg (lit "/proc/foo/bar/baz") (.ptr (o.v 14)) .none (lit "some metric")
  let procDir := dirOf (← Api.registerDirectory (lit "/proc"))
  Api.unregisterDirectory procDir
  let n2 ← names []
  Api.unregisterPath (lit "firstGroup")
  let n3 ← names []
  let rootDir := dirOf (← Api.registerDirectory (lit "/"))
  Api.unregisterDirectory rootDir
  let n4 ← names []
  let without := fun (l : List Str) (x : Str) => l.filter (· ≠ x)
  return expect 601 (a1 = some (lit "/proc/foo")) ++ expect 602 (r1 = .ok (.error .pathInUse)) ++
    expect 603 (r2 = .ok (.ok ())) ++ expect 604 (isErr .pathInUse r3) ++
    expect 605 (n1 = some (without procNames (lit "foo"))) ++ expect 606 (isOk r4) ++
    expect 607 (n2 = some (without rootNames (lit "proc"))) ++
    expect 608 (n3 = some (without (without rootNames (lit "proc")) (lit "firstGroup"))) ++ expect 609 (n4 = n3)

/-- `TestAPI` without the distribution -/
private def testAPI : Prog (List ℕ) := do
  let (o, e0) ← register
  setValues o
  let e1 ← testTree
  let e2 ← testFlagValues
  let e3 ← testValues1
  let e4 ← testValues2 o
  let e5 ← testLists o
  let e6 ← testRemove o
  return e0 ++ e1 ++ e2 ++ e3 ++ e4 ++ e5 ++ e6

example : (testAPI.run apiWorld State.init).2 = [] := by decide +kernel

/-- `/repo/go/tricorder/metric_test.go:1155-1286`: the distribution -/
private def testDist : Prog (List ℕ) := do
  let rpc ← Prog.step (.newDist rpcPieces false usual)
  let e1 ← regAll
    [(lit "/proc/rpc-latency", .dist (some rpc), .millisecond, lit "RPC latency"),
      (lit "/proc/rpc-latency-again", .dist (some rpc), .millisecond, lit "RPC latency again")]
  let e2 ← addAll rpc 500 0
  let m1 := msgOf (← getMetricMsg true (lit "/proc/rpc-latency-again"))
  let m2 := msgOf (← getMetricMsg true (lit "/proc/rpc-latency"))
  let m3 := msgOf (← getMetricMsg false (lit "/proc/rpc-latency"))
  let median := fun (m : Option Metric) => match m.map Metric.value with
    | some (.dist (some d)) => d.median
    | _ => .nan
  let want := fun (m : Option Metric) => Metric.mk (lit "/proc/rpc-latency") (lit "RPC latency") .millisecond .dist .unknown 0
    (.dist (some ⟨.fin 0, .fin 499, .fin (499/2), median m, .fin 124750, 500, 500, false,
      [⟨.fin 0, .fin 10, 10⟩, ⟨.fin 10, .fin 25, 15⟩, ⟨.fin 25, .fin (125/2), 38⟩, ⟨.fin (125/2), .fin (625/4), 94⟩,
        ⟨.fin (625/4), .fin (3125/8), 234⟩, ⟨.fin (3125/8), .fin 0, 109⟩]⟩)) .nil 0
  let inRange := fun m => Fl.le (.fin 249) (median m) && Fl.lt (median m) (.fin 250)
  let is := fun (m : Option Metric) => decide
    (m.map (fun x => { x with timeStamp := .nil, groupId := 0 }) = some (want m))
  return expect 1 e1 ++ expect 2 e2 ++ expect 3 (inRange m1) ++ expect 4 (inRange m2) ++ expect 5 (inRange m3) ++
    expect 6 (is m2) ++ expect 7 (is m3) ++
    expect 8 (m1.map (fun m => (m.path, m.description, m.unit)) =
      some (lit "/proc/rpc-latency-again", lit "RPC latency again", .millisecond)) ++
    expect 9 (m3.map Metric.timeStamp = some (.time usual)) ++ expect 10 (m3.map Metric.groupId ≠ some 0)

example : (testDist.run apiWorld State.init).2 = [] := by decide +kernel

/-! ### lists -/

private def ints (k : IntKind) (l : List ℤ) : List Base := l.map (.int k)
private def mkList (e : BaseTy) (l : List Base) (ts : Time) : Prog ℕ := do
  let c ← Prog.step (.newSlice ⟨none, .scalar ⟨none, e⟩, some l, false⟩)
  let r ← Prog.step (.newList (.slice c) false ts)
  return r.getD 1000

/-- `TextStrings` -/
private def textStrings (l : Option ListView) (u : MUnit) : Option (List Str) :=
  l.bind fun x => renderAll (fun d => valueToTextString apiFmts d x.subType u false) (elemsOf x.val)
/-- `HtmlStrings` -/
private def htmlStrings (l : Option ListView) (u : MUnit) : Option (List Str) :=
  l.bind fun x => renderAll (fun d => valueToHtmlString apiFmts d x.subType u false) (elemsOf x.val)

private def many : List ℤ :=
  [-1234567, -123456, -12345, -1234, -123, -12, -1, 0, 1, 12, 123, 1234, 12345, 123456, 1234567, 3000, 5000, 7000]

/-- `TestInt64List`, `/repo/go/tricorder/metric_test.go:1647-1780` -/
private def testInt64List : Prog (List ℕ) := do
  let l ← mkList (.int .int64) (ints .int64 [2, 3, 5, 7]) usual
  let v1 ← Prog.step (.getList l)
  let c ← Prog.step (.newSlice ⟨none, .scalar ⟨none, .int .int64⟩, some (ints .int64 many), false⟩)
  let b ← Prog.step (.changeList l (.slice c) true (later 5))
  let _ ← Prog.step (.writeSlice c 0 (.int .int64 19683))
  let _ ← Prog.step (.writeSlice c 1 (.int .int64 12167))
  let _ ← Prog.step (.writeSlice c 2 (.int .int64 8192))
  let v2 : Option ListView ← Prog.step (.getList l)
  return expect 1 (v1.map (fun x => (x.val, x.timeStamp, x.subType)) =
      some (.slice none ⟨none, .int .int64⟩ (some (ints .int64 [2, 3, 5, 7])), usual, .int64)) ++
    expect 2 b ++ expect 3 (v2.map (fun x => (x.val, x.timeStamp)) =
      some (.slice none ⟨none, .int .int64⟩ (some (ints .int64 many)), later 5)) ++
    expect 4 (textStrings v2 .none = some [lit "-1234567", lit "-123456", lit "-12345", lit "-1234", lit "-123", lit "-12",
      lit "-1", lit "0", lit "1", lit "12", lit "123", lit "1234", lit "12345", lit "123456", lit "1234567", lit "3000",
      lit "5000", lit "7000"]) ++
    expect 5 (htmlStrings v2 .celsius = some [lit "-1.23 million", lit "-123 thousand", lit "-12.3 thousand",
      lit "-1.23 thousand", lit "-123", lit "-12", lit "-1", lit "0", lit "1", lit "12", lit "123", lit "1.23 thousand",
      lit "12.3 thousand", lit "123 thousand", lit "1.23 million", lit "3.00 thousand", lit "5.00 thousand",
      lit "7.00 thousand"]) ++
    expect 6 (htmlStrings v2 .none = some [lit "-1,234,567", lit "-123,456", lit "-12,345", lit "-1,234", lit "-123",
      lit "-12", lit "-1", lit "0", lit "1", lit "12", lit "123", lit "1,234", lit "12,345", lit "123,456",
      lit "1,234,567", lit "3,000", lit "5,000", lit "7,000"]) ++
    expect 7 ((htmlStrings v2 .byte).map (List.drop 15) = some [lit "2.93 KiB", lit "4.88 KiB", lit "6.84 KiB"])

example : (testInt64List.run apiWorld State.init).2 = [] := by decide +kernel

/-- `TestBoolList`, `TestDurationList`, `TestTimeList`, `/repo/go/tricorder/metric_test.go:1782-1865` -/
private def testLists2 : Prog (List ℕ) := do
  let l1 ← mkList .bool [.bool false, .bool true, .bool true] usual
  let v1 : Option ListView ← Prog.step (.getList l1)
  let l2 ← mkList .duration [.duration sec, .duration (60 * sec)] usual
  let v2 : Option ListView ← Prog.step (.getList l2)
  let l3 ← mkList .time [.time (later 1), .time (later 3)] usual
  let v3 : Option ListView ← Prog.step (.getList l3)
  return expect 1 (v1.map (fun x => (x.val, x.timeStamp, x.subType)) =
      some (.slice none ⟨none, .bool⟩ (some [.bool false, .bool true, .bool true]), usual, .bool)) ++
    expect 2 (textStrings v1 .none = some [lit "false", lit "true", lit "true"]) ++
    expect 3 (htmlStrings v1 .none = some [lit "false", lit "true", lit "true"]) ++
    expect 4 (v2.map (fun x => (x.val, x.timeStamp, x.subType)) =
      some (.slice none ⟨none, .duration⟩ (some [.duration sec, .duration (60 * sec)]), usual, .goDuration)) ++
    expect 5 (textStrings v2 .millisecond = some [lit "1000.000000000", lit "60000.000000000"]) ++
    expect 6 (textStrings v2 .second = some [lit "1.000000000", lit "60.000000000"]) ++
    expect 7 (textStrings v2 .none = some [lit "1.000000000", lit "60.000000000"]) ++
    expect 8 ([MUnit.millisecond, .second, .none].map (htmlStrings v2) =
      List.replicate 3 (some [lit "1.000s", lit "1m 0.000s"])) ++
    expect 9 (v3.map (fun x => (x.val, x.timeStamp, x.subType)) =
      some (.slice none ⟨none, .time⟩ (some [.time (later 1), .time (later 3)]), usual, .goTime)) ++
    expect 10 (textStrings v3 .none = some [lit "1463153255.000000000", lit "1463160455.000000000"]) ++
    expect 11 (htmlStrings v3 .none = some [lit "2016-05-13T15:27:35Z", lit "2016-05-13T17:27:35Z"])

example : (testLists2.run apiWorld State.init).2 = [] := by decide +kernel

/-- `TestIntList`, `TestUintList`, `TestListNoChangeSubType`, `/repo/go/tricorder/metric_test.go:1867-1963` -/
private def testLists3 : Prog (List ℕ) := do
  let l1 ← mkList (.int .int) (ints .int [-36, -49]) (later 1)
  let v1 ← Prog.step (.getList l1)
  let c ← Prog.step (.newSlice ⟨none, .scalar ⟨none, .int .int⟩, some (ints .int [-100, -121, -144]), false⟩)
  let b1 ← Prog.step (.changeList l1 (.slice c) false (later 4))
  let v2 : Option ListView ← Prog.step (.getList l1)
  let l2 ← mkList (.int .uint) (ints .uint [89, 144, 233, 377, 610]) (later 7)
  let v3 : Option ListView ← Prog.step (.getList l2)
  let l3 ← mkList (.int .int64) (ints .int64 [2, 3, 5, 7]) usual
  let c ← Prog.step (.newSlice ⟨none, .scalar ⟨none, .int .int32⟩, some (ints .int32 [2, 3, 5, 7]), false⟩)
  let b2 ← Prog.step (.changeList l3 (.slice c) false usual)
  let is := fun (v : Option ListView) (k : IntKind) (l : List ℤ) (ts : Time) (t : Ty) => decide
    (v.map (fun x => (x.val, x.timeStamp, x.subType)) = some (.slice none ⟨none, .int k⟩ (some (ints k l)), ts, t))
  return expect 1 (is v1 .int64 [-36, -49] (later 1) .int64) ++ expect 2 b1 ++
    expect 3 (is v2 .int64 [-100, -121, -144] (later 4) .int64) ++
    expect 4 (textStrings v2 .none = some [lit "-100", lit "-121", lit "-144"]) ++
    expect 5 (htmlStrings v2 .none = some [lit "-100", lit "-121", lit "-144"]) ++
    expect 6 (is v3 .uint64 [89, 144, 233, 377, 610] (later 7) .uint64) ++
    expect 7 (textStrings v3 .none = some [lit "89", lit "144", lit "233", lit "377", lit "610"]) ++
    expect 8 (htmlStrings v3 .none = some [lit "89", lit "144", lit "233", lit "377", lit "610"]) ++ expect 9 (!b2)

example : (testLists3.run apiWorld State.init).2 = [] := by decide +kernel

/-- `TestNoAssignedUnitNoAdd`, `TestErrWrongType`, `TestErrWrongTypeFunc`, `/repo/go/tricorder/metric_test.go:1965-1998` -/
private def testErrors : Prog (List ℕ) := do
  let pieces := match newGeometricBucketer 400 (.fin 1) (.fin 1000) with
    | .ok p => p
    | _ => []
  let d ← Prog.step (.newDist pieces false usual)
  let p : Option DPanic ← Prog.step (.distCall d (.add (.scalar none (.float64 (.fin 37))) usual))
  let v ← Prog.step (.newVar (.other 1))
  let e1 ← reg (lit "/a/metric/with/a/bad/type") (.ptr v) .none (lit "Should not get registered, unsupported")
  let e2 ← reg (lit "/a/metric/with/a/bad/type/again") (.func 1 6) .none (lit "Should not get registered, unsupported")
  return expect 1 (p = some .noUnit) ++ expect 2 (isErr .wrongType e1) ++ expect 3 (isErr .wrongType e2)

example : (testErrors.run apiWorld State.init).2 = [] := by decide +kernel

end Tricorder.Tests
