import Verif.Model.Api
import Verif.Model.Setup
import Verif.Model.Read
/-!
# The demo program

Models `/repo/go/tricorderdemo/tricorderdemo.go`: the registrations and the goroutine that changes the list.  Waiting
(`time.Sleep`) is no step.  The HTTP server and `main` are not modelled.
-/

namespace Tricorder
open Go

/-- `PowersOfTwo`, `/repo/go/tricorder/api.go:157` -/
def powersOfTwo : Res (List (Piece Fl)) := newExponentialBucketer 20 (.fin 1) (.fin 2)
/-- `PowersOfFour`, `/repo/go/tricorder/api.go:159` -/
def powersOfFour : Res (List (Piece Fl)) := newExponentialBucketer 11 (.fin 1) (.fin 4)
/-- `PowersOfTen`, `/repo/go/tricorder/api.go:161` -/
def powersOfTen : Res (List (Piece Fl)) := newExponentialBucketer 7 (.fin 1) (.fin 10)

namespace Demo

/-- the number of callback `rpcCountCallback`, `/repo/go/tricorderdemo/tricorderdemo.go:104-106`; 0 is a callback of the
library -/
def rpcCountFn : ℕ := 1
/-- the number of callback `bazCallback`, `/repo/go/tricorderdemo/tricorderdemo.go:100-102` -/
def bazFn : ℕ := 2

/-- what `rpcCountCallback` returns, `/repo/go/tricorderdemo/tricorderdemo.go:104-106` -/
def rpcCountCallback : Dyn := .scalar none (.int .uint64 500)
/-- what `bazCallback` returns, `/repo/go/tricorderdemo/tricorderdemo.go:100-102` -/
def bazCallback : Dyn := .scalar none (.float64 (.fin (99 / 8)))

/-- `if err := …; err != nil { log.Fatalf(…) }`: an error ends the program;
`/repo/go/tricorderdemo/tricorderdemo.go:24-30` -/
def orDie {α : Type} (p : Prog (Out (Except RegErr Unit))) (k : Prog (Out (Except RegErr α))) :
    Prog (Out (Except RegErr α)) :=
  p.bind fun
    | .panic => .ret .panic
    | .ok (.error e) => .ret (.ok (.error e))
    | .ok (.ok _) => k

/-- the same for directories; `/repo/go/tricorderdemo/tricorderdemo.go:51-58` -/
def dirOrDie {α : Type} (p : Prog (Except RegErr ℕ)) (k : ℕ → Prog (Out (Except RegErr α))) :
    Prog (Out (Except RegErr α)) :=
  p.bind fun
    | .error e => .ret (.ok (.error e))
    | .ok d => k d

/-- what `registerMetrics` makes: the variables, the distribution and the list;
`/repo/go/tricorderdemo/tricorderdemo.go:16-22` -/
structure Objs where
  temperature : ℕ
  someBool : ℕ
  someDuration : ℕ
  rpc : ℕ
  anIntList : ℕ
deriving DecidableEq, Repr

/-- the registrations in the root directory, `/repo/go/tricorderdemo/tricorderdemo.go:24-50` -/
def rootRegs (o : Objs) : List Reg :=
  [⟨lit "/list/squares", .list (some o.anIntList), 0, .none, lit "Squares"⟩,
    ⟨lit "/proc/rpc-latency", .dist (some o.rpc), 0, .millisecond, lit "RPC latency"⟩,
    ⟨lit "/proc/rpc-count", .func 1 rpcCountFn, 0, .unknown, lit "RPC count"⟩,
    ⟨lit "/proc/temperature", .ptr o.temperature, 0, .celsius, lit "Temperature"⟩,
    ⟨lit "/proc/duration", .ptr o.someDuration, 0, .second, lit "Duration"⟩]

/-- the registrations in directory `bar`, `/repo/go/tricorderdemo/tricorderdemo.go:59-70` -/
def barRegs (o : Objs) : List Reg :=
  [⟨lit "baz", .func 1 bazFn, 0, .none, lit "Another float value"⟩,
    ⟨lit "abool", .ptr o.someBool, 0, .none, lit "A boolean value"⟩]

/-- registrations one after the other, the first error ends the program;
`/repo/go/tricorderdemo/tricorderdemo.go:24-50,59-70` -/
def registerOrDie {α : Type} (fnTy : ℕ → GoTy) (d : ℕ) : List Reg → Prog (Out (Except RegErr α)) →
    Prog (Out (Except RegErr α))
  | [], k => k
  | r :: rs, k => orDie (Api.dirRegisterMetric fnTy d r.path r.spec r.unit r.description) (registerOrDie fnTy d rs k)

/-- `for i := 0; i < 500; i++ { rpcDistribution.Add(float64(i)) }`, the last `n` rounds; the clock shows `ts i`;
`/repo/go/tricorderdemo/tricorderdemo.go:82-84`.  `false` is a panic. -/
def addLoop (rpc : ℕ) (ts : ℕ → Time) : ℕ → Prog Bool
  | 0 => .ret true
  | n + 1 => .op (.distCall rpc (.add (.scalar none (.float64 (Fl.ofInt b64 (499 - n : ℕ)))) (ts (499 - n)))) fun
    | some _ => .ret false
    | none => addLoop rpc ts n

/-- the values of the metrics, `/repo/go/tricorderdemo/tricorderdemo.go:72-84` -/
def setValues (o : Objs) (ts : ℕ → Time) : Prog (Out (Except RegErr Objs)) :=
  .op (.writeVar o.temperature (.scalar none (.float64 (.fin (45 / 2))))) fun _ =>
  .op (.writeVar o.someBool (.scalar none (.bool true))) fun _ =>
  .op (.writeVar o.someDuration (.scalar none (.duration (2 * 60000000000 + 5 * 1000000000)))) fun _ =>
  (addLoop o.rpc ts 500).bind fun
    | false => .ret .panic
    | true => .ret (.ok (.ok o))

/-- `registerMetrics` once the variables, the distribution and the list are there,
`/repo/go/tricorderdemo/tricorderdemo.go:24-84` -/
def registerAll (fnTy : ℕ → GoTy) (o : Objs) (ts : ℕ → Time) : Prog (Out (Except RegErr Objs)) :=
  registerOrDie fnTy Api.root (rootRegs o) <|
  dirOrDie (Api.registerDirectory (lit "proc/foo")) fun fooDir =>
  dirOrDie (Api.dirRegisterDirectory fooDir (lit "bar")) fun barDir =>
  registerOrDie fnTy barDir (barRegs o) (setValues o ts)

/-- `registerMetrics`, `/repo/go/tricorderdemo/tricorderdemo.go:15-86`, without starting `updateList`; `pieces` is
`tricorder.PowersOfTen`, `t0` the time shown when the distribution and the list are made -/
def registerMetrics (fnTy : ℕ → GoTy) (pieces : List (Piece Fl)) (t0 : Time) (ts : ℕ → Time) :
    Prog (Out (Except RegErr Objs)) :=
  .op (.newVar (.scalar none (.float64 (.fin 0)))) fun vt =>
  .op (.newVar (.scalar none (.bool false))) fun vb =>
  .op (.newVar (.scalar none (.duration 0))) fun vd =>
  .op (.newDist pieces false t0) fun rpc =>
  .op (.newSlice ⟨none, .scalar ⟨none, .int .int⟩, none, false⟩) fun c =>
  .op (.newList (.slice c) true t0) fun
    | none => .ret .panic
    | some l => registerAll fnTy ⟨vt, vb, vd, rpc, l⟩ ts

/-- the slice of round `i` of `updateList`, `/repo/go/tricorderdemo/tricorderdemo.go:91-94` -/
def squares (i : ℕ) : Cell :=
  ⟨none, .scalar ⟨none, .int .int⟩,
    some ((List.range i).map fun j : ℕ => .int .int (i64 (((j : ℤ) + 1) * ((j : ℤ) + 1)))), false⟩

/-- rounds `i`, `i + 1`, … (`n` of them) of `updateList`, `/repo/go/tricorderdemo/tricorderdemo.go:88-98`; `false` is a
panic -/
def updateRounds (l : ℕ) (ts : ℕ → Time) : ℕ → ℕ → Prog Bool
  | _, 0 => .ret true
  | i, n + 1 => .op (.newSlice (squares i)) fun c => .op (.changeList l (.slice c) false (ts i)) fun
    | false => .ret false
    | true => updateRounds l ts (i + 1) n

/-- `updateList`, `/repo/go/tricorderdemo/tricorderdemo.go:88-98` -/
def updateList (l : ℕ) (ts : ℕ → Time) : Prog Bool := updateRounds l ts 1 99

end Demo
end Tricorder
