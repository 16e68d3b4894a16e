import Verif.Model.Registry
/-!
# Start-up: the default metrics and the flags

Models `/repo/go/tricorder/setup.go`, `/repo/go/tricorder/wrapper/syscall_linux.go` and the flag functions of
`/repo/go/tricorder/metric.go`.  The kernel, the Go runtime and the operating system appear as arguments: what a system
call or a runtime function returned.

The update functions are programs of their own; when groups call them is the subject of `Verif/Model/Group.lean`.
-/

namespace Tricorder
open Go

/-! ### resource usage -/

/-- `Timeval`, `/repo/go/tricorder/wrapper/syscall_linux.go:7-10`, and `syscall.Timeval` -/
structure Timeval where
  sec : ℤ
  usec : ℤ
deriving DecidableEq, Repr

/-- `Rusage`, `/repo/go/tricorder/wrapper/syscall_linux.go:12-29`, and `syscall.Rusage` -/
structure Rusage where
  utime : Timeval
  stime : Timeval
  maxrss : ℤ
  ixrss : ℤ
  idrss : ℤ
  isrss : ℤ
  minflt : ℤ
  majflt : ℤ
  nswap : ℤ
  inblock : ℤ
  oublock : ℤ
  msgsnd : ℤ
  msgrcv : ℤ
  nsignals : ℤ
  nvcsw : ℤ
  nivcsw : ℤ
deriving DecidableEq, Repr

/-- `timeValToDuration`, `/repo/go/tricorder/setup.go:17-19`; `time.Second` is 10⁹ and `time.Nanosecond` is 1 -/
def timeValToDuration (v : Timeval) : ℤ := i64 (i64 (v.sec * 1000000000) + i64 (v.usec * 1))

/-! ### the variables of `initDefaultMetrics` -/

/-- an `int64`; `/repo/go/tricorder/setup.go:44` -/
def int64Var (x : ℤ) : Dyn := .scalar none (.int .int64 x)

/-- numbers of the variables, in the order of `defaultVars`; `totalMemory`, `/repo/go/tricorder/setup.go:23` -/
def vTotalMemory : ℕ := 0
/-- `goVersion`, `/repo/go/tricorder/setup.go:39` -/
def vGoVersion : ℕ := 1
/-- `numGoroutines`, `/repo/go/tricorder/setup.go:40` -/
def vNumGoroutines : ℕ := 2
/-- `userTime`, `/repo/go/tricorder/setup.go:42` -/
def vUserTime : ℕ := 3
/-- `sysTime`, `/repo/go/tricorder/setup.go:43` -/
def vSysTime : ℕ := 4
/-- `maxResidentSetSize`, `/repo/go/tricorder/setup.go:44` -/
def vMaxResident : ℕ := 5
/-- `resourceUsage.Utime.Sec`, `/repo/go/tricorder/wrapper/syscall_linux.go:8,13` -/
def vUtimeSec : ℕ := 6
/-- `resourceUsage.Utime.Usec`, `/repo/go/tricorder/wrapper/syscall_linux.go:9,13` -/
def vUtimeUsec : ℕ := 7
/-- `resourceUsage.Stime.Sec`, `/repo/go/tricorder/wrapper/syscall_linux.go:8,14` -/
def vStimeSec : ℕ := 8
/-- `resourceUsage.Stime.Usec`, `/repo/go/tricorder/wrapper/syscall_linux.go:9,14` -/
def vStimeUsec : ℕ := 9
/-- `resourceUsage.Maxrss`, `/repo/go/tricorder/wrapper/syscall_linux.go:15` -/
def vMaxrss : ℕ := 10
/-- `resourceUsage.Ixrss`, `/repo/go/tricorder/wrapper/syscall_linux.go:16` -/
def vIxrss : ℕ := 11
/-- `resourceUsage.Idrss`, `/repo/go/tricorder/wrapper/syscall_linux.go:17` -/
def vIdrss : ℕ := 12
/-- `resourceUsage.Isrss`, `/repo/go/tricorder/wrapper/syscall_linux.go:18` -/
def vIsrss : ℕ := 13
/-- `resourceUsage.Minflt`, `/repo/go/tricorder/wrapper/syscall_linux.go:19` -/
def vMinflt : ℕ := 14
/-- `resourceUsage.Majflt`, `/repo/go/tricorder/wrapper/syscall_linux.go:20` -/
def vMajflt : ℕ := 15
/-- `resourceUsage.Nswap`, `/repo/go/tricorder/wrapper/syscall_linux.go:21` -/
def vNswap : ℕ := 16
/-- `resourceUsage.Inblock`, `/repo/go/tricorder/wrapper/syscall_linux.go:22` -/
def vInblock : ℕ := 17
/-- `resourceUsage.Oublock`, `/repo/go/tricorder/wrapper/syscall_linux.go:23` -/
def vOublock : ℕ := 18
/-- `resourceUsage.Msgsnd`, `/repo/go/tricorder/wrapper/syscall_linux.go:24` -/
def vMsgsnd : ℕ := 19
/-- `resourceUsage.Msgrcv`, `/repo/go/tricorder/wrapper/syscall_linux.go:25` -/
def vMsgrcv : ℕ := 20
/-- `resourceUsage.Nsignals`, `/repo/go/tricorder/wrapper/syscall_linux.go:26` -/
def vNsignals : ℕ := 21
/-- `resourceUsage.Nvcsw`, `/repo/go/tricorder/wrapper/syscall_linux.go:27` -/
def vNvcsw : ℕ := 22
/-- `resourceUsage.Nivcsw`, `/repo/go/tricorder/wrapper/syscall_linux.go:28` -/
def vNivcsw : ℕ := 23
/-- `os.Args[0]`, `/repo/go/tricorder/setup.go:168` -/
def vName : ℕ := 24
/-- `programArgs`, `/repo/go/tricorder/setup.go:22` -/
def vArgs : ℕ := 25
/-- `appStartTime`, `/repo/go/tricorder/setup.go:170` -/
def vStart : ℕ := 26

/-- what the process finds when it starts: `os.Args[0]`, `os.Args[1:]`, `runtime.Version()`, and whether
`/proc/self/fd` could be listed; `/repo/go/tricorder/setup.go:22,39,125,168` -/
structure Proc where
  name : Str
  args : List Str
  version : Str
  hasFds : Bool

/-- `getProgramArgs`, `/repo/go/tricorder/setup.go:13-15` -/
def getProgramArgs (p : Proc) : Str := joinByte 124 p.args

/-- the variables, `/repo/go/tricorder/setup.go:22-23,39-44,168-170`: made at once, in Go some of them after the first
registrations.  The fields of the record `resourceUsage` are variables of their own. -/
def defaultVars (p : Proc) : List Dyn :=
  [.scalar none (.int .uint64 0), .scalar none (.string p.version), .scalar none (.int .int 0),
    .scalar none (.duration 0), .scalar none (.duration 0), int64Var 0] ++ List.replicate 18 (int64Var 0) ++
  [.scalar none (.string p.name), .scalar none (.string (getProgramArgs p)), .scalar none (.time ⟨-62135596800, 0⟩)]

/-- the groups, `/repo/go/tricorder/setup.go:24,45` -/
def memStatsGroup : ℕ := 1
/-- `/repo/go/tricorder/setup.go:45` -/
def resourceUsageGroup : ℕ := 2

/-- the callback `countOpenFileDescriptors`, `/repo/go/tricorder/setup.go:181-192`, is function number 0 -/
def fdFn : ℕ := 0

/-- arguments of a call of `RegisterMetricInGroup`; `/repo/go/tricorder/api.go:133-141` -/
structure Reg where
  path : Str
  spec : RegSpec
  group : ℕ
  unit : MUnit
  description : Str
deriving DecidableEq, Repr

/-- the registrations, `/repo/go/tricorder/setup.go:33-171`; `RegisterMetric` uses the default group, number 0 -/
def defaultRegs (hasFds : Bool) : List Reg :=
  [⟨lit "/proc/memory/total", .ptr vTotalMemory, memStatsGroup, .byte,
      lit "System memory currently allocated to process"⟩,
    ⟨lit "/proc/cpu/user", .ptr vUserTime, resourceUsageGroup, .second, lit "User CPU time used"⟩,
    ⟨lit "/proc/cpu/sys", .ptr vSysTime, resourceUsageGroup, .second, lit "User CPU time used"⟩,
    ⟨lit "/proc/go/num-goroutines", .ptr vNumGoroutines, resourceUsageGroup, .none, lit "Number of goroutines"⟩,
    ⟨lit "/proc/go/version", .ptr vGoVersion, 0, .none, lit "Version of Go runtime"⟩,
    ⟨lit "/proc/memory/max-resident-set-size", .ptr vMaxResident, resourceUsageGroup, .byte,
      lit "Maximum resident set size"⟩,
    ⟨lit "/proc/memory/shared", .ptr vIxrss, resourceUsageGroup, .byte, lit "Integral shared memory size"⟩,
    ⟨lit "/proc/memory/unshared-data", .ptr vIdrss, resourceUsageGroup, .byte, lit "Integral unshared data size"⟩,
    ⟨lit "/proc/memory/unshared-stack", .ptr vIsrss, resourceUsageGroup, .byte, lit "Integral unshared stack size"⟩,
    ⟨lit "/proc/memory/soft-page-fault", .ptr vMinflt, resourceUsageGroup, .none, lit "Soft page faults"⟩,
    ⟨lit "/proc/memory/hard-page-fault", .ptr vMajflt, resourceUsageGroup, .none, lit "Hard page faults"⟩,
    ⟨lit "/proc/memory/swaps", .ptr vNswap, resourceUsageGroup, .none, lit "Swaps"⟩,
    ⟨lit "/proc/io/input", .ptr vInblock, resourceUsageGroup, .none, lit "Block input operations"⟩] ++
  (if hasFds then
    [⟨lit "/proc/io/num-open-file-descriptors", .func 1 fdFn, 0, .none, lit "Number of open file descriptors"⟩]
    else []) ++
  [⟨lit "/proc/io/output", .ptr vOublock, resourceUsageGroup, .none, lit "Block output operations"⟩,
    ⟨lit "/proc/ipc/sent", .ptr vMsgsnd, resourceUsageGroup, .none, lit "IPC messages sent"⟩,
    ⟨lit "/proc/ipc/received", .ptr vMsgrcv, resourceUsageGroup, .none, lit "IPC messages received"⟩,
    ⟨lit "/proc/signals/received", .ptr vNsignals, resourceUsageGroup, .none, lit "Signals received"⟩,
    ⟨lit "/proc/scheduler/involuntary-switches", .ptr vNivcsw, resourceUsageGroup, .none,
      lit "Involuntary context switches"⟩,
    ⟨lit "/proc/scheduler/voluntary-switches", .ptr vNvcsw, resourceUsageGroup, .none,
      lit "Voluntary context switches"⟩,
    ⟨lit "/proc/name", .ptr vName, 0, .none, lit "Program name"⟩,
    ⟨lit "/proc/args", .ptr vArgs, 0, .none, lit "Program args"⟩,
    ⟨lit "/proc/start-time", .ptr vStart, 0, .none, lit "Program start time"⟩]

/-- calls of `RegisterMetricInGroup` one after the other, errors ignored; `/repo/go/tricorder/setup.go:33-170` -/
def registerList (fnTy : ℕ → GoTy) : List Reg → Prog (Out Unit)
  | [] => .ret (.ok ())
  | r :: rs => (apiRegisterMetric fnTy 0 r.path r.spec (some r.group) r.unit r.description).bind fun
    | .panic => .ret .panic
    | .ok _ => registerList fnTy rs

/-- make variables; `/repo/go/tricorder/setup.go:23,39-44` -/
def newVars : List Dyn → Prog Unit
  | [] => .ret ()
  | d :: ds => .op (.newVar d) fun _ => newVars ds

/-- `initDefaultMetrics`, `/repo/go/tricorder/setup.go:21-171`, and the only statement of `initHttpFramework` that
matters for metrics, `/repo/go/tricorder/http.go:78`: `now` is put in `appStartTime`.  The groups are made first. -/
def initDefaultMetrics (fnTy : ℕ → GoTy) (p : Proc) (now : Time) : Prog (Out Unit) :=
  (newVars (defaultVars p)).bind fun _ =>
    .op .newRegion fun _ =>
      .op .newRegion fun _ =>
        (registerList fnTy (defaultRegs p.hasFds)).bind fun
          | .panic => .ret .panic
          | .ok _ => .op (.writeVar vStart (.scalar none (.time now))) fun _ => .ret (.ok ())

/-! ### the update functions -/

/-- assignments one after the other; `/repo/go/tricorder/setup.go:47-51` -/
def writeVars : List (ℕ × Dyn) → Prog Unit
  | [] => .ret ()
  | (v, d) :: rest => .op (.writeVar v d) fun _ => writeVars rest

/-- the `int64` in a variable; the type of a variable cannot change; `/repo/go/tricorder/setup.go:49-51` -/
def int64Of : Option Dyn → ℤ
  | some (.scalar _ (.int _ x)) => x
  | _ => 0

/-- read a record `Timeval`; `/repo/go/tricorder/setup.go:49-50` -/
def readTimeval (vSec vUsec : ℕ) : Prog Timeval :=
  .op (.readVar vSec) fun a => .op (.readVar vUsec) fun b => .ret ⟨int64Of a, int64Of b⟩

/-- the record counts memory in units of 1024 bytes on Linux (`<< 10`,
`/repo/go/tricorder/wrapper/syscall_linux.go:40-42`) and in bytes on Darwin
(`/repo/go/tricorder/wrapper/syscall_darwin.go:40-42`) -/
def rssUnit (linux : Bool) : ℤ := if linux then 1024 else 1

/-- the assignments of `Getrusage`, `/repo/go/tricorder/wrapper/syscall_linux.go:31-54`: `k` is the answer of the kernel.
`Isrss` is not assigned. -/
def rusageWrites (linux : Bool) (k : Rusage) : List (ℕ × Dyn) :=
  [(vUtimeSec, int64Var (i64 k.utime.sec)), (vUtimeUsec, int64Var (i64 k.utime.usec)),
    (vStimeSec, int64Var (i64 k.stime.sec)), (vStimeUsec, int64Var (i64 k.stime.usec)),
    (vMaxrss, int64Var (i64 (k.maxrss * rssUnit linux))), (vIxrss, int64Var (i64 (k.ixrss * rssUnit linux))),
    (vIdrss, int64Var (i64 (k.idrss * rssUnit linux))),
    (vMinflt, int64Var (i64 k.minflt)), (vMajflt, int64Var (i64 k.majflt)), (vNswap, int64Var (i64 k.nswap)),
    (vInblock, int64Var (i64 k.inblock)), (vOublock, int64Var (i64 k.oublock)), (vMsgsnd, int64Var (i64 k.msgsnd)),
    (vMsgrcv, int64Var (i64 k.msgrcv)), (vNsignals, int64Var (i64 k.nsignals)), (vNvcsw, int64Var (i64 k.nvcsw)),
    (vNivcsw, int64Var (i64 k.nivcsw))]

/-- `Getrusage`, `/repo/go/tricorder/wrapper/syscall_linux.go:31-54`, on the variables; `none` is an error of the system
call, which the caller ignores, `/repo/go/tricorder/setup.go:48` -/
def getrusage (linux : Bool) : Option Rusage → Prog Unit
  | none => .ret ()
  | some k => writeVars (rusageWrites linux k)

/-- the update function of `resourceUsageGroup`, `/repo/go/tricorder/setup.go:46-53`: `n` is `runtime.NumGoroutine()`,
`k` the answer of the kernel -/
def updateUsage (linux : Bool) (n : ℤ) (k : Option Rusage) : Prog Unit :=
  .op (.writeVar vNumGoroutines (.scalar none (.int .int n))) fun _ =>
    (getrusage linux k).bind fun _ =>
      (readTimeval vUtimeSec vUtimeUsec).bind fun u =>
        .op (.writeVar vUserTime (.scalar none (.duration (timeValToDuration u)))) fun _ =>
          (readTimeval vStimeSec vStimeUsec).bind fun t =>
            .op (.writeVar vSysTime (.scalar none (.duration (timeValToDuration t)))) fun _ =>
              .op (.readVar vMaxrss) fun m =>
                .op (.writeVar vMaxResident (int64Var (int64Of m))) fun _ => .ret ()

/-- the update function of `memStatsGroup`, `/repo/go/tricorder/setup.go:25-32`, with the two fields of
`runtime.MemStats` -/
def updateMemory (sys heapReleased : ℕ) : Prog Unit :=
  if heapReleased ≤ sys then
    .op (.writeVar vTotalMemory (.scalar none (.int .uint64 (sys - heapReleased : ℕ)))) fun _ => .ret ()
  else .ret ()

/-! ### flags -/

/-- a `flag.Flag`: `f.Value` is flag number `g`, which may or may not implement `flag.Getter`;
`/repo/go/tricorder/metric.go:1766-1778` -/
structure Flag where
  name : Str
  usage : Str
  g : ℕ
  getter : Bool
deriving DecidableEq, Repr

/-- the map `flagUnits`, `/repo/go/tricorder/metric.go:68` -/
abbrev FlagUnits := List (Str × MUnit)

/-- `setFlagUnit`, `/repo/go/tricorder/metric.go:1780-1782` -/
def setFlagUnit (u : FlagUnits) (name : Str) (unit : MUnit) : FlagUnits := (name, unit) :: u

/-- `defaultUnit`, `/repo/go/tricorder/metric.go:1784-1791` -/
def defaultUnit : Dyn → MUnit
  | .scalar none (.duration _) => .second
  | _ => .none

/-- `flagUnit`, `/repo/go/tricorder/metric.go:1793-1798`, with `toFlagGetter`, `/repo/go/tricorder/metric.go:1758-1764`:
`Get` of a flag that has none returns `String()` -/
def flagUnit (u : FlagUnits) (f : Flag) : Prog (Out MUnit) :=
  match u.lookup f.name with
  | some unit => .ret (.ok unit)
  | none =>
    if f.getter then .op (.callFlagGet f.g) fun
      | none => .ret .panic
      | some d => .ret (.ok (defaultUnit d))
    else .op (.callFlagString f.g) fun
      | none => .ret .panic
      | some s => .ret (.ok (defaultUnit (.scalar none (.string s))))

/-- the calls of the function given to `flag.VisitAll`, `/repo/go/tricorder/metric.go:1771-1777`, for the flags in the
order in which `VisitAll` visits them; errors are ignored -/
def registerFlagsIn (fnTy : ℕ → GoTy) (u : FlagUnits) (d : ℕ) : List Flag → Prog (Out Unit)
  | [] => .ret (.ok ())
  | f :: fs => (flagUnit u f).bind fun
    | .panic => .ret .panic
    | .ok unit =>
      (apiRegisterMetric fnTy d f.name (.flag f.g f.getter) (some 0) unit f.usage).bind fun
        | .panic => .ret .panic
        | .ok _ => registerFlagsIn fnTy u d fs

/-- `registerFlags`, `/repo/go/tricorder/metric.go:1766-1778` -/
def registerFlags (fnTy : ℕ → GoTy) (u : FlagUnits) (fs : List Flag) : Prog (Out Unit) :=
  (apiRegisterDirectory 0 (lit "/proc/flags")).bind fun
    | .error _ => .ret .panic
    | .ok d => registerFlagsIn fnTy u d fs

end Tricorder
