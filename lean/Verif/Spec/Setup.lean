import Verif.Model.Setup
import Verif.Spec.Kinds
/-!
# Start-up: what the default metrics and the flags should be
-/

namespace Tricorder.Spec
open Go

/-- nothing below directory `d` stands in the way of a metric with path `c` -/
def Clear (t : Tree MValue) (d : ℕ) (c : List Str) : Prop :=
  (∀ u m, u <+: c → u ≠ c → ¬ Reaches t d u (.metric m)) ∧ ∀ n, ¬ Reaches t d c n

/-- registering `p` does not get in the way of `c`: neither path is inside the other -/
def Apart (p c : List Str) : Prop := p = [] ∨ ¬ p <+: c ∧ ¬ c <+: p

/-- bytes in a unit of the memory fields of the kernel's record -/
def kernelUnit (linux : Bool) : ℤ := if linux then 1024 else 1

/-- all fields are within `int64`, also after the conversions: memory to bytes, times to nanoseconds -/
def InRange (k : Rusage) (linux : Bool) : Prop :=
  (0 ≤ k.utime.sec ∧ k.utime.sec ≤ 9000000000 ∧ 0 ≤ k.utime.usec ∧ k.utime.usec < 1000000) ∧
  (0 ≤ k.stime.sec ∧ k.stime.sec ≤ 9000000000 ∧ 0 ≤ k.stime.usec ∧ k.stime.usec < 1000000) ∧
  ∀ x ∈ [k.maxrss * kernelUnit linux, k.ixrss * kernelUnit linux, k.idrss * kernelUnit linux, k.minflt, k.majflt,
    k.nswap, k.inblock, k.oublock, k.msgsnd, k.msgrcv, k.nsignals, k.nvcsw, k.nivcsw], -2 ^ 63 ≤ x ∧ x < 2 ^ 63

/-- an `int64` as reported -/
def int64Val (x : ℤ) : Val := .scalar none (.int .int64 x)

/-- The metrics that report fields of the kernel's record, other than CPU times: path, unit, value.  Missing:
`/proc/memory/unshared-stack`. -/
def usageTable (linux : Bool) (k : Rusage) : List (Str × MUnit × Val) :=
  [(lit "/proc/memory/max-resident-set-size", .byte, int64Val (k.maxrss * kernelUnit linux)),
    (lit "/proc/memory/shared", .byte, int64Val (k.ixrss * kernelUnit linux)),
    (lit "/proc/memory/unshared-data", .byte, int64Val (k.idrss * kernelUnit linux)),
    (lit "/proc/memory/soft-page-fault", .none, int64Val k.minflt),
    (lit "/proc/memory/hard-page-fault", .none, int64Val k.majflt),
    (lit "/proc/memory/swaps", .none, int64Val k.nswap),
    (lit "/proc/io/input", .none, int64Val k.inblock),
    (lit "/proc/io/output", .none, int64Val k.oublock),
    (lit "/proc/ipc/sent", .none, int64Val k.msgsnd),
    (lit "/proc/ipc/received", .none, int64Val k.msgrcv),
    (lit "/proc/signals/received", .none, int64Val k.nsignals),
    (lit "/proc/scheduler/involuntary-switches", .none, int64Val k.nivcsw),
    (lit "/proc/scheduler/voluntary-switches", .none, int64Val k.nvcsw)]

/-- the CPU metrics: path, time in the record -/
def cpuTable (k : Rusage) : List (Str × Timeval) :=
  [(lit "/proc/cpu/user", k.utime), (lit "/proc/cpu/sys", k.stime)]

/-- the table "Default Metrics" of `/repo/design-docs/LightweightMetricsPublishingAndCollection/README.md`; the flag says
whether the library has a metric with that path -/
def designTable : List (Str × Bool) :=
  [(lit "/proc/memory/total", true), (lit "/proc/cpu/user", true), (lit "/proc/cpu/sys", true),
    (lit "/proc/memory/max-set-size", false), (lit "/proc/memory/shared", true), (lit "/proc/memory/unshared-data", true),
    (lit "/proc/memory/unshared-stack", true), (lit "/proc/memory/soft-page-faults", false),
    (lit "/proc/memory/hard-page-faults", false), (lit "/proc/memory/swaps", true), (lit "/proc/io/input", true),
    (lit "/proc/io/output", true), (lit "/proc/ipc/sent", true), (lit "/proc/ipc/received", true),
    (lit "/proc/signals/received", true), (lit "/proc/scheduler/voluntary-switches", true),
    (lit "/proc/scheduler/involuntary-switches", true)]

/-- a time of the kernel in nanoseconds -/
def nanos (t : Timeval) : ℤ := t.sec * 1000000000 + t.usec * 1000

/-- none of the steps writes one of the variables -/
def NoWrite (S : ℕ → Prop) (h : List Ev) : Prop := ∀ e ∈ h, ∀ v d, e.cmd = .writeVar v d → ¬ S v

/-- steps of other goroutines, any number of them, from `s` to `s'` -/
def Others (w : World) (s : State) (h : List Ev) (s' : State) : Prop := RunI w (.ret ()) s h s' ()

/-- `GetMetric(path)` reports the value `x` with this unit, description and group id -/
def GetTells (w : World) (s : State) (path : Str) (x : Val) (u : MUnit) (desc : Str) (gid : ℕ) : Prop :=
  ∃ y, (getMetricMsg false path).run w s = (s, some (.ok y)) ∧ y.value = x ∧ y.unit = u ∧ y.description = desc ∧
    y.groupId = gid

/-- the variables of the resource usage group -/
def UsageVar (v : ℕ) : Prop := vNumGoroutines ≤ v ∧ v ≤ vNivcsw

/-! ### flags -/

/-- the dynamic type of what `Get` returns; a flag without `Get` stands for its string.  None if `Get` returns nil or
panics. -/
def flagTy (w : World) (σ : State) (f : Flag) : Option GoTy :=
  if f.getter then (w.flagGet σ f.g).bind Dyn.ty
  else (w.flagString σ f.g).map fun _ => .scalar ⟨none, .string⟩

/-- the unit of a flag: as set, or else seconds for a duration -/
def flagUnitOf (u : FlagUnits) (f : Flag) (ty : GoTy) : MUnit :=
  match u.lookup f.name with
  | some unit => unit
  | none => if ty = .scalar ⟨none, .duration⟩ then .second else .none

/-- `v` reports the flag `f`, as it should if `Get` returns a value of type `ty`: with the metric type of that type if
there is one, or else as a string -/
def ReportsFlag (v : MValue) (f : Flag) (ty : GoTy) : Prop :=
  v.dist = none ∧ v.alist = none ∧ v.region = some 0 ∧
  match metricType ty with
  | none => v.src = some (.flagString f.g) ∧ v.valType = .string ∧ v.isPtr = false
  | some (t, p) => v.src = some (if f.getter then .flagGet f.g else .flagString f.g) ∧ v.valType = t ∧ v.isPtr = p

/-- only the directory tree may differ -/
def SameButTree (s σ : State) : Prop := σ = { s with tree := σ.tree }

/-- the flag is registered under `c` -/
def FlagIn (w : World) (s : State) (u : FlagUnits) (f : Flag) (t : Tree MValue) (d : ℕ) (c : List Str) : Prop :=
  ∃ m mo, Reaches t d c (.metric m) ∧ t.metrics[m]? = some mo ∧ mo.description = f.usage ∧
    ∃ σ τ ty ty', SameButTree s σ ∧ flagTy w σ f = some ty ∧ mo.value.unit = flagUnitOf u f ty ∧
      SameButTree s τ ∧ flagTy w τ f = some ty' ∧ ReportsFlag mo.value f ty'

/-- what the flag stands for now, if `Get` returns a value of type `ty`: the value of `Get` if there is such a method
and its type is a metric type, or else the flag as a string -/
def flagNow (w : World) (σ : State) (f : Flag) (ty : GoTy) : Option Dyn :=
  if f.getter ∧ metricType ty ≠ none then w.flagGet σ f.g
  else (w.flagString σ f.g).map fun s => .scalar none (.string s)

end Tricorder.Spec
