import Verif.Model.Demo
import Verif.Spec.Path
import Verif.Spec.Setup
/-!
# The demo program: what it should show
-/

namespace Tricorder.Spec
open Go

/-- the callbacks of the demo program: their types and what they return -/
structure IsDemo (w : World) : Prop where
  countTy : w.fnTy Demo.rpcCountFn = .scalar ⟨none, .int .uint64⟩
  bazTy : w.fnTy Demo.bazFn = .scalar ⟨none, .float64⟩
  count : ∀ s, w.fn s Demo.rpcCountFn = some Demo.rpcCountCallback
  baz : ∀ s, w.fn s Demo.bazFn = some Demo.bazCallback

/-- the paths of the demo program -/
def demoPaths : List Str :=
  [lit "/list/squares", lit "/proc/rpc-latency", lit "/proc/rpc-count", lit "/proc/temperature", lit "/proc/duration",
    lit "/proc/foo/bar/baz", lit "/proc/foo/bar/abool"]

/-- one range of a distribution with its count: lower end, upper end, count -/
def between (lo hi : ℚ) (n : ℕ) : RangeMsg := ⟨.fin lo, .fin hi, n⟩

/-- what `/proc/rpc-latency` reports: the values 0, …, 499.  The median is interpolated, about 249.749;
the middle of the values is 249.5. -/
def demoLatency : DistMsg :=
  ⟨.fin 0, .fin 499, .fin (499 / 2), .fin (4393637496895861 / 2 ^ 44), .fin 124750, 500, 500, false,
    [between 0 1 1, between 1 10 9, between 10 100 90, between 100 1000 400, between 1000 10000 0,
      between 10000 100000 0, between 100000 0 0]⟩

/-- the first `k` squares -/
def squaresVal (k : ℕ) : Val :=
  .slice none ⟨none, .int .int64⟩ (some ((List.range k).map fun j => .int .int64 ((j + 1) ^ 2 : ℕ)))

/-- no other goroutine writes a slice the program made, or changes list `l` -/
def Alone (l : ℕ) (h : List Ev) : Prop :=
  ∀ e ∈ h, e.own = false → (∀ a m ts, e.cmd ≠ .changeList l a m ts) ∧
    ∀ c j b, e.cmd = .writeSlice c j b → ∀ e' ∈ h, e'.own = true → ∀ x, e'.cmd = .newSlice x → e'.pre.mem.length ≠ c

end Tricorder.Spec
