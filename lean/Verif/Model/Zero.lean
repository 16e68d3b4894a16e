import Verif.Model.Group
import Verif.Model.Dist
import Verif.Model.Registry
/-!
# Objects that no constructor made

`Group`, `List`, `DirectorySpec`, `Bucketer` and the distributions are exported types
(`/repo/go/tricorder/api.go:60,151-153,216,229,309,355`).  A program can declare variables of them, `var g tricorder.Group`,
without calling `NewGroup` and the like, and pass pointers to them.  All fields have their zero values: the channels of a
group are nil and no goroutine serves them; the map of a directory is nil; the slice of a list is the zero
`reflect.Value`; a distribution has no ranges.
-/

namespace Tricorder.Zero
open Go

/-! ### Groups -/

section
variable {τ : Type} [Inhabited τ]

/-- `var g Group`, `/repo/go/tricorder/api.go:60`: the zero `region`, `/repo/go/tricorder/metric.go:119-132`.  Nothing is
ever sent or received on a nil channel, and there is no event loop; a loop that has ended is the same to the rest of the
machine. -/
def zeroGroup : Group.Region τ := ⟨0, 0, 0, default, .crashed⟩

/-- events: those of the machine, and the declaration of a group; notation of the model, for
`/repo/go/tricorder/api.go:60` -/
inductive ZEv (τ : Type) where
  | declared (r : ℕ)
  | ev (e : Group.Ev τ)

/-- one step of the machine, or the declaration of a group: no goroutine is started and no id taken;
`/repo/go/tricorder/metric.go:119-146` -/
inductive ZStep : Group.State τ → List (ZEv τ) → Group.State τ → Prop where
  | declare (s : Group.State τ) : ZStep s [.declared s.regions.length] { s with regions := s.regions ++ [zeroGroup] }
  | step {s s' : Group.State τ} {es : List (Group.Ev τ)} : Group.Step s es s' → ZStep s (es.map .ev) s'

/-- runs; notation of the model: interleavings of the steps of `/repo/go/tricorder/metric.go:38-202` -/
inductive ZRun (s0 : Group.State τ) : List (ZEv τ) → Group.State τ → Prop where
  | nil : ZRun s0 [] s0
  | snoc {tr s es s'} : ZRun s0 tr s → ZStep s es s' → ZRun s0 (tr ++ es) s'

end

/-! ### Distributions and bucketers -/

/-- `var d CumulativeDistribution` (`nc` is false), `var d NonCumulativeDistribution` (also false: the zero `distribution`),
`/repo/go/tricorder/api.go:216,229`, `/repo/go/tricorder/metric.go:326-341`; `zero` is the zero `time.Time` -/
def zeroDist (zero : Time) : Dist Fl :=
  { pieces := [], isNotCumulative := false, groupId := 0, unit := .unknown, unitSet := false, counts := [],
    total := Arith.lit 0, min := Arith.lit 0, max := Arith.lit 0, count := 0, generation := 0, timeStamp := zero }

/-- `var b Bucketer`, `/repo/go/tricorder/api.go:151-153` -/
def zeroBucketer : List (Piece Fl) := []

/-! ### Lists -/

/-- `listType`, `/repo/go/tricorder/metric.go:595-601`, that may not have been made by `NewList`: an element type of `none` is
the empty string, a slice of `none` the zero `reflect.Value` -/
structure ZList where
  groupId : ℕ
  subType : Option Ty
  slice : Option (List Base)
  timeStamp : Time
deriving DecidableEq

/-- `var l List`, `/repo/go/tricorder/api.go:309` -/
def zeroList (zero : Time) : ZList := ⟨0, none, none, zero⟩

/-- what `ChangeWithTimeStamp` made of its argument, `asSliceValue`, `/repo/go/tricorder/metric.go:648-666`: a panic, or the
elements and their type -/
abbrev Slice := Option (List Base × Ty)

/-- `ChangeWithTimeStamp`, `/repo/go/tricorder/metric.go:680-692`; the result is whether it returned, without a panic -/
def ZList.change (l : ZList) (a : Slice) (ts : Time) : ZList × Bool :=
  match a with
  | none => (l, false)
  | some (xs, t) => if some t ≠ l.subType then (l, false) else ({ l with slice := some xs, timeStamp := ts }, true)

/-- `get` and what every reader does with it, `Len` or `Interface`, `/repo/go/tricorder/metric.go:694-724`: both panic
(`none`) for the zero `reflect.Value` -/
def ZList.read (l : ZList) : Option (List Base × Time) := l.slice.map fun xs => (xs, l.timeStamp)

/-! ### Directories -/

/-- the map of a directory that may be nil; reading a nil map finds nothing, `delete` of it does nothing, storing in it
panics.  `E` stands for the entries; `/repo/go/tricorder/metric.go:1461-1466` -/
abbrev ZMap (E : Type) := Option (List (Str × E))

/-- `getListEntry`, `/repo/go/tricorder/metric.go:1594-1598` -/
def ZMap.get {E : Type} (m : ZMap E) (name : Str) : Option E := (m.getD []).lookup name

/-- the result of a call that can panic; `/repo/go/tricorder/metric.go:1659-1695` -/
inductive Res (α : Type) where
  | ok (a : α)
  | err (e : RegErr)
  | panic
deriving DecidableEq

/-- what an entry is; `/repo/go/tricorder/metric.go:1415-1423` -/
inductive ZEntry (D : Type) where
  | dir (d : D)
  | metric
deriving DecidableEq

/-- `GetDirectory` of the public interface, `/repo/go/tricorder/metric.go:1615-1629`, up to the first name; `below` is what is
found from the directory of that name on, `self` the directory itself -/
def getDir {D : Type} (m : ZMap (ZEntry D)) (self : D) (below : D → List Str → Res D) : List Str → Res D
  | [] => .ok self
  | p :: rest => match m.get p with
    | none => .err .notFound
    | some .metric => .err .pathInUse
    | some (.dir d) => below d rest

/-- `createDirIfNeeded`, `/repo/go/tricorder/metric.go:1659-1681`; `fresh` is the new directory -/
def createDir {D : Type} (m : ZMap (ZEntry D)) (fresh : D) (name : Str) : ZMap (ZEntry D) × Res D :=
  match m.get name with
  | none => match m with
    | none => (none, .panic)
    | some c => (some ((name, .dir fresh) :: c), .ok fresh)
  | some (.dir d) => (m, .ok d)
  | some .metric => (m, .err .pathInUse)

/-- `storeMetric`, `/repo/go/tricorder/metric.go:1683-1695` -/
def storeMetric {D : Type} (m : ZMap (ZEntry D)) (name : Str) : ZMap (ZEntry D) × Res Unit :=
  match m.get name with
  | some _ => (m, .err .pathInUse)
  | none => match m with
    | none => (none, .panic)
    | some c => (some ((name, .metric) :: c), .ok ())

/-- `removeListEntry`, `/repo/go/tricorder/metric.go:1600-1604` -/
def remove {D : Type} (m : ZMap (ZEntry D)) (name : Str) : ZMap (ZEntry D) :=
  m.map fun c => c.filter fun x => decide (x.1 ≠ name)

/-- `registerDirectory`, `/repo/go/tricorder/metric.go:1697-1707`, up to the first name; `below` goes on from the directory of
that name -/
def registerDir {D : Type} (m : ZMap (ZEntry D)) (self fresh : D) (below : D → List Str → Res D) :
    List Str → ZMap (ZEntry D) × Res D
  | [] => (m, .ok self)
  | p :: rest => match createDir m fresh p with
    | (m', .ok d) => (m', below d rest)
    | (m', .err e) => (m', .err e)
    | (m', .panic) => (m', .panic)

/-- `registerMetric`, `/repo/go/tricorder/metric.go:1709-1730`, on a directory; `value` is what `newValue` does with the metric,
`there` what `storeMetric` does in a directory below -/
def registerMetric {D : Type} (m : ZMap (ZEntry D)) (self fresh : D) (below : D → List Str → Res D) (value : Res Unit)
    (there : D → Str → Res Unit) (path : List Str) : ZMap (ZEntry D) × Res Unit :=
  match path.getLast? with
  | none => (m, .err .pathInUse)
  | some base => match path.dropLast with
    | [] => match value with
      | .ok _ => storeMetric m base
      | .err e => (m, .err e)
      | .panic => (m, .panic)
    | p :: ps => match registerDir m self fresh below (p :: ps) with
      | (m', .err e) => (m', .err e)
      | (m', .panic) => (m', .panic)
      | (m', .ok d) => match value with
        | .ok _ => (m', there d base)
        | .err e => (m', .err e)
        | .panic => (m', .panic)

/-- `unregisterPath`, `/repo/go/tricorder/metric.go:1739-1748`, as far as it concerns the map of the directory itself -/
def unregisterPath {D : Type} (m : ZMap (ZEntry D)) (path : List Str) : ZMap (ZEntry D) :=
  match path with
  | [name] => remove m name
  | _ => m

end Tricorder.Zero
