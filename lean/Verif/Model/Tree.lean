import Mathlib.Data.List.Sort
import Verif.Model.Path
import Mathlib.Data.Nat.Notation
/-!
# The directory tree

The heap of `directory`, `listEntry` and `metric` objects (go/tricorder/metric.go).  Pointers are
indices into append-only lists; `V` is the type of metric values (`*value`).  A Go map is an
association list; the order in which a map is iterated is arbitrary and is added in
`Verif/Model/Sys.lean`.  Each method that runs under the directory's lock is one function here, and
one atomic step of the system.  Directory index 0 is `root`, `/repo/go/tricorder/metric.go:33`.
-/

namespace Tricorder
open Go

/-- `listEntry`, `/repo/go/tricorder/metric.go:1415-1423`; the two pointers of the Go struct are kept
apart, that exactly one is set is a theorem -/
structure Entry where
  name : Str
  metric : Option ℕ
  dir : Option ℕ
  parent : Option ℕ
deriving DecidableEq, Repr

/-- `directory`, `/repo/go/tricorder/metric.go:1461-1466` -/
structure Dir where
  enclosing : Option ℕ
  contents : List (Str × ℕ)
deriving DecidableEq, Repr

/-- `metric`, `/repo/go/tricorder/metric.go:1373-1379` -/
structure MetricObj (V : Type) where
  description : Str
  value : V
  enclosing : ℕ
deriving DecidableEq, Repr

/-- all objects ever created, reachable from `root` or not; `/repo/go/tricorder/metric.go:33,1461-1470` -/
structure Tree (V : Type) where
  dirs : List Dir
  entries : List Entry
  metrics : List (MetricObj V)
deriving DecidableEq, Repr

/-- the errors of the registration interface, `/repo/go/tricorder/api.go:17-26` -/
inductive RegErr where
  | pathInUse | notFound | wrongType | wrongUnit
deriving DecidableEq, Repr

variable {V : Type}

namespace Tree

/-- only `root`, `newDirectory()` (`/repo/go/tricorder/metric.go:33`, `/repo/go/tricorder/metric.go:1468-1470`) -/
def init (V : Type) : Tree V := ⟨[⟨none, []⟩], [], []⟩

/-- `d.contents`; `/repo/go/tricorder/metric.go:1465` -/
def contents (t : Tree V) (d : ℕ) : List (Str × ℕ) :=
  match t.dirs[d]? with
  | some x => x.contents
  | none => []

/-- `d.enclosingListEntry`; `/repo/go/tricorder/metric.go:1462` -/
def enclosing (t : Tree V) (d : ℕ) : Option ℕ :=
  match t.dirs[d]? with
  | some x => x.enclosing
  | none => none

/-- replace the map of directory `d`; `/repo/go/tricorder/metric.go:1461-1466` -/
def setContents (t : Tree V) (d : ℕ) (c : List (Str × ℕ)) : Tree V :=
  { t with dirs := t.dirs.modify d fun x => { x with contents := c } }

/-- `delete(contents, name)`; `/repo/go/tricorder/metric.go:1600-1604` -/
def erase (c : List (Str × ℕ)) (name : Str) : List (Str × ℕ) :=
  c.filter fun x => decide (x.1 ≠ name)

/-- `getListEntry`, `/repo/go/tricorder/metric.go:1594-1598` -/
def getEntry (t : Tree V) (d : ℕ) (name : Str) : Option ℕ := (t.contents d).lookup name

/-- `removeListEntry`, `/repo/go/tricorder/metric.go:1600-1604` -/
def removeEntry (t : Tree V) (d : ℕ) (name : Str) : Tree V :=
  t.setContents d (erase (t.contents d) name)

/-- `listEntry.parentDir`, `/repo/go/tricorder/metric.go:1425-1430` -/
def parentDir (t : Tree V) (e : Entry) : Option ℕ :=
  match e.parent with
  | none => some 0
  | some p => match t.entries[p]? with
    | some pe => pe.dir
    | none => none

/-- `directory.Parent`, `/repo/go/tricorder/metric.go:1484-1489`; `none` is nil -/
def parent (t : Tree V) (d : ℕ) : Option ℕ :=
  match t.enclosing d with
  | none => none
  | some e => match t.entries[e]? with
    | some en => t.parentDir en
    | none => none

/-- `removeChildDirectory`, `/repo/go/tricorder/metric.go:1606-1613`: compares the entry pointers -/
def removeChild (t : Tree V) (d child : ℕ) : Tree V :=
  match t.enclosing child with
  | none => t
  | some e => match t.entries[e]? with
    | none => t
    | some en =>
      if t.getEntry d en.name = some e then t.setContents d (erase (t.contents d) en.name) else t

/-- `unregisterDirectory`, `/repo/go/tricorder/metric.go:1732-1737`.  The fields read by `IsRoot` and
`Parent` never change once the directory exists, so the method is one atomic step. -/
def unregisterDir (t : Tree V) (d : ℕ) : Tree V :=
  match t.enclosing d with
  | none => t
  | some _ => match t.parent d with
    | none => t
    | some p => t.removeChild p d

/-- `createDirIfNeeded`, `/repo/go/tricorder/metric.go:1659-1681` -/
def createDir (t : Tree V) (d : ℕ) (name : Str) : Tree V × Except RegErr ℕ :=
  match t.getEntry d name with
  | none =>
    let newDir := t.dirs.length
    let newEntry := t.entries.length
    let e : Entry := ⟨name, none, some newDir, t.enclosing d⟩
    let t' : Tree V := { t with
      dirs := t.dirs ++ [⟨some newEntry, []⟩]
      entries := t.entries ++ [e] }
    (t'.setContents d ((name, newEntry) :: t.contents d), .ok newDir)
  | some n => match t.entries[n]? with
    | some ⟨_, _, some dir, _⟩ => (t, .ok dir)
    | _ => (t, .error .pathInUse)

/-- `storeMetric`, `/repo/go/tricorder/metric.go:1683-1695` with the allocation of the `metric` object by
its caller, `/repo/go/tricorder/metric.go:1726-1728`; the metric's index is returned -/
def storeMetric (t : Tree V) (d : ℕ) (name description : Str) (value : V) :
    Tree V × Except RegErr ℕ :=
  match t.getEntry d name with
  | some _ => (t, .error .pathInUse)
  | none =>
    let newMetric := t.metrics.length
    let newEntry := t.entries.length
    let e : Entry := ⟨name, some newMetric, none, t.enclosing d⟩
    let t' : Tree V := { t with
      metrics := t.metrics ++ [⟨description, value, newEntry⟩]
      entries := t.entries ++ [e] }
    (t'.setContents d ((name, newEntry) :: t.contents d), .ok newMetric)

/-- the loop of `pathFrom`, `/repo/go/tricorder/metric.go:1436-1438`, the names from the entry upwards; the
loop stops at nil or at `stop` and reports where it stopped.  `none`: fuel used up, impossible by
`pathUp_total`. -/
def pathUp (t : Tree V) (stop : Option ℕ) : ℕ → Option ℕ → Option (List Str × Option ℕ)
  | 0, _ => none
  | fuel + 1, current =>
    if current = none ∨ current = stop then some ([], current)
    else match current with
      | none => some ([], none)
      | some e => match t.entries[e]? with
        | none => none
        | some en => match pathUp t stop fuel en.parent with
          | none => none
          | some (names, c) => some (en.name :: names, c)

/-- `pathFrom`, `/repo/go/tricorder/metric.go:1432-1447`; the swap loop reverses the names -/
def pathFrom (t : Tree V) (e : Option ℕ) (fromDir : ℕ) : Option (List Str) :=
  match t.pathUp (t.enclosing fromDir) (t.entries.length + 1) e with
  | none => none
  | some (names, c) => if c ≠ t.enclosing fromDir then some [] else some names.reverse

/-- `listEntry.absPath`, `/repo/go/tricorder/metric.go:1449-1451`; a nil receiver is the root -/
def absPath (t : Tree V) (e : Option ℕ) : Option Str :=
  (t.pathFrom e 0).map fun p => 47 :: pathString p

/-- `directory.AbsPath`, `/repo/go/tricorder/metric.go:1478-1480` -/
def dirAbsPath (t : Tree V) (d : ℕ) : Option Str := t.absPath (t.enclosing d)

/-- `metric.AbsPath`, `/repo/go/tricorder/metric.go:1382-1384` -/
def metricAbsPath (t : Tree V) (m : ℕ) : Option Str :=
  match t.metrics[m]? with
  | none => none
  | some x => t.absPath (some x.enclosing)

end Tree

/-- `byName.Less`, `/repo/go/tricorder/metric.go:1854-1856` as a total preorder -/
def nameLe (a b : ℕ × Entry) : Bool := !strLt b.2.name a.2.name

/-- `sortListEntries`, `/repo/go/tricorder/metric.go:1862-1865`.  `sort.Sort` is trusted to sort; names in a
directory are distinct, so the result does not depend on the algorithm (`sort_unique`). -/
def sortEntries (l : List (ℕ × Entry)) : List (ℕ × Entry) :=
  l.insertionSort fun a b => nameLe a b = true

end Tricorder
