import Verif.Model.Bucketer
import Verif.Model.Value
/-!
# Distributions

Models `/repo/go/tricorder/metric.go:301-593`.  Every method body runs under the distribution's
lock, so each method is one atomic step.  `time.Now()` is the argument `ts`.  A distribution that
was not made by a bucketer (the zero value of the struct) is in `Model/Zero`.
-/

namespace Tricorder
open Go Arith

variable {F : Type} [Arith F]

/-- `sort.Search` loop (Go standard library): least index in `[i, j)` where `f` holds, else `j`, for monotone `f`;
used by `/repo/go/tricorder/metric.go:520-524` -/
def searchLoop (f : ℕ → Bool) : ℕ → ℕ → ℕ → ℕ
  | 0, i, _ => i
  | k + 1, i, j =>
    if i < j then
      let h := (i + j) / 2
      if !f h then searchLoop f k (h + 1) j else searchLoop f k i h
    else i

/-- `sort.Search(n, f)`; used by `/repo/go/tricorder/metric.go:520-524` -/
def search (n : ℕ) (f : ℕ → Bool) : ℕ := searchLoop f n 0 n

/-- the predicate searched for, `/repo/go/tricorder/metric.go:521-523` -/
def belowStop (pieces : List (Piece F)) (value : F) (i : ℕ) : Bool :=
  match pieces[i]? with
  | some p => lt value p.stop
  | none => false

/-- `findDistributionIndex`, `/repo/go/tricorder/metric.go:520-524` -/
def findIndex (pieces : List (Piece F)) (value : F) : ℕ :=
  search (pieces.length - 1) (belowStop pieces value)

/-- `distribution`, `/repo/go/tricorder/metric.go:326-341`.  The counters are `uint64`. -/
structure Dist (F : Type) where
  pieces : List (Piece F)
  isNotCumulative : Bool
  groupId : ℕ
  unit : MUnit
  unitSet : Bool
  counts : List ℕ
  total : F
  min : F
  max : F
  count : ℕ
  generation : ℕ
  timeStamp : Time

/-- `newDistributionWithTimeStamp`, `/repo/go/tricorder/metric.go:349-360`; the group id comes from
the id generator.  The zero value of `unit` is the empty string. -/
def newDist (pieces : List (Piece F)) (isNotCumulative : Bool) (ts : Time) (groupId : ℕ) : Dist F :=
  { pieces := pieces, counts := List.replicate pieces.length 0, isNotCumulative := isNotCumulative,
    timeStamp := ts, groupId := groupId, unit := .unknown, unitSet := false, total := lit 0,
    min := lit 0, max := lit 0, count := 0, generation := 0 }

/-- reasons for a panic; `/repo/go/tricorder/metric.go:22-29` -/
inductive DPanic where
  /-- `panicNoAssignedUnit` -/
  | noUnit
  /-- `panicTypeMismatch` -/
  | typeMismatch
  /-- "Durations can't be added to non time based metrics." -/
  | notTime
  /-- update or remove on a cumulative distribution -/
  | cumulative
  /-- update or remove on an empty distribution -/
  | empty
  /-- `panicBadValue`, `/repo/go/tricorder/metric.go:448-453` -/
  | badValue
  /-- index out of range -/
  | index
deriving DecidableEq, Repr

/-- `SetUnit`, `/repo/go/tricorder/metric.go:362-378` -/
def Dist.setUnit (d : Dist F) (u : MUnit) : Dist F × Bool :=
  if !d.unitSet then ({ d with unitSet := true, unit := u }, true)
  else (d, decide (u = d.unit))

/-- `add`, `/repo/go/tricorder/metric.go:431-446` -/
def Dist.add (d : Dist F) (value : F) (ts : Time) : Dist F × Option DPanic :=
  let idx := findIndex d.pieces value
  let d := { d with timeStamp := ts }
  match d.counts[idx]? with
  | none => (d, some .index)
  | some c =>
    ({ d with
      counts := d.counts.set idx (u64 (c + 1))
      total := Arith.add d.total value
      min := if d.count = 0 then value else if lt value d.min then value else d.min
      max := if d.count = 0 then value else if lt value d.min then d.max
        else if lt d.max value then value else d.max
      count := u64 (d.count + 1)
      generation := u64 (d.generation + 1) }, none)

/-- the statistics part of `update`, `/repo/go/tricorder/metric.go:468-474` -/
def Dist.updateStats (d : Dist F) (oldValue newValue : F) : Dist F :=
  { d with
    total := Arith.add d.total (sub newValue oldValue)
    min := if lt newValue d.min then newValue else d.min
    max := if lt newValue d.min then d.max else if lt d.max newValue then newValue else d.max
    generation := u64 (d.generation + 1) }

/-- `update`, `/repo/go/tricorder/metric.go:455-475`.  The new count is incremented before the old
one is checked. -/
def Dist.update (d : Dist F) (oldValue newValue : F) (ts : Time) : Dist F × Option DPanic :=
  if !d.isNotCumulative then (d, some .cumulative)
  else if d.count = 0 then (d, some .empty)
  else
    let d := { d with timeStamp := ts }
    let oldIdx := findIndex d.pieces oldValue
    let newIdx := findIndex d.pieces newValue
    match d.counts[newIdx]? with
    | none => (d, some .index)
    | some c =>
      let d := { d with counts := d.counts.set newIdx (u64 (c + 1)) }
      match d.counts[oldIdx]? with
      | none => (d, some .index)
      | some 0 => (d, some .badValue)
      | some (c + 1) =>
        (Dist.updateStats { d with counts := d.counts.set oldIdx c } oldValue newValue, none)

/-- `remove`, `/repo/go/tricorder/metric.go:477-491` -/
def Dist.remove (d : Dist F) (value : F) (ts : Time) : Dist F × Option DPanic :=
  if !d.isNotCumulative then (d, some .cumulative)
  else if d.count = 0 then (d, some .empty)
  else
    let d := { d with timeStamp := ts }
    let idx := findIndex d.pieces value
    match d.counts[idx]? with
    | none => (d, some .index)
    | some 0 => (d, some .badValue)
    | some (c + 1) =>
      ({ d with
        counts := d.counts.set idx c
        total := sub d.total value
        count := d.count - 1
        generation := u64 (d.generation + 1) }, none)

/-- `goDurationToFloat`, `/repo/go/tricorder/metric.go:509-518` -/
def goDurationToFloat (unit : MUnit) (dur : ℤ) : Except DPanic Fl :=
  match unit with
  | .second => .ok (Fl.div b64 (Fl.ofInt b64 dur) (Fl.ofInt b64 1000000000))
  | .millisecond => .ok (Fl.div b64 (Fl.ofInt b64 dur) (Fl.ofInt b64 1000000))
  | _ => .error .notTime

/-- `valueToFloat`, `/repo/go/tricorder/metric.go:493-507` -/
def Dist.valueToFloat (d : Dist Fl) (v : Val) : Except DPanic Fl :=
  if !d.unitSet then .error .noUnit
  else match v with
    | .scalar none (.duration x) => goDurationToFloat d.unit x
    | .scalar none (.float32 x) => .ok (Fl.conv b64 x)
    | .scalar none (.float64 x) => .ok x
    | _ => .error .typeMismatch

/-- `AddWithTs`, `/repo/go/tricorder/metric.go:400-404` -/
def Dist.addWithTs (d : Dist Fl) (v : Val) (ts : Time) : Dist Fl × Option DPanic :=
  match d.valueToFloat v with
  | .error p => (d, some p)
  | .ok x => d.add x ts

/-- `UpdateWithTs`, `/repo/go/tricorder/metric.go:410-418` -/
def Dist.updateWithTs (d : Dist Fl) (o n : Val) (ts : Time) : Dist Fl × Option DPanic :=
  match d.valueToFloat o with
  | .error p => (d, some p)
  | .ok x => match d.valueToFloat n with
    | .error p => (d, some p)
    | .ok y => d.update x y ts

/-- `RemoveWithTs`, `/repo/go/tricorder/metric.go:424-429` -/
def Dist.removeWithTs (d : Dist Fl) (v : Val) (ts : Time) : Dist Fl × Option DPanic :=
  match d.valueToFloat v with
  | .error p => (d, some p)
  | .ok x => d.remove x ts

/-! ### snapshots -/

/-- `x - y` on `uint64`; as in `/repo/go/tricorder/metric.go:526-546` -/
def sub64 (x y : ℕ) : ℕ := u64 (x + 18446744073709551616 - y)

/-- the loop of `indexToValue`, `/repo/go/tricorder/metric.go:527-532`: walks the counts until the
value index falls into a piece.  Result: piece index, first value index of the piece, count.
`none` is an index out of range panic. -/
def findPiece (valueIdx : ℕ) : List ℕ → ℕ → ℕ → Option (ℕ × ℕ × ℕ)
  | [], _, _ => none
  | c :: cs, start, pieceIdx =>
    if c ≤ sub64 valueIdx start then findPiece valueIdx cs (u64 (start + c)) (pieceIdx + 1)
    else some (pieceIdx, start, c)

/-- `interpolate`, `/repo/go/tricorder/metric.go:548-550` -/
def interpolate (mn mx frac : F) : F :=
  Arith.add (mul (sub (lit 1) frac) mn) (mul frac mx)

/-- `indexToValue`, `/repo/go/tricorder/metric.go:526-546` -/
def Dist.indexToValue (d : Dist F) (valueIdx : ℕ) : Option F :=
  match findPiece valueIdx d.counts 0 0 with
  | none => none
  | some (pieceIdx, start, c) =>
    let frac := div (Arith.ofNat (u64 (sub64 valueIdx start + 1))) (Arith.ofNat (u64 (c + 1)) : F)
    let pieceLen := d.pieces.length
    if pieceIdx = 0 then
      match d.pieces[0]? with
      | none => none
      | some p => some (interpolate d.min (fmin p.stop d.max) frac)
    else if pieceIdx = pieceLen - 1 then
      match d.pieces[pieceLen - 1]? with
      | none => none
      | some p => some (interpolate (fmax p.start d.min) d.max frac)
    else
      match d.pieces[pieceIdx]? with
      | none => none
      | some p => some (interpolate (fmax p.start d.min) (fmin p.stop d.max) frac)

/-- `calculateMedian`, `/repo/go/tricorder/metric.go:552-560` -/
def Dist.calculateMedian (d : Dist F) : Option F :=
  if d.count ≤ 2 then some (div d.total (Arith.ofNat d.count))
  else if d.count % 2 = 0 then
    match d.indexToValue (d.count / 2 - 1) with
    | none => none
    | some a => match d.indexToValue (d.count / 2) with
      | none => none
      | some b => some (div (Arith.add a b) (lit 2))
  else d.indexToValue (d.count / 2)

/-- `snapshot`, `/repo/go/tricorder/metric.go:312-323` -/
structure Snapshot (F : Type) where
  min : F
  max : F
  average : F
  median : F
  sum : F
  count : ℕ
  generation : ℕ
  isNotCumulative : Bool
  timeStamp : Time
  breakdown : List (Piece F × ℕ)

/-- `Snapshot`, `/repo/go/tricorder/metric.go:563-593`; `none` is an index out of range panic.  An
empty distribution leaves the other fields at their zero values. -/
def Dist.snapshot (d : Dist F) : Option (Snapshot F) :=
  if d.counts.length < d.pieces.length then none
  else
    let bdn := d.pieces.zip d.counts
    if d.count = 0 then
      some { min := lit 0, max := lit 0, average := lit 0, median := lit 0, sum := lit 0,
             count := d.count, generation := 0, isNotCumulative := false,
             timeStamp := d.timeStamp, breakdown := bdn }
    else match d.calculateMedian with
      | none => none
      | some m =>
        some { min := d.min, max := d.max, average := div d.total (Arith.ofNat d.count),
               median := m, sum := d.total, count := d.count, generation := d.generation,
               isNotCumulative := d.isNotCumulative, timeStamp := d.timeStamp, breakdown := bdn }

/-- one call on a distribution through the public interface
(`/repo/go/tricorder/api.go:223-298`); registration calls `SetUnit` -/
inductive DCall where
  | setUnit (u : MUnit)
  | add (v : Val) (ts : Time)
  | update (o n : Val) (ts : Time)
  | remove (v : Val) (ts : Time)

/-- the state after a call; a panic is reported but the state changes made before it are kept;
`/repo/go/tricorder/metric.go:396-429` -/
def Dist.call (d : Dist Fl) : DCall → Dist Fl × Option DPanic
  | .setUnit u => ((d.setUnit u).1, none)
  | .add v ts => d.addWithTs v ts
  | .update o n ts => d.updateWithTs o n ts
  | .remove v ts => d.removeWithTs v ts

/-- a history of calls by any number of goroutines: the lock serialises them; panics are recovered by the callers;
`/repo/go/tricorder/metric.go:396-429` -/
def Dist.calls (d : Dist Fl) : List DCall → Dist Fl
  | [] => d
  | c :: cs => (d.call c).1.calls cs

/-- one completed internal operation with values already converted; the calls of
`/repo/go/tricorder/metric.go:431,455,477` -/
inductive DOp (F : Type) where
  | add (v : F) (ts : Time)
  | update (o n : F) (ts : Time)
  | remove (v : F) (ts : Time)

/-- one operation: `add`, `update` or `remove`, `/repo/go/tricorder/metric.go:431-491` -/
def Dist.op (d : Dist F) : DOp F → Dist F × Option DPanic
  | .add v ts => d.add v ts
  | .update o n ts => d.update o n ts
  | .remove v ts => d.remove v ts

/-- a sequence of operations, `/repo/go/tricorder/metric.go:431-491` -/
def Dist.ops (d : Dist F) : List (DOp F) → Dist F
  | [] => d
  | c :: cs => (d.op c).1.ops cs

end Tricorder
