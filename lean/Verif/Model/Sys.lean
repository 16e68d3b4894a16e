import Verif.Model.Tree
import Verif.Model.Dist
import Verif.Model.Messages
/-!
# The whole system: shared objects, atomic steps, programs

All shared memory of the library and of the application: the directory tree, distributions, lists,
slices, variables and groups.  `Cmd` lists the atomic steps; an API call is a program over them
(`Verif/Model/Registry.lean`, `Verif/Model/Read.lean`).  A program can be run alone (`run`) or with
arbitrary steps of other goroutines between its own (`RunI`).

At this level a group is only an id: taking the group (`RLock`) yields a time and releasing it
(`RUnlock`) yields nothing.  The event loops behind these two steps are the subject of
`Verif/Model/Group.lean`.
-/

namespace Tricorder
open Go

/-- Go types as `getPrimitiveType` tells them apart; `/repo/go/tricorder/metric.go:756-813` -/
inductive GoTy where
  | scalar (t : ScalarTy)
  /-- `*time.Time` -/
  | timePtr
  /-- any other type -/
  | other (id : ℕ)
deriving DecidableEq, Repr

/-- what a `reflect.Value` holds; `/repo/go/tricorder/metric.go:735-744` -/
inductive Dyn where
  | scalar (named : Option ℕ) (v : Base)
  /-- a `*time.Time`; `none` is nil.  The time it points at is part of the value. -/
  | timePtr (t : Option Time)
  /-- a value of some other type -/
  | other (id : ℕ)
  /-- the zero `reflect.Value`, from a nil interface -/
  | invalid
deriving DecidableEq, Repr

/-- dynamic type; the zero `reflect.Value` has none; `/repo/go/tricorder/metric.go:756-813` -/
def Dyn.ty : Dyn → Option GoTy
  | .scalar n v => some (.scalar ⟨n, v.ty⟩)
  | .timePtr _ => some .timePtr
  | .other id => some (.other id)
  | .invalid => none

/-- the `switch t.Kind()` of `getPrimitiveType`, `/repo/go/tricorder/metric.go:765-811`; `none` for
kinds without a metric type.  A user-declared type with underlying type `time.Duration` has kind
`int64`. -/
def kindType : BaseTy → Option Ty
  | .bool => some .bool
  | .int .int => some .int64
  | .int .int8 => some .int8
  | .int .int16 => some .int16
  | .int .int32 => some .int32
  | .int .int64 => some .int64
  | .int .uint => some .uint64
  | .int .uint8 => some .uint8
  | .int .uint16 => some .uint16
  | .int .uint32 => some .uint32
  | .int .uint64 => some .uint64
  | .float32 => some .float32
  | .float64 => some .float64
  | .string => some .string
  | .time => none
  | .duration => some .int64

/-- `getPrimitiveType`, `/repo/go/tricorder/metric.go:756-813`: metric type and "is a pointer";
`none` if not supported.  64 bit `int`. -/
def getPrimitiveType : GoTy → Option (Ty × Bool)
  | .timePtr => some (.goTime, true)
  | .scalar ⟨none, .time⟩ => some (.goTime, false)
  | .scalar ⟨none, .duration⟩ => some (.goDuration, false)
  | .scalar ⟨_, b⟩ => (kindType b).map fun t => (t, false)
  | .other _ => none

/-- where a scalar value comes from: a variable, a callback, the `Get` or the `String` method of a flag;
`/repo/go/tricorder/metric.go:836-910` -/
inductive Src where
  | var (v : ℕ)
  | fn (f : ℕ)
  | flagGet (g : ℕ)
  | flagString (g : ℕ)
deriving DecidableEq, Repr

/-- `value`, `/repo/go/tricorder/metric.go:735-744`; `src = none` is an invalid `val`; `isfunc` is
whether `src` is a call -/
structure MValue where
  src : Option Src
  region : Option ℕ
  dist : Option ℕ
  alist : Option ℕ
  valType : Ty
  isPtr : Bool
  unit : MUnit
deriving DecidableEq, Repr

/-- A slice owned by the application (`internal = false`) or a defensive copy made by the library. `data = none` is a
nil slice.  Slices that share an array are in `Verif/Model/Alias.lean`; `/repo/go/tricorder/metric.go:603-607`. -/
structure Cell where
  sliceNamed : Option ℕ
  elem : GoTy
  data : Option (List Base)
  internal : Bool
deriving DecidableEq, Repr

/-- `listType`, `/repo/go/tricorder/metric.go:595-601` -/
structure ListObj where
  groupId : ℕ
  subType : Ty
  slice : ℕ
  timeStamp : Time
deriving DecidableEq, Repr

/-- all shared memory.  `noise` stands for everything else the outside world can depend on; any goroutine may change
it at any time; `/repo/go/tricorder/metric.go:32-36`. -/
structure State where
  tree : Tree MValue
  dists : List (Dist Fl)
  lists : List ListObj
  mem : List Cell
  vars : List Dyn
  /-- ids of the groups -/
  regions : List ℕ
  /-- next group id; unbounded here, the wrap-around is the subject of C22 -/
  nextId : ℕ
  noise : ℕ

/-- The outside world: user callbacks, map iteration order, group time stamps.  All are arbitrary functions of the
whole state; `/repo/go/tricorder/metric.go:944-961`. -/
structure World where
  /-- iteration order of a map -/
  ord : State → List ℕ → List ℕ
  ord_perm : ∀ s l, (ord s l).Perm l
  /-- the static result type of callback `f` and what a call gives; `none` is a panic -/
  fnTy : ℕ → GoTy
  fn : State → ℕ → Option Dyn
  fn_ty : ∀ s f d, fn s f = some d → d.ty = some (fnTy f)
  /-- `Get()` of a flag (any dynamic type, possibly a nil interface), and `String()` -/
  flagGet : State → ℕ → Option Dyn
  flagString : State → ℕ → Option Str
  /-- the time stamp a group answers with when it is taken -/
  lockTime : State → ℕ → Time

/-- the values put in a list, `asSliceValue`'s argument: a slice or something else;
`/repo/go/tricorder/metric.go:648-666` -/
inductive SliceArg where
  | slice (c : ℕ)
  | notSlice
deriving DecidableEq, Repr

/-- the elements of `[]int`, `[]uint` as sized integers: `int64(value.Int())`,
`uint64(value.Uint())`, `/repo/go/tricorder/metric.go:613-646` with `valueToInterface` -/
def resize (k : IntKind) : Base → Base
  | .int _ x => .int k (if k.signed then i64 x else u64 x.toNat)
  | b => b

/-- `asSliceValue`, `/repo/go/tricorder/metric.go:648-666`, with `copySlice` and
`convertFromIntOrUintSlice`: the memory afterwards, the slice and the element type; `none` is a
panic -/
def asSliceValue (mem : List Cell) (arg : SliceArg) (mutable : Bool) : Option (List Cell × ℕ × Ty) :=
  match arg with
  | .notSlice => none
  | .slice c => match mem[c]? with
    | none => none
    | some cell => match getPrimitiveType cell.elem with
      | none => none
      | some (_, true) => none
      | some (t, false) =>
        match cell.elem with
        | .scalar ⟨_, .int .int⟩ =>
          some (mem ++ [⟨none, .scalar ⟨none, .int .int64⟩,
            some ((cell.data.getD []).map (resize .int64)), true⟩], mem.length, t)
        | .scalar ⟨_, .int .uint⟩ =>
          some (mem ++ [⟨none, .scalar ⟨none, .int .uint64⟩,
            some ((cell.data.getD []).map (resize .uint64)), true⟩], mem.length, t)
        | _ =>
          if mutable then
            some (mem ++ [{ cell with data := some (cell.data.getD []), internal := true }],
              mem.length, t)
          else some (mem, c, t)

/-- `value.Interface()` of a slice; `/repo/go/tricorder/metric.go:721-724` -/
def Cell.val (c : Cell) : Val :=
  match c.elem with
  | .scalar t => .slice c.sliceNamed t c.data
  | _ => .other 0

/-- the atomic steps; the critical sections and single loads of `/repo/go/tricorder/metric.go`; each command names its
function -/
inductive Cmd where
  /-- `getListEntry`, `/repo/go/tricorder/metric.go:1594-1598` -/
  | getEntry (d : ℕ) (name : Str)
  /-- `listUnsorted`, `/repo/go/tricorder/metric.go:1582-1592` -/
  | list (d : ℕ)
  /-- `removeListEntry`, `/repo/go/tricorder/metric.go:1600-1604` -/
  | removeEntry (d : ℕ) (name : Str)
  /-- `unregisterDirectory`, `/repo/go/tricorder/metric.go:1732-1737` -/
  | unregisterDir (d : ℕ)
  /-- `createDirIfNeeded`, `/repo/go/tricorder/metric.go:1659-1681` -/
  | createDir (d : ℕ) (name : Str)
  /-- `storeMetric`, `/repo/go/tricorder/metric.go:1683-1695` -/
  | storeMetric (d : ℕ) (name description : Str) (value : MValue)
  /-- read the immutable fields of a metric and compute its `AbsPath`, `/repo/go/tricorder/metric.go:1373-1384` -/
  | metric (m : ℕ)
  /-- `(*directory).AbsPath`, `/repo/go/tricorder/metric.go:1478-1480` -/
  | dirAbsPath (d : ℕ)
  /-- `SetUnit`, `/repo/go/tricorder/metric.go:362-378` -/
  | setUnit (i : ℕ) (u : MUnit)
  /-- `Snapshot`, `/repo/go/tricorder/metric.go:563-593` -/
  | snapshot (i : ℕ)
  /-- `Add`, `Update`, `Remove`, `Sum`, `Count`, `/repo/go/tricorder/metric.go:384-429` -/
  | distCall (i : ℕ) (c : DCall)
  /-- `newDistributionWithTimeStamp`, `/repo/go/tricorder/metric.go:349-360` -/
  | newDist (pieces : List (Piece Fl)) (isNotCumulative : Bool) (ts : Time)
  /-- `newListWithTimeStamp`, `/repo/go/tricorder/metric.go:668-678` -/
  | newList (a : SliceArg) (mutable : Bool) (ts : Time)
  /-- `ChangeWithTimeStamp`, `/repo/go/tricorder/metric.go:680-692` -/
  | changeList (i : ℕ) (a : SliceArg) (mutable : Bool) (ts : Time)
  /-- `listType.get`, `/repo/go/tricorder/metric.go:694-698` -/
  | getList (i : ℕ)
  /-- the application makes and writes variables and slices -/
  | newVar (d : Dyn)
  | readVar (v : ℕ)
  | writeVar (v : ℕ) (d : Dyn)
  | newSlice (c : Cell)
  | writeSlice (c j : ℕ) (b : Base)
  /-- calls of user code, `/repo/go/tricorder/metric.go:955` -/
  | callFn (f : ℕ)
  | callFlagGet (g : ℕ)
  | callFlagString (g : ℕ)
  /-- `newRegion`, `/repo/go/tricorder/metric.go:134-146` -/
  | newRegion
  /-- `region.Id`, `/repo/go/tricorder/metric.go:156-158` -/
  | regionId (r : ℕ)
  /-- `RLock`, `/repo/go/tricorder/metric.go:194-197` -/
  | rlock (r : ℕ)
  /-- `RUnlock`, `/repo/go/tricorder/metric.go:199-202` -/
  | runlock (r : ℕ)
  /-- the rest of the world moves on -/
  | tick (n : ℕ)

/-- what a list reports: `AsSlice`, `GroupId`, `SubType`; `/repo/go/tricorder/metric.go:721-733` -/
structure ListView where
  val : Val
  timeStamp : Time
  groupId : ℕ
  subType : Ty
deriving DecidableEq, Repr

/-- what a snapshot reports besides: `GroupId`; `/repo/go/tricorder/metric.go:380-382,563-593` -/
structure DistView where
  snap : Snapshot Fl
  groupId : ℕ

/-- a metric with its absolute path; `/repo/go/tricorder/metric.go:1373-1384` -/
structure MetricView where
  path : Str
  description : Str
  value : MValue
deriving DecidableEq, Repr

/-- results of the steps; `Option` where the Go operation can panic, or where the model's pointer could be dangling
(which is proved impossible); notation of the model -/
def Cmd.Resp : Cmd → Type
  | .getEntry _ _ => Option (ℕ × Entry)
  | .list _ => List (ℕ × Entry)
  | .removeEntry _ _ => Unit
  | .unregisterDir _ => Unit
  | .createDir _ _ => Except RegErr ℕ
  | .storeMetric _ _ _ _ => Except RegErr ℕ
  | .metric _ => Option MetricView
  | .dirAbsPath _ => Option Str
  | .setUnit _ _ => Option Bool
  | .snapshot _ => Option DistView
  | .distCall _ _ => Option DPanic
  | .newDist _ _ _ => ℕ
  | .newList _ _ _ => Option ℕ
  | .changeList _ _ _ _ => Bool
  | .getList _ => Option ListView
  | .newVar _ => ℕ
  | .readVar _ => Option Dyn
  | .writeVar _ _ => Unit
  | .newSlice _ => ℕ
  | .writeSlice _ _ _ => Unit
  | .callFn _ => Option Dyn
  | .callFlagGet _ => Option Dyn
  | .callFlagString _ => Option Str
  | .newRegion => ℕ
  | .regionId _ => Option ℕ
  | .rlock _ => Time
  | .runlock _ => Unit
  | .tick _ => Unit

/-- the entry objects with their numbers; notation of the model -/
def withEntries (t : Tree MValue) (es : List ℕ) : List (ℕ × Entry) :=
  es.filterMap fun e => (t.entries[e]?).map fun en => (e, en)

/-- `ListObj` as reported; `/repo/go/tricorder/metric.go:694-698,721-733` -/
def listView (s : State) (i : ℕ) : Option ListView :=
  match s.lists[i]? with
  | none => none
  | some l => match s.mem[l.slice]? with
    | none => none
    | some c => some ⟨c.val, l.timeStamp, l.groupId, l.subType⟩

/-- a metric object as seen by readers; `/repo/go/tricorder/metric.go:1373-1384` -/
def metricView (t : Tree MValue) (m : ℕ) : Option MetricView :=
  match t.metrics[m]?, t.metricAbsPath m with
  | some mo, some p => some ⟨p, mo.description, mo.value⟩
  | _, _ => none

/-- `newListWithTimeStamp`, `/repo/go/tricorder/metric.go:668-678` -/
def State.newList (s : State) (a : SliceArg) (mutable : Bool) (ts : Time) : State × Option ℕ :=
  match asSliceValue s.mem a mutable with
  | none => (s, none)
  | some (mem, c, t) =>
    ({ s with mem := mem, lists := s.lists ++ [⟨s.nextId, t, c, ts⟩], nextId := s.nextId + 1 },
      some s.lists.length)

/-- `ChangeWithTimeStamp`, `/repo/go/tricorder/metric.go:680-692`; `false` is a panic.  The copy is
made before the sub type is checked. -/
def State.changeList (s : State) (i : ℕ) (a : SliceArg) (mutable : Bool) (ts : Time) : State × Bool :=
  match s.lists[i]? with
  | none => (s, false)
  | some l => match asSliceValue s.mem a mutable with
    | none => (s, false)
    | some (mem, c, t) =>
      if t ≠ l.subType then ({ s with mem := mem }, false)
      else ({ s with mem := mem, lists := s.lists.set i { l with slice := c, timeStamp := ts } }, true)

/-- application write to its own slice; has no effect on the library's copies; notation of the model -/
def writeCell (c : Cell) (j : ℕ) (b : Base) : Cell :=
  if c.internal then c else { c with data := c.data.map fun xs => xs.set j b }

/-- one atomic step: the code of `/repo/go/tricorder/metric.go` that `Cmd` names -/
def exec (w : World) : (c : Cmd) → State → State × c.Resp
  | .getEntry d name, s =>
    (s, match s.tree.getEntry d name with
      | none => none
      | some e => (s.tree.entries[e]?).map fun en => (e, en))
  | .list d, s => (s, withEntries s.tree (w.ord s ((s.tree.contents d).map Prod.snd)))
  | .removeEntry d name, s => ({ s with tree := s.tree.removeEntry d name }, ())
  | .unregisterDir d, s => ({ s with tree := s.tree.unregisterDir d }, ())
  | .createDir d name, s =>
    ({ s with tree := (s.tree.createDir d name).1 }, (s.tree.createDir d name).2)
  | .storeMetric d name desc v, s =>
    ({ s with tree := (s.tree.storeMetric d name desc v).1 }, (s.tree.storeMetric d name desc v).2)
  | .metric m, s => (s, metricView s.tree m)
  | .dirAbsPath d, s => (s, s.tree.dirAbsPath d)
  | .setUnit i u, s => match s.dists[i]? with
    | none => (s, none)
    | some d => ({ s with dists := s.dists.set i (d.setUnit u).1 }, some (d.setUnit u).2)
  | .snapshot i, s => (s, match s.dists[i]? with
    | none => none
    | some d => d.snapshot.map fun x => ⟨x, d.groupId⟩)
  | .distCall i c, s => match s.dists[i]? with
    | none => (s, none)
    | some d => ({ s with dists := s.dists.set i (d.call c).1 }, (d.call c).2)
  | .newDist pieces nc ts, s =>
    ({ s with dists := s.dists ++ [Tricorder.newDist pieces nc ts s.nextId], nextId := s.nextId + 1 },
      s.dists.length)
  | .newList a mutable ts, s => s.newList a mutable ts
  | .changeList i a mutable ts, s => s.changeList i a mutable ts
  | .getList i, s => (s, listView s i)
  | .newVar d, s => ({ s with vars := s.vars ++ [d] }, s.vars.length)
  | .readVar v, s => (s, s.vars[v]?)
  | .writeVar v d, s =>
    (match s.vars[v]? with
      | some d0 => if d0.ty = d.ty then { s with vars := s.vars.set v d } else s
      | none => s, ())
  | .newSlice c, s => ({ s with mem := s.mem ++ [{ c with internal := false }] }, s.mem.length)
  | .writeSlice c j b, s => ({ s with mem := s.mem.modify c fun x => writeCell x j b }, ())
  | .callFn f, s => (s, w.fn s f)
  | .callFlagGet g, s => (s, w.flagGet s g)
  | .callFlagString g, s => (s, w.flagString s g)
  | .newRegion, s =>
    ({ s with regions := s.regions ++ [s.nextId], nextId := s.nextId + 1 }, s.regions.length)
  | .regionId r, s => (s, s.regions[r]?)
  | .rlock r, s => (s, w.lockTime s r)
  | .runlock _, s => (s, ())
  | .tick n, s => ({ s with noise := n }, ())

/-- a program: a sequence of atomic steps, each depending on the results of those before; notation of the model -/
inductive Prog (α : Type) where
  | ret (a : α)
  | op (c : Cmd) (k : c.Resp → Prog α)

namespace Prog

variable {α β : Type}

/-- sequencing; notation of the model -/
def bind : Prog α → (α → Prog β) → Prog β
  | ret a, f => f a
  | op c k, f => op c fun r => (k r).bind f

instance : Monad Prog where
  pure := ret
  bind := bind

/-- a single step; notation of the model -/
def step (c : Cmd) : Prog c.Resp := op c ret

/-- run alone; notation of the model -/
def run (w : World) : Prog α → State → State × α
  | ret a, s => (s, a)
  | op c k, s => run w (k (exec w c s).2) (exec w c s).1

end Prog

/-- the initial state: only the root directory, and `DefaultGroup`
(`/repo/go/tricorder/api.go:62-66`), which is group number 0 -/
def State.init : State := ⟨Tree.init MValue, [], [], [], [], [0], 1, 0⟩

/-- steps another goroutine can take: names come from paths, handles are handles to existing directories; notation of
the model -/
def Cmd.Ok (s : State) : Cmd → Prop
  | .createDir d name => d < s.tree.dirs.length ∧ (47 : UInt8) ∉ name ∧ trimSpace name ≠ []
  | .storeMetric d name _ _ => d < s.tree.dirs.length ∧ (47 : UInt8) ∉ name ∧ trimSpace name ≠ []
  | _ => True

/-- one step of a run: by the program itself (`own`) or by another goroutine, and the state before; notation of the
model -/
structure Ev where
  own : Bool
  cmd : Cmd
  pre : State

/-- Run of a program with steps of other goroutines between its own: from the state `s` through the steps `h` to the
state `s'` with result `a`; notation of the model. -/
inductive RunI (w : World) {α : Type} : Prog α → State → List Ev → State → α → Prop where
  | ret (a : α) (s : State) : RunI w (.ret a) s [] s a
  | env {p s h s' a} (c : Cmd) : c.Ok s → RunI w p (exec w c s).1 h s' a →
      RunI w p s (⟨false, c, s⟩ :: h) s' a
  | op {c k s h s' a} : RunI w (k (exec w c s).2) (exec w c s).1 h s' a →
      RunI w (.op c k) s (⟨true, c, s⟩ :: h) s' a

/-- all states of a run, in order; notation of the model -/
def statesOf (h : List Ev) (s' : State) : List State := h.map Ev.pre ++ [s']

/-- states reachable by any interleaving of any goroutines; notation of the model -/
inductive Reachable (w : World) : State → Prop where
  | init : Reachable w State.init
  | step {s} (c : Cmd) : Reachable w s → c.Ok s → Reachable w (exec w c s).1

end Tricorder
