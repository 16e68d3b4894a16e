import Mathlib.Logic.Function.Basic
import Verif.Model.Sys
/-!
# The critical sections, step by step

`Model/Sys` executes each method of a directory, a distribution and a list as one step.  The code takes the lock of the
object, reads and writes its fields one after the other, and releases the lock.  Here the methods are executed in that way, by
any number of goroutines at once; C74 shows that `Model/Sys` loses nothing.

Simplified: a loop over a map reads its entries in the order of the model's list and orders them at the end; a new directory or
metric object is allocated in the step that stores it in the map, before which no other goroutine knows it; a slice that has to
be copied is copied before the call.
-/

namespace Tricorder.Locks
open Go Arith

/-- the objects with a lock: `directory`, `distribution`, `listType`; `/repo/go/tricorder/metric.go:331,598,1464` -/
inductive Loc where
  | dir (d : ℕ)
  | dist (i : ℕ)
  | list (i : ℕ)
deriving DecidableEq

/-- what the lock protects: the map of a directory, the fields of a distribution, slice and time of a list;
`/repo/go/tricorder/metric.go:326-341,595-601,1461-1466` -/
@[reducible] def Data : Loc → Type
  | .dir _ => List (Str × ℕ)
  | .dist _ => Dist Fl
  | .list _ => ℕ × Time

/-- the protected fields of all objects; notation of the model -/
abbrev Objs := (l : Loc) → Data l

/-- everything else in the memory: the immutable fields of the objects, and what belongs to the application;
`/repo/go/tricorder/metric.go:326-341,595-601,1373-1379,1415-1423,1461-1466` -/
structure Shared where
  /-- `enclosingListEntry` of the directories -/
  encl : List (Option ℕ)
  entries : List Entry
  metrics : List (MetricObj MValue)
  /-- how many distributions there are -/
  ndists : ℕ
  /-- `groupId` and `subType` of the lists -/
  kinds : List (ℕ × Ty)
  mem : List Cell
  vars : List Dyn
  regions : List ℕ
  nextId : ℕ
  noise : ℕ

/-- the state of `Model/Sys`; notation of the model -/
def whole (o : Objs) (g : Shared) : State :=
  ⟨⟨g.encl.mapIdx fun i e => ⟨e, o (.dir i)⟩, g.entries, g.metrics⟩, (List.range g.ndists).map fun i => o (.dist i),
    g.kinds.mapIdx fun i k => ⟨k.1, k.2, (o (.list i)).1, (o (.list i)).2⟩, g.mem, g.vars, g.regions, g.nextId, g.noise⟩

/-- the unprotected part of a state; notation of the model -/
def Shared.of (s : State) : Shared :=
  ⟨s.tree.dirs.map Dir.enclosing, s.tree.entries, s.tree.metrics, s.dists.length, s.lists.map fun l => (l.groupId, l.subType),
    s.mem, s.vars, s.regions, s.nextId, s.noise⟩

/-- the object has been made; notation of the model -/
def Shared.has (g : Shared) : Loc → Prop
  | .dir d => d < g.encl.length
  | .dist i => i < g.ndists
  | .list i => i < g.kinds.length

/-- a new object with its fields; notation of the model -/
structure Fresh where
  loc : Loc
  data : Data loc

/-- put a new object in the memory; notation of the model -/
def Objs.add (o : Objs) : Option Fresh → Objs
  | none => o
  | some f => Function.update o f.loc f.data

/-- A critical section of an object with fields `D`: single reads and writes of its fields.  The last step may also use and
change the rest of the memory; notation of the model. -/
inductive Sec (D A : Type) : Type 1 where
  | read {X : Type} (f : D → X) (k : X → Sec D A)
  | write (f : D → D) (k : Sec D A)
  | last (f : D → Shared → D × Shared × Option Fresh × A)

/-- the section without interruption; notation of the model -/
def Sec.sem {D A : Type} : Sec D A → D → Shared → D × Shared × Option Fresh × A
  | .read f k, d, g => (k (f d)).sem d g
  | .write f k, d, g => k.sem (f d) g
  | .last f, d, g => f d g

/-- it changes nothing, as is allowed under `RLock`; notation of the model -/
def Sec.ReadOnly {D A : Type} : Sec D A → Prop
  | .read (X := X) _ k => ∀ x : X, (k x).ReadOnly
  | .write _ _ => False
  | .last f => ∀ d g, (f d g).1 = d ∧ (f d g).2.1 = g ∧ (f d g).2.2.1 = none

/-- what a method does: one step without a lock, or a critical section under `Lock` (`excl`) or `RLock`; notation of the
model -/
inductive Impl (A : Type) : Type 1 where
  | plain (f : Shared → Shared × Option Fresh × A)
  | locked (loc : Loc) (excl : Bool) (sec : Sec (Data loc) A)

/-- finish with the result `a` and the fields as they are; notation of the model -/
def Sec.done {D A : Type} (a : A) : Sec D A := .last fun d g => (d, g, none, a)

/-! ### Directories -/

/-- `getListEntry`, `/repo/go/tricorder/metric.go:1594-1598` -/
def getListEntry (name : Str) : Sec (List (Str × ℕ)) (Option (ℕ × Entry)) :=
  .read (fun c => c.lookup name) fun n => .last fun c g => (c, g, none, match n with
    | none => none
    | some e => (g.entries[e]?).map fun en => (e, en))

/-- the loop of `listUnsorted`, `/repo/go/tricorder/metric.go:1587-1590`; `n` entries are left, `acc` has those before -/
def listLoop {A : Type} (fin : List ℕ → Sec (List (Str × ℕ)) A) : ℕ → ℕ → List ℕ → Sec (List (Str × ℕ)) A
  | 0, _, acc => fin acc
  | n + 1, i, acc => .read (fun c => c[i]?) fun x => listLoop fin n (i + 1) (acc ++ (x.map Prod.snd).toList)

/-- fields that nobody reads; notation of the model -/
def blank : Objs
  | .dir _ => []
  | .dist _ => newDist [] false Time.zero 0
  | .list _ => (0, Time.zero)

/-- `listUnsorted`, `/repo/go/tricorder/metric.go:1582-1592` -/
def listUnsorted (w : World) : Sec (List (Str × ℕ)) (List (ℕ × Entry)) :=
  .read (fun c => c.length) fun n => listLoop (fun es => .last fun c g =>
    (c, g, none, (w.ord (whole blank g) es).filterMap fun e => (g.entries[e]?).map fun en => (e, en))) n 0 []

/-- `removeListEntry`, `/repo/go/tricorder/metric.go:1600-1604` -/
def removeListEntry (name : Str) : Sec (List (Str × ℕ)) Unit :=
  .last fun c g => (Tree.erase c name, g, none, ())

/-- `removeChildDirectory`, `/repo/go/tricorder/metric.go:1606-1613`, for the child with entry `e` called `name` -/
def removeChildDirectory (e : ℕ) (name : Str) : Sec (List (Str × ℕ)) Unit :=
  .read (fun c => c.lookup name) fun n =>
    if n = some e then .last fun c g => (Tree.erase c name, g, none, ()) else .done ()

/-- `createDirIfNeeded`, `/repo/go/tricorder/metric.go:1659-1681` -/
def createDirIfNeeded (d : ℕ) (name : Str) : Sec (List (Str × ℕ)) (Except RegErr ℕ) :=
  .read (fun c => c.lookup name) fun
    | none => .last fun c g =>
      ((name, g.entries.length) :: c,
        { g with
          encl := g.encl ++ [some g.entries.length]
          entries := g.entries ++ [⟨name, none, some g.encl.length, (g.encl[d]?).join⟩] },
        some ⟨.dir g.encl.length, []⟩, .ok g.encl.length)
    | some n => .last fun c g => (c, g, none, match g.entries[n]? with
      | some ⟨_, _, some dir, _⟩ => .ok dir
      | _ => .error .pathInUse)

/-- `storeMetric`, `/repo/go/tricorder/metric.go:1683-1695` -/
def storeMetric (d : ℕ) (name description : Str) (value : MValue) : Sec (List (Str × ℕ)) (Except RegErr ℕ) :=
  .read (fun c => c.lookup name) fun
    | some _ => .done (.error .pathInUse)
    | none => .last fun c g =>
      ((name, g.entries.length) :: c,
        { g with
          metrics := g.metrics ++ [⟨description, value, g.entries.length⟩]
          entries := g.entries ++ [⟨name, some g.metrics.length, none, (g.encl[d]?).join⟩] },
        none, .ok g.metrics.length)

/-! ### Distributions -/

/-- `SetUnit`, `/repo/go/tricorder/metric.go:362-378` -/
def setUnit {A : Type} (u : MUnit) (out : Bool → A) : Sec (Dist Fl) A :=
  .read Dist.unitSet fun
    | false => .write (fun d => { d with unitSet := true }) (.write (fun d => { d with unit := u }) (.done (out true)))
    | true => .read Dist.unit fun v => .done (out (decide (u = v)))

/-- `valueToFloat`, `/repo/go/tricorder/metric.go:493-507`; a panic releases the lock -/
def valueToFloat (v : Val) (k : Fl → Sec (Dist Fl) (Option DPanic)) : Sec (Dist Fl) (Option DPanic) :=
  .read Dist.unitSet fun
    | false => .done (some .noUnit)
    | true => match v with
      | .scalar none (.duration x) => .read Dist.unit fun u => match goDurationToFloat u x with
        | .error p => .done (some p)
        | .ok y => k y
      | .scalar none (.float32 x) => k (Fl.conv b64 x)
      | .scalar none (.float64 x) => k x
      | _ => .done (some .typeMismatch)

/-- the end of the three methods: `d.count`, `d.generation`; `/repo/go/tricorder/metric.go:444-445,474,489-490` -/
def bump : Sec (Dist Fl) (Option DPanic) :=
  .write (fun d => { d with generation := u64 (d.generation + 1) }) (.done none)

/-- `add`, `/repo/go/tricorder/metric.go:431-446` -/
def add (value : Fl) (ts : Time) : Sec (Dist Fl) (Option DPanic) :=
  .read Dist.pieces fun pieces =>
  .write (fun d => { d with timeStamp := ts }) <|
  .read (fun d => d.counts[findIndex pieces value]?) fun
    | none => .done (some .index)
    | some c =>
      .write (fun d => { d with counts := d.counts.set (findIndex pieces value) (u64 (c + 1)) }) <|
      .write (fun d => { d with total := Arith.add d.total value }) <|
      .read Dist.count fun n =>
      let fin : Sec (Dist Fl) (Option DPanic) := .write (fun d => { d with count := u64 (d.count + 1) }) bump
      if n = 0 then .write (fun d => { d with min := value }) (.write (fun d => { d with max := value }) fin)
      else .read Dist.min fun m =>
        if lt value m then .write (fun d => { d with min := value }) fin
        else .read Dist.max fun x => if lt x value then .write (fun d => { d with max := value }) fin else fin

/-- `update`, `/repo/go/tricorder/metric.go:455-475` -/
def update (oldValue newValue : Fl) (ts : Time) : Sec (Dist Fl) (Option DPanic) :=
  .read Dist.isNotCumulative fun
    | false => .done (some .cumulative)
    | true => .read Dist.count fun n =>
      if n = 0 then .done (some .empty)
      else .write (fun d => { d with timeStamp := ts }) <| .read Dist.pieces fun pieces =>
        .read (fun d => d.counts[findIndex pieces newValue]?) fun
          | none => .done (some .index)
          | some c =>
            .write (fun d => { d with counts := d.counts.set (findIndex pieces newValue) (u64 (c + 1)) }) <|
            .read (fun d => d.counts[findIndex pieces oldValue]?) fun
              | none => .done (some .index)
              | some 0 => .done (some .badValue)
              | some (c + 1) =>
                .write (fun d => { d with counts := d.counts.set (findIndex pieces oldValue) c }) <|
                .write (fun d => { d with total := Arith.add d.total (sub newValue oldValue) }) <|
                .read Dist.min fun m =>
                  if lt newValue m then .write (fun d => { d with min := newValue }) bump
                  else .read Dist.max fun x =>
                    if lt x newValue then .write (fun d => { d with max := newValue }) bump else bump

/-- `remove`, `/repo/go/tricorder/metric.go:477-491` -/
def remove (value : Fl) (ts : Time) : Sec (Dist Fl) (Option DPanic) :=
  .read Dist.isNotCumulative fun
    | false => .done (some .cumulative)
    | true => .read Dist.count fun n =>
      if n = 0 then .done (some .empty)
      else .write (fun d => { d with timeStamp := ts }) <| .read Dist.pieces fun pieces =>
        .read (fun d => d.counts[findIndex pieces value]?) fun
          | none => .done (some .index)
          | some 0 => .done (some .badValue)
          | some (c + 1) =>
            .write (fun d => { d with counts := d.counts.set (findIndex pieces value) c }) <|
            .write (fun d => { d with total := sub d.total value }) <|
            .write (fun d => { d with count := d.count - 1 }) bump

/-- `AddWithTs`, `UpdateWithTs`, `RemoveWithTs`, `/repo/go/tricorder/metric.go:400-429` -/
def distCall : DCall → Sec (Dist Fl) (Option DPanic)
  | .setUnit u => setUnit u fun _ => none
  | .add v ts => valueToFloat v fun x => add x ts
  | .update o n ts => valueToFloat o fun x => valueToFloat n fun y => update x y ts
  | .remove v ts => valueToFloat v fun x => remove x ts

/-- the loop over the counts in `Snapshot`, `/repo/go/tricorder/metric.go:570-572` -/
def countLoop {A : Type} (fin : List ℕ → Sec (Dist Fl) A) : ℕ → ℕ → List ℕ → Sec (Dist Fl) A
  | 0, _, acc => fin acc
  | n + 1, i, acc => .read (fun d => d.counts[i]?) fun x => countLoop fin n (i + 1) (acc ++ x.toList)

/-- `Snapshot`, `/repo/go/tricorder/metric.go:563-593`: all fields are read one after the other, then the result is computed.
The number of counts never changes. -/
def snapshot : Sec (Dist Fl) (Option DistView) :=
  .read (fun d => d.counts.length) fun n => countLoop (fun counts =>
    .read (fun d => (d.pieces, d.isNotCumulative, d.groupId)) fun fixed =>
    .read Dist.count fun count => .read Dist.min fun mn => .read Dist.max fun mx => .read Dist.total fun total =>
    .read Dist.generation fun generation => .read Dist.timeStamp fun ts =>
    .done ((Dist.snapshot (⟨fixed.1, fixed.2.1, fixed.2.2, .other [], false, counts, total, mn, mx, count, generation, ts⟩ :
      Dist Fl)).map fun x => ⟨x, fixed.2.2⟩)) n 0 []

/-! ### Lists -/

/-- `listType.get`, `/repo/go/tricorder/metric.go:694-698`, and what is read through it afterwards -/
def listGet (i : ℕ) : Sec (ℕ × Time) (Option ListView) :=
  .read Prod.fst fun c => .read Prod.snd fun t => .last fun d g => (d, g, none, match g.kinds[i]? with
    | none => none
    | some k => match g.mem[c]? with
      | none => none
      | some x => some ⟨x.val, t, k.1, k.2⟩)

/-- `ChangeWithTimeStamp`, `/repo/go/tricorder/metric.go:680-692` -/
def listChange (c : ℕ) (ts : Time) : Sec (ℕ × Time) Bool :=
  .write (fun d => (c, d.2)) (.write (fun d => (d.1, ts)) (.done true))

/-! ### All methods -/

/-- a step outside of the locked objects; notation of the model -/
def onShared {A : Type} (f : Shared → Shared × A) : Impl A := .plain fun g => ((f g).1, none, (f g).2)

/-- The code behind each step of `Model/Sys`, called when the unprotected memory is `g`; `/repo/go/tricorder/metric.go` at the
lines given with `Cmd` -/
def code (w : World) (g : Shared) : (c : Cmd) → Impl c.Resp
  | .getEntry d name => .locked (.dir d) false (getListEntry name)
  | .list d => .locked (.dir d) false (listUnsorted w)
  | .removeEntry d name => .locked (.dir d) true (removeListEntry name)
  | .unregisterDir d =>
    match (whole blank g).tree.enclosing d, (whole blank g).tree.parent d with
    | some e, some p => match g.entries[e]? with
      | some en => .locked (.dir p) true (removeChildDirectory e en.name)
      | none => onShared fun g => (g, ())
    | _, _ => onShared fun g => (g, ())
  | .createDir d name => .locked (.dir d) true (createDirIfNeeded d name)
  | .storeMetric d name desc v => .locked (.dir d) true (storeMetric d name desc v)
  | .metric m => onShared fun g => (g, metricView (whole blank g).tree m)
  | .dirAbsPath d => onShared fun g => (g, (whole blank g).tree.dirAbsPath d)
  | .setUnit i u => .locked (.dist i) true (setUnit u some)
  | .snapshot i => .locked (.dist i) false snapshot
  | .distCall i c => .locked (.dist i) true (distCall c)
  | .newDist pieces nc ts => .plain fun g =>
      ({ g with ndists := g.ndists + 1, nextId := g.nextId + 1 },
        some ⟨.dist g.ndists, newDist pieces nc ts g.nextId⟩, g.ndists)
  | .newList a mutable ts => .plain fun g => match asSliceValue g.mem a mutable with
      | none => (g, none, none)
      | some (mem, c, t) => ({ g with mem := mem, kinds := g.kinds ++ [(g.nextId, t)], nextId := g.nextId + 1 },
          some ⟨.list g.kinds.length, (c, ts)⟩, some g.kinds.length)
  | .changeList i a mutable ts => match asSliceValue g.mem a mutable, g.kinds[i]? with
      | some (_, c, t), some k => if t = k.2 then .locked (.list i) true (listChange c ts) else onShared fun g => (g, false)
      | _, _ => onShared fun g => (g, false)
  | .getList i => .locked (.list i) false (listGet i)
  | .newVar d => onShared fun g => ({ g with vars := g.vars ++ [d] }, g.vars.length)
  | .readVar v => onShared fun g => (g, g.vars[v]?)
  | .writeVar v d => onShared fun g =>
    (match g.vars[v]? with
      | some d0 => if d0.ty = d.ty then { g with vars := g.vars.set v d } else g
      | none => g, ())
  | .newSlice c => onShared fun g => ({ g with mem := g.mem ++ [{ c with internal := false }] }, g.mem.length)
  | .writeSlice c j b => onShared fun g => ({ g with mem := g.mem.modify c fun x => writeCell x j b }, ())
  | .callFn f => onShared fun g => (g, w.fn (whole blank g) f)
  | .callFlagGet f => onShared fun g => (g, w.flagGet (whole blank g) f)
  | .callFlagString f => onShared fun g => (g, w.flagString (whole blank g) f)
  | .newRegion => onShared fun g => ({ g with regions := g.regions ++ [g.nextId], nextId := g.nextId + 1 }, g.regions.length)
  | .regionId r => onShared fun g => (g, g.regions[r]?)
  | .rlock r => onShared fun g => (g, w.lockTime (whole blank g) r)
  | .runlock _ => onShared fun g => (g, ())
  | .tick n => onShared fun g => ({ g with noise := n }, ())

/-- What a goroutine may call: the object exists (a Go pointer), names come from paths, and a slice that is put in a list
exists and needs no copy, having been copied before; `/repo/go/tricorder/metric.go:648-666` -/
def Callable (g : Shared) : Cmd → Prop
  | .getEntry d _ | .list d | .removeEntry d _ | .unregisterDir d => g.has (.dir d)
  | .createDir d name | .storeMetric d name _ _ => g.has (.dir d) ∧ (47 : UInt8) ∉ name ∧ Go.trimSpace name ≠ []
  | .setUnit i _ | .snapshot i | .distCall i _ => g.has (.dist i)
  | .getList i => g.has (.list i)
  | .changeList i a mutable _ => g.has (.list i) ∧
      (∀ c, a = .slice c → c < g.mem.length) ∧ ∀ mem c t, asSliceValue g.mem a mutable = some (mem, c, t) → mem = g.mem
  | _ => True

/-! ### The machine -/

/-- what a goroutine is doing: nothing, waiting for the lock of a called method, inside its critical section with the rest of
it, or finished with the section and its result but still holding the lock; notation of the model -/
inductive Phase : Type 1 where
  | idle
  | wait (cmd : Cmd) (i : Impl cmd.Resp)
  | inside (cmd : Cmd) (loc : Loc) (excl : Bool) (rest : Sec (Data loc) cmd.Resp)
  | done (cmd : Cmd) (lock : Option (Loc × Bool)) (r : cmd.Resp)

/-- the lock that is held, and whether exclusively; notation of the model -/
def Phase.holds : Phase → Option (Loc × Bool)
  | .inside _ loc excl _ => some (loc, excl)
  | .done _ lock _ => lock
  | _ => none

/-- memory and goroutines; notation of the model -/
structure St where
  objs : Objs
  shared : Shared
  phases : List Phase

/-- one goroutine changes its phase; notation of the model -/
def St.setP (s : St) (c : ℕ) (p : Phase) : St := { s with phases := s.phases.set c p }

/-- `n` goroutines, the memory of `State.init`; notation of the model -/
def start (n : ℕ) : St := ⟨blank, Shared.of State.init, List.replicate n .idle⟩

/-- `Lock` and `RLock` of `sync.RWMutex` return only if: nobody else holds the lock, or all who do, and the caller, only read;
`/repo/go/tricorder/metric.go:331,598,1464` -/
def Free (s : St) (c : ℕ) (loc : Loc) (excl : Bool) : Prop :=
  ∀ (c' : ℕ) p e, c' ≠ c → s.phases[c']? = some p → p.holds = some (loc, e) → e = false ∧ excl = false

/-- what can be seen of a step: a method is called, it takes effect, it returns; notation of the model -/
inductive Lab where
  | call (c : ℕ) (cmd : Cmd)
  | effect (c : ℕ) (cmd : Cmd) (r : cmd.Resp)
  | ret (c : ℕ) (cmd : Cmd) (r : cmd.Resp)
  | quiet (c : ℕ)

/-- one step of a goroutine; `/repo/go/tricorder/metric.go:362-429,563-593,680-698,1582-1613,1659-1695` -/
inductive Step (w : World) : St → Lab → St → Prop where
  /-- a method is called -/
  | call (s : St) (c : ℕ) (cmd : Cmd) : s.phases[c]? = some .idle → Callable s.shared cmd →
      Step w s (.call c cmd) (s.setP c (.wait cmd (code w s.shared cmd)))
  /-- a method without lock -/
  | plain (s : St) (c : ℕ) (cmd : Cmd) (f : Shared → Shared × Option Fresh × cmd.Resp) :
      s.phases[c]? = some (.wait cmd (.plain f)) →
      Step w s (.effect c cmd (f s.shared).2.2)
        { s.setP c (.done cmd none (f s.shared).2.2) with objs := s.objs.add (f s.shared).2.1, shared := (f s.shared).1 }
  /-- `Lock` or `RLock` returns -/
  | acquire (s : St) (c : ℕ) (cmd : Cmd) (loc : Loc) (excl : Bool) (sec : Sec (Data loc) cmd.Resp) :
      s.phases[c]? = some (.wait cmd (.locked loc excl sec)) → Free s c loc excl →
      Step w s (.quiet c) (s.setP c (.inside cmd loc excl sec))
  /-- a field is read -/
  | read (s : St) (c : ℕ) (cmd : Cmd) (loc : Loc) (excl : Bool) (X : Type) (f : Data loc → X) (k : X → Sec (Data loc) cmd.Resp) :
      s.phases[c]? = some (.inside cmd loc excl (.read f k)) →
      Step w s (.quiet c) (s.setP c (.inside cmd loc excl (k (f (s.objs loc)))))
  /-- a field is written -/
  | write (s : St) (c : ℕ) (cmd : Cmd) (loc : Loc) (excl : Bool) (f : Data loc → Data loc) (k : Sec (Data loc) cmd.Resp) :
      s.phases[c]? = some (.inside cmd loc excl (.write f k)) →
      Step w s (.quiet c) { s.setP c (.inside cmd loc excl k) with objs := Function.update s.objs loc (f (s.objs loc)) }
  /-- the last step inside -/
  | last (s : St) (c : ℕ) (cmd : Cmd) (loc : Loc) (excl : Bool)
      (f : Data loc → Shared → Data loc × Shared × Option Fresh × cmd.Resp) :
      s.phases[c]? = some (.inside cmd loc excl (.last f)) →
      Step w s (.effect c cmd (f (s.objs loc) s.shared).2.2.2)
        { s.setP c (.done cmd (some (loc, excl)) (f (s.objs loc) s.shared).2.2.2) with
          objs := Objs.add (Function.update s.objs loc (f (s.objs loc) s.shared).1) (f (s.objs loc) s.shared).2.2.1
          shared := (f (s.objs loc) s.shared).2.1 }
  /-- the lock is released and the method returns -/
  | ret (s : St) (c : ℕ) (cmd : Cmd) (lock : Option (Loc × Bool)) (r : cmd.Resp) :
      s.phases[c]? = some (.done cmd lock r) → Step w s (.ret c cmd r) (s.setP c .idle)

/-- all runs of `n` goroutines; notation of the model -/
inductive Run (w : World) (n : ℕ) : List Lab → St → Prop where
  | nil : Run w n [] (start n)
  | snoc {tr s l s'} : Run w n tr s → Step w s l s' → Run w n (tr ++ [l]) s'

end Tricorder.Locks
