import Verif.Model.Sys
/-!
# Registering and looking up

Models the registration half of `/repo/go/tricorder/metric.go` and `/repo/go/tricorder/api.go` as
programs over the atomic steps.
-/

namespace Tricorder
open Go

/-- result of code that can panic; `/repo/go/tricorder/metric.go:21-30` -/
inductive Out (α : Type) where
  | ok (a : α)
  | panic
deriving DecidableEq, Repr

/-- what can be passed to `RegisterMetric`: a (pointer to a) distribution or list, possibly nil; a flag, which may or
may not implement `flag.Getter`; a function with `nOut` results; a pointer to a variable; anything else, on which
`reflect` panics (a nil interface, a nil pointer, a value that is neither pointer nor function);
`/repo/go/tricorder/metric.go:836-910` -/
inductive RegSpec where
  | dist (i : Option ℕ)
  | list (i : Option ℕ)
  | flag (g : ℕ) (getter : Bool)
  | func (nOut : ℕ) (f : ℕ)
  | ptr (v : ℕ)
  | invalid
deriving DecidableEq, Repr

/-- `registerDirectory`, `/repo/go/tricorder/metric.go:1697-1707` -/
def registerDirectory (d : ℕ) : List Str → Prog (Except RegErr ℕ)
  | [] => .ret (.ok d)
  | part :: rest => .op (.createDir d part) fun
    | .error e => .ret (.error e)
    | .ok d' => registerDirectory d' rest

/-- `newValueForDist`, `/repo/go/tricorder/metric.go:825-832`; setting the unit of a nil
distribution panics -/
def newValueForDist (i : Option ℕ) (unit : MUnit) : Prog (Out (Except RegErr MValue)) :=
  match i with
  | none => .ret .panic
  | some i => .op (.setUnit i unit) fun
    | none => .ret .panic
    | some false => .ret (.ok (.error .wrongUnit))
    | some true => .ret (.ok (.ok ⟨none, none, some i, none, .dist, false, unit⟩))

/-- the type of a flag's value decides the metric type; not supported: the flag is a string,
`/repo/go/tricorder/metric.go:856-877` -/
def flagValue (g : ℕ) (getter : Bool) (region : Option ℕ) (unit : MUnit) (d : Dyn) :
    Out (Except RegErr MValue) :=
  match d.ty with
  | none => .panic
  | some ty => match getPrimitiveType ty with
    | none => .ok (.ok ⟨some (.flagString g), region, none, none, .string, false, unit⟩)
    | some (t, isPtr) =>
      .ok (.ok ⟨some (if getter then .flagGet g else .flagString g), region, none, none, t, isPtr,
        unit⟩)

/-- `newValue`, `/repo/go/tricorder/metric.go:836-909`.  `fnTy` gives the static result types of
functions. -/
def newValue (fnTy : ℕ → GoTy) (spec : RegSpec) (region : Option ℕ) (unit : MUnit) :
    Prog (Out (Except RegErr MValue)) :=
  match spec with
  | .dist i => newValueForDist i unit
  | .list i => .ret (.ok (.ok ⟨none, none, none, i, .list, false, unit⟩))
  | .flag g true => .op (.callFlagGet g) fun
    | none => .ret .panic
    | some d => .ret (flagValue g true region unit d)
  | .flag g false => .op (.callFlagString g) fun
    | none => .ret .panic
    | some s => .ret (flagValue g false region unit (.scalar none (.string s)))
  | .func nOut f =>
    if nOut ≠ 1 then .ret .panic
    else match getPrimitiveType (fnTy f) with
      | none => .ret (.ok (.error .wrongType))
      | some (t, isPtr) => .ret (.ok (.ok ⟨some (.fn f), region, none, none, t, isPtr, unit⟩))
  | .ptr v => .op (.readVar v) fun
    | none => .ret .panic
    | some d => match d.ty with
      | none => .ret .panic
      | some ty => match getPrimitiveType ty with
        | none => .ret (.ok (.error .wrongType))
        | some (t, isPtr) => .ret (.ok (.ok ⟨some (.var v), region, none, none, t, isPtr, unit⟩))
  | .invalid => .ret .panic

/-- `registerMetric`, `/repo/go/tricorder/metric.go:1709-1730` -/
def registerMetric (fnTy : ℕ → GoTy) (d : ℕ) (path : List Str) (spec : RegSpec) (region : Option ℕ)
    (unit : MUnit) (description : Str) : Prog (Out (Except RegErr Unit)) :=
  if pathEmpty path then .ret (.ok (.error .pathInUse))
  else match pathDir path, pathBase path with
    | some dir, some base =>
      (registerDirectory d dir).bind fun
        | .error e => .ret (.ok (.error e))
        | .ok current => (newValue fnTy spec region unit).bind fun
          | .panic => .ret .panic
          | .ok (.error e) => .ret (.ok (.error e))
          | .ok (.ok v) => .op (.storeMetric current base description v) fun
            | .error e => .ret (.ok (.error e))
            | .ok _ => .ret (.ok (.ok ()))
    | _, _ => .ret .panic

/-- `getDirectoryAndError`, `/repo/go/tricorder/metric.go:1615-1629` -/
def getDirectoryAndError (d : ℕ) : List Str → Prog (Except RegErr ℕ)
  | [] => .ret (.ok d)
  | part :: rest => .op (.getEntry d part) fun
    | none => .ret (.error .notFound)
    | some (_, n) => match n.dir with
      | none => .ret (.error .pathInUse)
      | some d' => getDirectoryAndError d' rest

/-- `getDirectory`, `/repo/go/tricorder/metric.go:1631-1641`; `none` is nil -/
def getDirectory (d : ℕ) : List Str → Prog (Option ℕ)
  | [] => .ret (some d)
  | part :: rest => .op (.getEntry d part) fun
    | none => .ret none
    | some (_, n) => match n.dir with
      | none => .ret none
      | some d' => getDirectory d' rest

/-- `getDirectoryOrMetric`, `/repo/go/tricorder/metric.go:1643-1657` -/
def getDirectoryOrMetric (d : ℕ) (path : List Str) : Prog (Option ℕ × Option ℕ) :=
  match pathDir path, pathBase path with
  | some dir, some base =>
    (getDirectory d dir).bind fun
      | none => .ret (none, none)
      | some d' => .op (.getEntry d' base) fun
        | none => .ret (none, none)
        | some (_, n) => .ret (n.dir, n.metric)
  | _, _ => .ret (some d, none)

/-- `unregisterPath`, `/repo/go/tricorder/metric.go:1739-1748` -/
def unregisterPath (d : ℕ) (path : List Str) : Prog Unit :=
  match pathDir path, pathBase path with
  | some dir, some base =>
    (getDirectory d dir).bind fun
      | none => .ret ()
      | some d' => .op (.removeEntry d' base) fun _ => .ret ()
  | _, _ => .ret ()

/-! ### the public interface -/

/-- `RegisterMetricInGroup`, `/repo/go/tricorder/api.go:133-141`, and the method of `DirectorySpec`,
`/repo/go/tricorder/api.go:393-400`; package level functions have `d = 0`, functions without a
group argument use `DefaultGroup`, which is group 0.  A nil group is `none`. -/
def apiRegisterMetric (fnTy : ℕ → GoTy) (d : ℕ) (path : Str) (spec : RegSpec) (group : Option ℕ)
    (unit : MUnit) (description : Str) : Prog (Out (Except RegErr Unit)) :=
  registerMetric fnTy d (newPathSpec path) spec group unit description

/-- `RegisterDirectory`, `/repo/go/tricorder/api.go:370-373` and the method,
`/repo/go/tricorder/api.go:404-408` -/
def apiRegisterDirectory (d : ℕ) (path : Str) : Prog (Except RegErr ℕ) :=
  registerDirectory d (newPathSpec path)

/-- `GetDirectory`, `/repo/go/tricorder/api.go:360-363` -/
def apiGetDirectory (path : Str) : Prog (Except RegErr ℕ) :=
  getDirectoryAndError 0 (newPathSpec path)

/-- `UnregisterPath`, `/repo/go/tricorder/api.go:145-147` and the method,
`/repo/go/tricorder/api.go:417-419` -/
def apiUnregisterPath (d : ℕ) (path : Str) : Prog Unit := unregisterPath d (newPathSpec path)

/-- `UnregisterDirectory`, `/repo/go/tricorder/api.go:427-429` -/
def apiUnregisterDirectory (d : ℕ) : Prog Unit := .op (.unregisterDir d) fun _ => .ret ()

/-- `GetDirectoryOrMetric`, `/repo/go/tricorder/metric.go:1548-1551` -/
def lookupPath (d : ℕ) (path : Str) : Prog (Option ℕ × Option ℕ) :=
  getDirectoryOrMetric d (newPathSpec path)

/-- `GetMetric`, `/repo/go/tricorder/metric.go:1503-1506` -/
def getMetric (d : ℕ) (path : Str) : Prog (Option ℕ) :=
  (lookupPath d path).bind fun r => .ret r.2

end Tricorder
