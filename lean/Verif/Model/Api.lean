import Verif.Model.Registry
/-!
# The public functions for registering

`Model/Registry` has one function with all parameters.  Here are the functions of the package, as they call it.
Directories are not nil.
-/

namespace Tricorder.Api
open Go

/-- the root directory and `DefaultGroup`; `/repo/go/tricorder/metric.go:33`, `/repo/go/tricorder/api.go:62-66` -/
def root : ℕ := 0
/-- `DefaultGroup`, the group created first; `/repo/go/tricorder/api.go:62-66` -/
def defaultGroup : ℕ := 0

/-- `RegisterMetric`, `/repo/go/tricorder/api.go:117-128` -/
def registerMetric (fnTy : ℕ → GoTy) (path : Str) (metric : RegSpec) (unit : MUnit) (description : Str) :
    Prog (Out (Except RegErr Unit)) :=
  Tricorder.registerMetric fnTy root (newPathSpec path) metric (some defaultGroup) unit description

/-- `RegisterMetricInGroup`, `/repo/go/tricorder/api.go:133-141` -/
def registerMetricInGroup (fnTy : ℕ → GoTy) (path : Str) (metric : RegSpec) (g : Option ℕ) (unit : MUnit) (description : Str) :
    Prog (Out (Except RegErr Unit)) :=
  Tricorder.registerMetric fnTy root (newPathSpec path) metric g unit description

/-- `Group.RegisterMetric`, `/repo/go/tricorder/api.go:83-90` -/
def groupRegisterMetric (fnTy : ℕ → GoTy) (g : Option ℕ) (path : Str) (metric : RegSpec) (unit : MUnit) (description : Str) :
    Prog (Out (Except RegErr Unit)) :=
  Tricorder.registerMetric fnTy root (newPathSpec path) metric g unit description

/-- `DirectorySpec.RegisterMetric`, `/repo/go/tricorder/api.go:377-388` -/
def dirRegisterMetric (fnTy : ℕ → GoTy) (d : ℕ) (path : Str) (metric : RegSpec) (unit : MUnit) (description : Str) :
    Prog (Out (Except RegErr Unit)) :=
  Tricorder.registerMetric fnTy d (newPathSpec path) metric (some defaultGroup) unit description

/-- `DirectorySpec.RegisterMetricInGroup`, `/repo/go/tricorder/api.go:393-400` -/
def dirRegisterMetricInGroup (fnTy : ℕ → GoTy) (d : ℕ) (path : Str) (metric : RegSpec) (g : Option ℕ) (unit : MUnit)
    (description : Str) : Prog (Out (Except RegErr Unit)) :=
  Tricorder.registerMetric fnTy d (newPathSpec path) metric g unit description

/-- `DirectoryGroup`, `/repo/go/tricorder/api.go:30-33` -/
structure DirectoryGroup where
  group : Option ℕ
  directory : ℕ

/-- `DirectoryGroup.RegisterMetric`, `/repo/go/tricorder/api.go:38-45` -/
def DirectoryGroup.registerMetric (dg : DirectoryGroup) (fnTy : ℕ → GoTy) (path : Str) (metric : RegSpec) (unit : MUnit)
    (description : Str) : Prog (Out (Except RegErr Unit)) :=
  dirRegisterMetricInGroup fnTy dg.directory path metric dg.group unit description

/-- `RegisterDirectory`, `/repo/go/tricorder/api.go:370-373` -/
def registerDirectory (path : Str) : Prog (Except RegErr ℕ) := Tricorder.registerDirectory root (newPathSpec path)

/-- `DirectorySpec.RegisterDirectory`, `/repo/go/tricorder/api.go:404-408` -/
def dirRegisterDirectory (d : ℕ) (path : Str) : Prog (Except RegErr ℕ) := Tricorder.registerDirectory d (newPathSpec path)

/-- `UnregisterPath`, `/repo/go/tricorder/api.go:145-147` -/
def unregisterPath (path : Str) : Prog Unit := Tricorder.unregisterPath root (newPathSpec path)

/-- `DirectorySpec.UnregisterPath`, `/repo/go/tricorder/api.go:417-419` -/
def dirUnregisterPath (d : ℕ) (path : Str) : Prog Unit := Tricorder.unregisterPath d (newPathSpec path)

/-- `DirectorySpec.UnregisterDirectory`, `/repo/go/tricorder/api.go:427-429` -/
def unregisterDirectory (d : ℕ) : Prog Unit := .op (.unregisterDir d) fun _ => .ret ()

/-- `directory.GetDirectory`, `/repo/go/tricorder/metric.go:1497-1499` -/
def dirGetDirectory (d : ℕ) (path : Str) : Prog (Option ℕ) := Tricorder.getDirectory d (newPathSpec path)

/-- `directory.GetDirectoryOrMetric`, `/repo/go/tricorder/metric.go:1548-1551` -/
def dirGetDirectoryOrMetric (d : ℕ) (path : Str) : Prog (Option ℕ × Option ℕ) := Tricorder.getDirectoryOrMetric d (newPathSpec path)

/-- `directory.GetMetric`, `/repo/go/tricorder/metric.go:1503-1506` -/
def dirGetMetric (d : ℕ) (path : Str) : Prog (Option ℕ) := (dirGetDirectoryOrMetric d path).bind fun r => .ret r.2

end Tricorder.Api
