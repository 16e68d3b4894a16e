import Verif.Go.Utf8
/-!
# Relative paths

Models `pathSpec` (go/tricorder/metric.go).  A path specification is the list of its
components.
-/

namespace Tricorder
open Go

/-- `newPathSpec`, `/repo/go/tricorder/metric.go:1803-1816`: split at `/`, keep the parts
that are not white space only, unchanged.  The in-place compaction of the Go slice is a
filter. -/
def newPathSpec (path : Str) : List Str :=
  (splitByte 47 path).filter fun part => decide (trimSpace part ≠ [])

/-- `pathSpec.Dir`, `/repo/go/tricorder/metric.go:1820-1826`; `none` is the panic on an empty path. -/
def pathDir (p : List Str) : Option (List Str) :=
  if p.length = 0 then none else some (p.take (p.length - 1))

/-- `pathSpec.Base`, `/repo/go/tricorder/metric.go:1830-1836`; `none` is the panic on an empty
path. -/
def pathBase (p : List Str) : Option Str :=
  if p.length = 0 then none else p[p.length - 1]?

/-- `pathSpec.Empty`, `/repo/go/tricorder/metric.go:1839-1841` -/
def pathEmpty (p : List Str) : Bool := decide (p.length = 0)

/-- `pathSpec.String`, `/repo/go/tricorder/metric.go:1843-1845` -/
def pathString (p : List Str) : Str := joinByte 47 p

end Tricorder
