import Verif.Go.Num
/-!
# Package `units`

Models `/repo/go/tricorder/units/api.go`.
-/

namespace Tricorder
open Go

/-- `units.Unit`, `/repo/go/tricorder/units/api.go:5-15`.  In Go this is a `string`; the seven
constants are constructors here and `other s` stands for every string different from them. -/
inductive MUnit where
  | unknown | none | millisecond | second | celsius | byte | bytePerSecond
  | other (s : Str)
deriving DecidableEq, Repr

/-- `units.FromSecondsRational`, `/repo/go/tricorder/units/api.go:34-41`. -/
def fromSecondsRational : MUnit → Int × Int
  | .millisecond => (1000, 1)
  | _ => (1, 1)

end Tricorder
