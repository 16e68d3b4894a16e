import Verif.Model.Types
/-!
# Small public functions that the library itself does not call
-/

namespace Tricorder
open Go

/-- `Type.ZeroValue`, `/repo/go/tricorder/types/api.go:172-178`; `none` is a panic -/
def Ty.zeroValue (t : Ty) : Option Val := safeZeroValue t

/-- `Type.NilSlice`, `/repo/go/tricorder/types/api.go:219-225`; `none` is a panic -/
def Ty.nilSlice (t : Ty) : Option Val := safeNilSlice t

/-- `units.FromSeconds`, `/repo/go/tricorder/units/api.go:27-30` -/
def fromSeconds (u : MUnit) : Fl :=
  Fl.div b64 (Fl.ofInt b64 (fromSecondsRational u).1) (Fl.ofInt b64 (fromSecondsRational u).2)

end Tricorder
