import Verif.Model.Zero
/-! # What the properties of declared groups say -/

namespace Tricorder.Group
open Zero

variable {τ : Type}

/-- events without the ids; a declared group is one that was made and is never used -/
def bare : Ev τ → Ev τ
  | .newGroup r f _ => .newGroup r f 0
  | .newOther _ => .newOther 0
  | e => e

/-- the same of the events with declarations -/
def bareZ : ZEv τ → Ev τ
  | .declared r => .newGroup r 0 0
  | .ev e => bare e

end Tricorder.Group
