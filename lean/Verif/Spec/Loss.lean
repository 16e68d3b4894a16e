import Verif.Spec.Messages
/-!
# What JSON makes of the zero time
-/

namespace Spec
open Tricorder Go

/-- the epoch instead of the zero time -/
def epochFor (t : Time) : Time := if t = Time.zero then ⟨0, 0⟩ else t

/-- in a value that is not a composite -/
def epochForBase : Base → Base
  | .time t => .time (epochFor t)
  | b => b

/-- everywhere in a value -/
def epochForZero : Val → Val
  | .scalar n b => .scalar n (epochForBase b)
  | .slice n e es => .slice n e (es.map fun l => l.map epochForBase)
  | v => v

end Spec
