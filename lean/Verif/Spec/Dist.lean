import Verif.Model.Dist
/-!
# Specification of distributions

What a user of `Bucketer` and `Distribution` knows: ranges, call histories with their outcomes and
the collection of values currently in a distribution.
-/

namespace Spec
open Tricorder Go

/-- the range of a piece contains the float64 `v` -/
def Contains (p : Piece Fl) (v : Fl) : Prop :=
  (p.first = true ∨ Fl.le p.start v = true) ∧ (p.last = true ∨ Fl.lt v p.stop = true)

instance (p : Piece Fl) (v : Fl) : Decidable (Contains p v) := by unfold Contains; infer_instance

/-- no NaN, and in ascending order (equal neighbours allowed) -/
def Ascending (l : List Fl) : Prop := (∀ x ∈ l, x ≠ .nan) ∧ l.Pairwise (fun a b => Fl.le a b = true)

instance (l : List Fl) : Decidable (Ascending l) := by unfold Ascending; infer_instance

/-- range number `i` for the endpoints `l`: below the first endpoint, from an endpoint to the next,
or at or above the last one -/
def range {F : Type} [Arith F] (l : List F) : ℕ → Option (Piece F)
  | 0 => l.head?.map fun e => ⟨Arith.lit 0, e, true, false⟩
  | i + 1 => match l[i]?, l[i + 1]? with
    | some a, some b => some ⟨a, b, false, false⟩
    | some a, none => some ⟨a, Arith.lit 0, false, true⟩
    | none, _ => none

/-- the calls of a history with what each one did: `none` for a normal return, or the panic -/
def trace (d : Dist Fl) : List DCall → List (DCall × Option DPanic)
  | [] => []
  | c :: cs => (c, (d.call c).2) :: trace (d.call c).1 cs

def isAdd : DCall → Bool
  | .add _ _ => true
  | _ => false
def isUpdate : DCall → Bool
  | .update _ _ _ => true
  | _ => false
def isRemove : DCall → Bool
  | .remove _ _ => true
  | _ => false
/-- the time stamp a call carries -/
def stamp : DCall → Option Time
  | .setUnit _ => none
  | .add _ ts | .update _ _ ts | .remove _ ts => some ts

/-- the time stamp of the latest call with one of the given outcomes -/
def lastStamp (outs : List (Option DPanic)) : Time → List (DCall × Option DPanic) → Time
  | t, [] => t
  | t, (c, o) :: rest =>
    match stamp c with
    | some ts => if o ∈ outs then lastStamp outs ts rest else lastStamp outs t rest
    | none => lastStamp outs t rest

/-- number of calls of a sort with a given outcome -/
def number (sort : DCall → Bool) (out : Option DPanic) (t : List (DCall × Option DPanic)) : ℕ :=
  (t.filter fun x => sort x.1 && decide (x.2 = out)).length

/-- the unit named first -/
def firstUnit : List DCall → Option MUnit
  | [] => none
  | .setUnit u :: _ => some u
  | _ :: cs => firstUnit cs

/-- the counts of the ranges, as a snapshot shows them -/
def rangeCounts {F : Type} (s : Snapshot F) : List ℕ := s.breakdown.map (·.2)

/-- The values in the distribution after a sequence of operations, starting from the given ones;
`none` if some update or removal names a value that is not there. -/
def current {F : Type} [DecidableEq F] : List F → List (DOp F) → Option (List F)
  | vs, [] => some vs
  | vs, .add v _ :: ops => current (v :: vs) ops
  | vs, .remove v _ :: ops => if v ∈ vs then current (vs.erase v) ops else none
  | vs, .update o n _ :: ops => if o ∈ vs then current (n :: vs.erase o) ops else none

/-- every value ever added or updated to -/
def mentioned {F : Type} : List (DOp F) → List F
  | [] => []
  | .add v _ :: ops => v :: mentioned ops
  | .remove _ _ :: ops => mentioned ops
  | .update _ n _ :: ops => n :: mentioned ops

def isAddOp {F : Type} : DOp F → Bool
  | .add _ _ => true
  | _ => false

/-- the float64 that a value of supported type stands for in a distribution with the given unit -/
def amount (unit : MUnit) : Val → Option Fl
  | .scalar none (.float64 x) => some x
  | .scalar none (.float32 x) => some (Fl.conv b64 x)
  | .scalar none (.duration d) =>
    match unit with
    | .second => some (Fl.div b64 (Fl.ofInt b64 d) (.fin 1000000000))
    | .millisecond => some (Fl.div b64 (Fl.ofInt b64 d) (.fin 1000000))
    | _ => none
  | _ => none

/-- the operation on numbers that a call stands for once the unit is known; calls with
unsupported values, and `SetUnit`, stand for none -/
def toOp (unit : MUnit) : DCall → Option (DOp Fl)
  | .setUnit _ => none
  | .add v ts => (amount unit v).map fun x => .add x ts
  | .remove v ts => (amount unit v).map fun x => .remove x ts
  | .update o n ts => match amount unit o, amount unit n with
    | some x, some y => some (.update x y ts)
    | _, _ => none

end Spec
