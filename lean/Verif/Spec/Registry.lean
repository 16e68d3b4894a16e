import Verif.Model.Registry
import Verif.Spec.Tree
/-!
# What registering a value means
-/

namespace Tricorder.Spec
open Go

/-- The types a metric can have: booleans, integers, floats and strings, also with a user-declared
name; `time.Time`, `*time.Time` and `time.Duration`.  A user-declared type over `time.Time` is a struct
type of its own and is not supported. -/
def Supported : GoTy → Bool
  | .timePtr => true
  | .scalar ⟨none, _⟩ => true
  | .scalar ⟨some _, b⟩ => decide (b ≠ .time)
  | .other _ => false

/-- the error, if any, that the value itself causes in state `s` -/
def valueSays (w : World) (s : State) (unit : MUnit) : RegSpec → Out (Option RegErr)
  | .dist none => .panic
  | .dist (some i) => match s.dists[i]? with
    | none => .panic
    | some d => .ok (if d.unitSet ∧ d.unit ≠ unit then some .wrongUnit else none)
  | .list _ => .ok none
  | .flag g true => match w.flagGet s g with
    | none => .panic
    | some d => if d = .invalid then .panic else .ok none
  | .flag g false => match w.flagString s g with
    | none => .panic
    | some _ => .ok none
  | .func n f =>
    if n = 1 then .ok (if Supported (w.fnTy f) then none else some .wrongType) else .panic
  | .ptr v => match s.vars[v]? with
    | none => .panic
    | some d => match d.ty with
      | none => .panic
      | some ty => .ok (if Supported ty then none else some .wrongType)
  | .invalid => .panic

/-- the metric value `v` stands for what was registered -/
def StandsFor (v : MValue) (spec : RegSpec) (group : Option ℕ) (unit : MUnit) : Prop :=
  v.unit = unit ∧ match spec with
    | .dist i => v.dist = i ∧ v.src = none ∧ v.alist = none
    | .list i => v.alist = i ∧ v.src = none ∧ v.dist = none
    | .flag g getter => v.dist = none ∧ v.alist = none ∧ v.region = group ∧
        (v.src = some (.flagString g) ∨ getter = true ∧ v.src = some (.flagGet g))
    | .func _ f => v.dist = none ∧ v.alist = none ∧ v.region = group ∧ v.src = some (.fn f)
    | .ptr x => v.dist = none ∧ v.alist = none ∧ v.region = group ∧ v.src = some (.var x)
    | .invalid => False

/-- `s'` differs from `s` at most in the unit of the distribution registered -/
def OnlyUnit (s s' : State) (spec : RegSpec) (unit : MUnit) : Prop :=
  s' = s ∨ ∃ i d, spec = .dist (some i) ∧ s.dists[i]? = some d ∧ d.unitSet = false ∧
    s' = { s with dists := s.dists.set i { d with unitSet := true, unit := unit } }

end Tricorder.Spec
