import Verif.Spec.Listing
/-!
# What a request should do with groups, times and odd numbers
-/

namespace Tricorder.Spec
open Go

/-- how the request itself takes (`true`) and releases (`false`) group `r` -/
def moves (r : ℕ) : List Ev → List Bool
  | [] => []
  | e :: h => match e.own, e.cmd with
    | true, .rlock r' => if r' = r then true :: moves r h else moves r h
    | true, .runlock r' => if r' = r then false :: moves r h else moves r h
    | _, _ => moves r h

/-- taken and released alternately, beginning free and ending free -/
inductive Paired : List Bool → Prop where
  | none : Paired []
  | more {l} : Paired l → Paired (true :: false :: l)

/-- the time stamp of every distribution and list with group id `g` stays the same -/
def Settled (S : State → Prop) (g : ℕ) : Prop :=
  (∀ (σ σ' : State) (i : ℕ) (d d' : Dist Fl), S σ → S σ' → σ.dists[i]? = some d → σ'.dists[i]? = some d' →
    d.groupId = g → d.timeStamp = d'.timeStamp) ∧
  (∀ (σ σ' : State) (i : ℕ) (l l' : ListObj), S σ → S σ' → σ.lists[i]? = some l → σ'.lists[i]? = some l' →
    l.groupId = g → l.timeStamp = l'.timeStamp)

/-- an infinite or NaN floating point number -/
def OddFloat : Val → Prop
  | .scalar _ (.float32 x) => x.isInf = true ∨ x.isNaN = true
  | .scalar _ (.float64 x) => x.isInf = true ∨ x.isNaN = true
  | _ => False

/-- the sources of metric `m` are infinite or NaN always or never -/
def Steady (w : World) (S : State → Prop) (m : ℕ) : Prop :=
  ∀ σ mv sc, S σ → metricView σ.tree m = some mv → mv.value.src = some sc →
    ∀ σ₁ σ₂ d₁ d₂, S σ₁ → S σ₂ → current w σ₁ sc = some d₁ → current w σ₂ sc = some d₂ →
      (InfNaN d₁ ↔ InfNaN d₂)

/-- the source that a step reads -/
def readsSource : Cmd → Option Src
  | .readVar v => some (.var v)
  | .callFn f => some (.fn f)
  | .callFlagGet g => some (.flagGet g)
  | .callFlagString g => some (.flagString g)
  | _ => none

/-- the request holds group `r` after the steps `h`: it took it and did not release it -/
def Taken (r : ℕ) (h : List Ev) : Prop := (moves r h).getLast? = some true

/-- Whenever the request reads a variable, calls a callback or asks a flag, it does so for a metric
with this source, and it holds the group of this metric. -/
def ReadsHolding (S : State → Prop) (h : List Ev) : Prop :=
  ∀ before e after sc, h = before ++ e :: after → e.own = true → readsSource e.cmd = some sc →
    ∃ σ m mv, S σ ∧ metricView σ.tree m = some mv ∧ mv.value.src = some sc ∧
      ∀ r, mv.value.region = some r → Taken r before

end Tricorder.Spec
