import Verif.Spec.Embed
import Verif.Spec.Record
/-!
# Asking twice for a distribution
-/

namespace Tricorder.Whole
open Go _root_.Spec

variable {A : Type}

/-- metric `m` is in the answer of a request that began with step `x` and is finished in `s` -/
inductive Answered (json : Bool) (x : Item Answer) (s : St Answer) (m : Metric) : Prop where
  | listing {c fuel : ℕ} {path : Str} {ms : List Metric} {st : Status} {held : List (ℕ × ℕ)} :
      x.lab = .spawn c (listCall json fuel path) → s.procs[c]? = some ⟨.run (.ret (.listing ms st)), held⟩ → m ∈ ms →
      Answered json x s m
  | single {c : ℕ} {path : Str} {held : List (ℕ × ℕ)} :
      x.lab = .spawn c (getCall json path) → s.procs[c]? = some ⟨.run (.ret (.single (some (.ok m)))), held⟩ →
      Answered json x s m

/-- the distribution `j` has the group id `g` -/
def HasId (σ : State) (j g : ℕ) : Bool := decide ((σ.dists[j]?.map Dist.groupId) = some g)

/-- the step is a call of Add, Update or Remove on the distribution with group id `g` that returned normally -/
def Changes (w : World) (g : ℕ) (it : Item A) : Bool :=
  match memStep it with
  | some (.distCall j c) => HasId it.pre j g && ((isAdd c || isUpdate c || isRemove c) &&
      decide ((show Option DPanic from (exec w (.distCall j c) it.pre).2) = none))
  | _ => false

/-- the step is an Update or a Remove on the distribution with group id `g` that panicked because the range of the old value is
empty -/
def Spoils (w : World) (g : ℕ) (it : Item A) : Bool :=
  match memStep it with
  | some (.distCall j c) => HasId it.pre j g &&
      decide ((show Option DPanic from (exec w (.distCall j c) it.pre).2) = some .badValue)
  | _ => false

/-- all distributions are made by bucketers -/
def FromBucketers (tr : List (Item A)) : Prop :=
  ∀ it ∈ tr, ∀ pieces nc ts, memStep it = some (.newDist pieces nc ts) → ∃ l : List Fl, newArbitraryBucketer l = .ok pieces

/-- One request is answered, later another one is made and answered.  `m` is in the first answer and `n` in the second one; both
are distributions and have the same group id.  In between are the steps `c`. -/
structure AskedTwice (w : World) (json : Bool) (a : List (Item Answer)) (x : Item Answer) (b c : List (Item Answer)) (y : Item Answer)
    (d : List (Item Answer)) (m n : Metric) : Prop where
  first : ∃ s, Run w (a ++ x :: b) s ∧ Answered json x s m
  second : ∃ s, Run w (a ++ x :: b ++ c ++ y :: d) s ∧ Answered json y s n
  made : FromBucketers (a ++ x :: b ++ c ++ y :: d)
  short : (a ++ x :: b ++ c ++ y :: d).length < 2 ^ 64
  kinds : m.kind = .dist ∧ n.kind = .dist
  same : m.groupId = n.groupId

/-- `l` are the steps from a moment in `b` to a moment in `d` -/
def Between (b c : List (Item A)) (y : Item A) (d l : List (Item A)) : Prop :=
  ∃ b1 b2 d1 d2, b = b1 ++ b2 ∧ d = d1 ++ d2 ∧ l = b2 ++ c ++ y :: d1

/-- the ranges without their counts -/
def bounds (D : DistMsg) : List (Fl × Fl) := D.ranges.map fun r => (r.lower, r.upper)

/-- the counts of the ranges -/
def counts (D : DistMsg) : List ℕ := D.ranges.map fun r => r.count

end Tricorder.Whole
