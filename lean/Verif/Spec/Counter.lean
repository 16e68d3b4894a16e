import Verif.Spec.Order
/-!
# Counters
-/

namespace Tricorder.Whole
open Go _root_.Spec

variable {A : Type}

/-- the metric type of an integer type -/
def intTy : IntKind → Ty
  | .int8 => .int8
  | .int16 => .int16
  | .int32 => .int32
  | .int64 | .int => .int64
  | .uint8 => .uint8
  | .uint16 => .uint16
  | .uint32 => .uint32
  | .uint64 | .uint => .uint64

/-- after the steps `tr` the source, a variable or a function, gives the integer `x` -/
def GivesInt (w : World) (sc : Src) (tr : List (Item A)) (x : ℤ) : Prop :=
  ∃ nm k, Tricorder.Spec.current w (after w (tr.filterMap memStep) State.init) sc = some (.scalar nm (.int k x))

/-- A counter: whenever it has a value, it is an integer of the type `k`, and it never falls. -/
structure Counter (w : World) (sc : Src) (k : IntKind) (tr : List (Item A)) : Prop where
  int : ∀ p q d, tr = p ++ q → Tricorder.Spec.current w (after w (p.filterMap memStep) State.init) sc = some d →
    ∃ nm x, d = .scalar nm (.int k x) ∧ k.InRange x
  grows : ∀ p l q x y, tr = p ++ l ++ q → GivesInt w sc p x → GivesInt w sc (p ++ l) y → x ≤ y

/-- every metric that was ever registered at this path shows the source `sc` -/
def FromSource (T : Tree MValue) (path : Str) (sc : Src) : Prop :=
  ∀ id mv, metricView T id = some mv → mv.path = path → mv.value.src = some sc

/-- the metric shows the integer `x` -/
def ShowsInt (m : Metric) (x : ℤ) : Prop := ∃ nm k, m.value = .scalar nm (.int k x)

/-- One request is answered, later another one is made and answered; `m` is in the first answer and `n` in the second one, and both
show the counter `sc`. -/
structure CounterAsked (w : World) (json : Bool) (sc : Src) (k : IntKind) (a : List (Item Answer)) (x : Item Answer)
    (b c : List (Item Answer)) (y : Item Answer) (d : List (Item Answer)) (m n : Metric) : Prop where
  first : ∃ s, Run w (a ++ x :: b) s ∧ Answered json x s m ∧ FromSource s.mem.tree m.path sc
  second : ∃ s, Run w (a ++ x :: b ++ c ++ y :: d) s ∧ Answered json y s n ∧ FromSource s.mem.tree n.path sc
  kinds : m.kind = intTy k ∧ n.kind = intTy k
  counter : Counter w sc k (a ++ x :: b ++ c ++ y :: d)

/-- In the listing that begins at `x` and has taken the steps `b`, metric `m` comes somewhere before metric `n`, and both show the
counter `sc`. -/
structure CounterListed (w : World) (json : Bool) (sc : Src) (k : IntKind) (a : List (Item Answer)) (x : Item Answer)
    (b : List (Item Answer)) (m n : Metric) : Prop where
  listed : ∃ s c fuel path ms st held A B C, Run w (a ++ x :: b) s ∧ x.lab = .spawn c (listCall json fuel path) ∧
    s.procs[c]? = some ⟨.run (.ret (.listing ms st)), held⟩ ∧ ms = A ++ m :: B ++ n :: C ∧
    FromSource s.mem.tree m.path sc ∧ FromSource s.mem.tree n.path sc
  kinds : m.kind = intTy k ∧ n.kind = intTy k
  counter : Counter w sc k (a ++ x :: b)

end Tricorder.Whole
