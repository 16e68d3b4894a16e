import Verif.Spec.Messages
/-!
# What a client may send: specification of incoming JSON metrics
-/

namespace Spec
open Tricorder Go

/-- the text of a number that the duration parser reads (C42) -/
def Decimal (s : Str) : Prop := ∃ v, LaxDecimal s v

/-- `s`, in the unit `u`, is `v` nanoseconds, fractions of a nanosecond cut off -/
def Reads (s : Str) (u : MUnit) (v : ℤ) : Prop := ∃ x, LaxDecimal s x ∧ v = quo x (perSecond u)

/-- a metric that can be put in Go RPC form: times and durations are decimal text, and the time stamp is absent, a time,
empty or decimal text -/
structure Readable (m : Metric) : Prop where
  scalar : m.kind = .time ∨ m.kind = .duration → ∃ s, m.value = .scalar none (.string s) ∧ Decimal s
  list : m.kind = .list → m.subType = .time ∨ m.subType = .duration →
    ∃ es, m.value = .slice none ⟨none, .string⟩ es ∧ ∀ b ∈ es.getD [], ∃ s, b = .string s ∧ Decimal s
  ts : m.timeStamp = .nil ∨ (∃ t, m.timeStamp = .time t) ∨ m.timeStamp = .str [] ∨ ∃ s, m.timeStamp = .str s ∧ Decimal s

/-- Go RPC form -/
structure GoForm (m : Metric) : Prop where
  kind : m.kind ≠ .time ∧ m.kind ≠ .duration
  subType : m.subType ≠ .time ∧ m.subType ≠ .duration
  ts : m.timeStamp = .nil ∨ ∃ t, m.timeStamp = .time t

end Spec
