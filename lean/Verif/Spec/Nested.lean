import Verif.Model.Nested
import Mathlib.Logic.Relation
/-!
# What it means that nothing blocks when update functions read metrics
-/

namespace Tricorder.Group.Nested

variable {τ : Type} [Inhabited τ]

/-- all sessions are closed and all event loops wait for requests -/
def Settled (s : St τ) : Prop := (∀ cl ∈ s.grp.clients, Closed cl) ∧ ∀ g ∈ s.grp.regions, g.loop = .select

/-- whatever happened, everything that is going on can be brought to an end without anything new -/
def NeverStuck (τ : Type) [Inhabited τ] (may : ℕ → ℕ → Prop) : Prop :=
  ∀ tr (s : St τ), Run may (init τ) tr s → ∃ tr' s', Run may s tr' s' ∧ s'.grp.clients.length = s.grp.clients.length ∧ Settled s'

/-- groups do not depend on themselves -/
def Acyclic (may : ℕ → ℕ → Prop) : Prop := ∀ q, ¬ Relation.TransGen may q q

end Tricorder.Group.Nested
