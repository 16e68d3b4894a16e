import Verif.Proof.Nested3
import Verif.Proof.NestedSim
/-!
# Update functions and functions registered as metrics that read metrics themselves (C86)
-/

namespace Tricorder.Group.Nested
open Go

variable {τ : Type} [Inhabited τ]

/-- **C86** All that is proved of groups (C14 to C21, C24) also holds when update functions and metrics read metrics: the
groups and requests go through the same states with the same events. -/
theorem C86_same_guarantees (may : ℕ → ℕ → Prop) (tr : List (Ev τ)) (s : St τ) (h : Run may (init τ) tr s) :
    Group.Run (Group.init τ) tr s.grp := h.grp

/-- **C86** If no group depends on itself, everything underway can end, at any time. -/
theorem C86_can_finish (may : ℕ → ℕ → Prop) (h : Acyclic may) : NeverStuck τ may := neverStuck_of_acyclic h

/-- **C86** Functions registered as metrics may read any metrics, to any depth, also of the group they are read in, as long as the
update functions do not read metrics. -/
theorem C86_metric_functions (may : ℕ → ℕ → Prop) (h : ∀ q r, ¬ may q r) : NeverStuck τ may :=
  neverStuck_of_acyclic fun q hq => by
    cases hq with
    | single h1 => exact h _ _ h1
    | tail _ h1 => exact h _ _ h1

/-- **C86** Going on without new calls ends: each step is a new call, or lessens the work to be done. -/
theorem C86_work (may : ℕ → ℕ → Prop) : ∃ work : State τ → ℕ, ∀ tr (s s' : St τ) es, Run may (init τ) tr s → Step may s es s' →
    NewCall s.grp es s'.grp ∨ work s'.grp < work s.grp :=
  ⟨total, fun _ _ _ _ h hs => step_work (inv_of_run h.grp) hs.grp⟩

/-- **C86** If a group depends on itself, there is a run after which its update function never returns, and its event loop
accepts no request any more, whatever happens. -/
theorem C86_cycle_blocks (may : ℕ → ℕ → Prop) (q : ℕ) (h : Relation.TransGen may q q) :
    ∃ tr, ∃ s : St τ, Run may (init τ) tr s ∧ ∀ tr' s', Run may s tr' s' → ∃ g, s'.grp.regions[q]? = some g ∧ g.loop = .calling := by
  obtain ⟨S, hq, tr, s, h1, h2⟩ := stuck_reachable (τ := τ) h
  exact ⟨tr, s, h1, fun _ _ h3 => (stuck_run h2 h3).calling q hq⟩

/-- **C86** An update function that reads a metric of its own group blocks the group for ever. -/
theorem C86_own_group_blocks (may : ℕ → ℕ → Prop) (q : ℕ) (h : may q q) :
    ∃ tr, ∃ s : St τ, Run may (init τ) tr s ∧ ∀ tr' s', Run may s tr' s' → ∃ g, s'.grp.regions[q]? = some g ∧ g.loop = .calling :=
  C86_cycle_blocks may q (.single h)

/-- **C86** Exactly when no group depends on itself nothing can block. -/
theorem C86_exact (may : ℕ → ℕ → Prop) : NeverStuck τ may ↔ Acyclic may := by
  refine ⟨fun h q hq => ?_, neverStuck_of_acyclic⟩
  obtain ⟨tr, s, h1, h2⟩ := C86_cycle_blocks (τ := τ) may q hq
  obtain ⟨tr', s', h3, -, h4⟩ := h tr s h1
  obtain ⟨g, h5, h6⟩ := h2 tr' s' h3
  rw [h4.2 g (List.mem_of_getElem? h5)] at h6
  cases h6

/-! ### Examples -/

/-- the update function of group 1 may read metrics of group 0 -/
def exMay (q r : ℕ) : Bool := q == 1 && r == 0

/-- requests 0 reads group 1, whose update function reads group 0 through request 1; request 1 calls a function which reads group 0
through request 2 -/
def exNested : List (Move ℤ) :=
  [.does (.newGroup 0), .does (.newGroup 0), .opens none, .does (.visit 0 1), .does (.send 0 1), .does (.handle 1), .opens (some (.upd 1)),
   .does (.visit 1 0), .does (.send 1 0), .does (.handle 0), .does (.updated 0 7), .does (.receive 1 0), .does (.visitDone 1),
   .opens (some (.fn 1)), .does (.visit 2 0), .does (.send 2 0), .does (.handle 0), .does (.receive 2 0), .does (.visitDone 2)]

/-- and then: they end -/
def exNestedEnd : List (Move ℤ) :=
  [.does (.closeBegin 2), .does (.closeNext 2 0), .does (.send 2 0), .does (.handle 0), .does (.receive 2 0), .does (.closeEnd 2),
   .does (.closeBegin 1), .does (.closeNext 1 0), .does (.send 1 0), .does (.handle 0), .does (.receive 1 0), .does (.closeEnd 1),
   .does (.updated 1 8), .does (.receive 0 1), .does (.visitDone 0),
   .does (.closeBegin 0), .does (.closeNext 0 1), .does (.send 0 1), .does (.handle 1), .does (.receive 0 1), .does (.closeEnd 0)]

theorem exMay_acyclic : Acyclic fun q r => exMay q r = true := by
  have h : ∀ a b, Relation.TransGen (fun q r => exMay q r = true) a b → b = 0 ∧ a = 1 := by
    intro a b h
    induction h with
    | single h => simp [exMay] at h; exact ⟨h.2, h.1⟩
    | tail _ h ih => simp [exMay] at h; omega
  intro q hq
  have := h q q hq
  omega

/-- `C86_same_guarantees`, `C86_work`: a run in which the update function of group 1 is reading group 0, to depth 2; the outer
request may not go on, nor may the update function return -/
example : ∃ tr s, Run (fun q r => exMay q r = true) (init ℤ) tr s ∧ s.owners = [none, some (.upd 1), some (.fn 1)] ∧
    ¬ s.Free (.upd 1) ∧ ¬ s.Free (.fn 1) ∧ playN exMay s [.does (.updated 1 8)] = none ∧ playN exMay s [.does (.closeBegin 1)] = none ∧
    (playN exMay s exNestedEnd).isSome := by
  have e : (playN exMay (init ℤ) exNested).isSome = true := by decide +kernel
  obtain ⟨⟨tr, s⟩, h⟩ := Option.isSome_iff_exists.1 e
  have hs : (playN exMay (init ℤ) exNested).map (fun x => decide (x.2.owners = [none, some (.upd 1), some (.fn 1)] ∧
      x.2.grp.clients.map closedB = [false, false, false] ∧ (playN exMay x.2 [.does (.updated 1 8)]).isNone ∧
      (playN exMay x.2 [.does (.closeBegin 1)]).isNone ∧ (playN exMay x.2 exNestedEnd).isSome)) = some true := by decide +kernel
  rw [h, Option.map_some, Option.some.injEq, decide_eq_true_iff] at hs
  obtain ⟨h1, h2, h3, h4, h5⟩ := hs
  have open_ : ∀ (c : ℕ) o, c < 3 → s.owners[c]? = some (some o) → ¬ s.Free o := by
    intro c o hc ho hf
    have hl : s.grp.clients.length = 3 := by simpa using congrArg List.length h2
    have hlt : c < s.grp.clients.length := by omega
    have hcl := hf c _ ho (List.getElem?_eq_getElem hlt)
    have h6 : (s.grp.clients.map closedB)[c]? = some (closedB s.grp.clients[c]) := by simp [hlt]
    rw [h2] at h6
    have h7 : closedB s.grp.clients[c] = false := by
      match c, hc with
      | 0, _ => simpa using h6.symm
      | 1, _ => simpa using h6.symm
      | 2, _ => simpa using h6.symm
    rcases hcl with hcl | hcl <;> simp [closedB, hcl] at h7
  exact ⟨tr, s, by simpa using playN_run h .nil, h1, open_ 1 _ (by omega) (by rw [h1]; rfl), open_ 2 _ (by omega) (by rw [h1]; rfl),
    Option.isNone_iff_eq_none.1 h3, Option.isNone_iff_eq_none.1 h4, h5⟩

/-- `C86_can_finish`: the hypothesis -/
example : Acyclic (fun q r => exMay q r = true) ∧ exMay 1 0 = true := ⟨exMay_acyclic, rfl⟩

/-- `C86_metric_functions`: a function that reads the group that it is read in -/
example : (playN (fun _ _ => false) (init ℤ) [.does (.newGroup 0), .opens none, .does (.visit 0 0), .does (.send 0 0), .does (.handle 0),
    .does (.updated 0 7), .does (.receive 0 0), .does (.visitDone 0), .opens (some (.fn 0)), .does (.visit 1 0), .does (.send 1 0),
    .does (.handle 0), .does (.receive 1 0), .does (.visitDone 1)]).isSome = true := by decide +kernel

/-- `C86_cycle_blocks`: two update functions that read each other's group -/
example : Relation.TransGen (fun q r => q + r = 1) 0 0 := .tail (.single (show 0 + 1 = 1 from rfl)) rfl

/-- … and a run to the point where they block -/
example : (playN (fun q r => q + r == 1) (init ℤ) [.does (.newGroup 0), .does (.newGroup 0), .opens none, .does (.visit 0 0),
    .does (.send 0 0), .does (.handle 0), .opens none, .does (.visit 1 1), .does (.send 1 1), .does (.handle 1),
    .opens (some (.upd 0)), .does (.visit 2 1), .opens (some (.upd 1)), .does (.visit 3 0)]).map
      (fun x => x.2.grp.regions.map Region.loop) = some [.calling, .calling] := by decide +kernel

/-- `C86_own_group_blocks`, `C86_exact`: both sides occur -/
example : (fun q r : ℕ => q = r) 3 3 ∧ ¬ Acyclic (fun q r : ℕ => q = r) ∧ Acyclic (fun q r => exMay q r = true) :=
  ⟨rfl, fun h => h 3 (.single rfl), exMay_acyclic⟩

end Tricorder.Group.Nested
