import Verif.Proof.Sys2
import Verif.Proof.DistHist
/-!
# Group ids
-/

namespace Tricorder
open Go Spec Tree

variable {α β : Type} {w : World}

/-- the group ids of distributions and lists -/
def State.distIds (s : State) : List ℕ := s.dists.map Dist.groupId
def State.listIds (s : State) : List ℕ := s.lists.map ListObj.groupId

/-- objects keep their group id -/
structure IdsExt (s s' : State) : Prop where
  regions : s.regions <+: s'.regions
  dists : s.distIds <+: s'.distIds
  lists : s.listIds <+: s'.listIds

theorem IdsExt.refl (s : State) : IdsExt s s := ⟨List.prefix_rfl, List.prefix_rfl, List.prefix_rfl⟩

theorem IdsExt.trans {a b c : State} (h1 : IdsExt a b) (h2 : IdsExt b c) : IdsExt a c :=
  ⟨h1.1.trans h2.1, h1.2.trans h2.2, h1.3.trans h2.3⟩

/-- no two objects have the same group id -/
def IdsOk (s : State) : Prop :=
  (s.regions ++ s.distIds ++ s.listIds).Nodup ∧ ∀ g ∈ s.regions ++ s.distIds ++ s.listIds, g < s.nextId

theorem map_set_same {X : Type} (f : X → ℕ) (l : List X) {i : ℕ} {x y : X} (h : l[i]? = some x) (hf : f y = f x) :
    (l.set i y).map f = l.map f := by
  apply List.ext_getElem?
  intro j
  rw [List.getElem?_map, List.getElem?_map, List.getElem?_set]
  split
  · rename_i hij
    subst hij
    have := (List.getElem?_eq_some_iff.mp h).1
    rw [if_pos this, h]
    simp [hf]
  · rfl

theorem setUnit_groupId (d : Dist Fl) (u : MUnit) : (d.setUnit u).1.groupId = d.groupId := by
  have := (call_const d (.setUnit u))
  exact this.2.2

/-- the ids after a step -/
theorem exec_ids (c : Cmd) (s : State) :
    ((exec w c s).1.regions = s.regions ∧ (exec w c s).1.distIds = s.distIds ∧
      (exec w c s).1.listIds = s.listIds ∧ (exec w c s).1.nextId = s.nextId) ∨
    ((exec w c s).1.nextId = s.nextId + 1 ∧
      (((exec w c s).1.regions = s.regions ++ [s.nextId] ∧ (exec w c s).1.distIds = s.distIds ∧
          (exec w c s).1.listIds = s.listIds) ∨
        ((exec w c s).1.regions = s.regions ∧ (exec w c s).1.distIds = s.distIds ++ [s.nextId] ∧
          (exec w c s).1.listIds = s.listIds) ∨
        ((exec w c s).1.regions = s.regions ∧ (exec w c s).1.distIds = s.distIds ∧
          (exec w c s).1.listIds = s.listIds ++ [s.nextId]))) := by
  cases c with
  | setUnit i u =>
    left
    simp only [exec]
    cases h : s.dists[i]? with
    | none => exact ⟨rfl, rfl, rfl, rfl⟩
    | some d => exact ⟨rfl, map_set_same _ _ h (setUnit_groupId d u), rfl, rfl⟩
  | distCall i c =>
    left
    simp only [exec]
    cases h : s.dists[i]? with
    | none => exact ⟨rfl, rfl, rfl, rfl⟩
    | some d => exact ⟨rfl, map_set_same _ _ h (call_const d c).2.2, rfl, rfl⟩
  | newDist pieces nc ts =>
    right
    exact ⟨rfl, Or.inr (Or.inl ⟨rfl, by simp [exec, State.distIds, newDist], rfl⟩)⟩
  | newRegion => right; exact ⟨rfl, Or.inl ⟨rfl, rfl, rfl⟩⟩
  | newList a m ts =>
    simp only [exec, State.newList]
    cases h : asSliceValue s.mem a m with
    | none => left; exact ⟨rfl, rfl, rfl, rfl⟩
    | some x => right; exact ⟨rfl, Or.inr (Or.inr ⟨rfl, rfl, by simp [State.listIds]⟩)⟩
  | changeList i a m ts =>
    left
    simp only [exec, State.changeList]
    cases h : s.lists[i]? with
    | none => exact ⟨rfl, rfl, rfl, rfl⟩
    | some l =>
      cases h2 : asSliceValue s.mem a m with
      | none => exact ⟨rfl, rfl, rfl, rfl⟩
      | some x =>
        simp only
        split
        · exact ⟨rfl, rfl, rfl, rfl⟩
        · exact ⟨rfl, rfl, map_set_same _ _ h rfl, rfl⟩
  | writeVar v d =>
    left
    simp only [exec]
    cases h : s.vars[v]? with
    | none => exact ⟨rfl, rfl, rfl, rfl⟩
    | some d0 => simp only; split <;> exact ⟨rfl, rfl, rfl, rfl⟩
  | _ => left; exact ⟨rfl, rfl, rfl, rfl⟩

theorem exec_idsExt (c : Cmd) (s : State) : IdsExt s (exec w c s).1 := by
  rcases exec_ids (w := w) c s with ⟨h1, h2, h3, -⟩ | ⟨-, ⟨h1, h2, h3⟩ | ⟨h1, h2, h3⟩ | ⟨h1, h2, h3⟩⟩ <;>
  · refine ⟨?_, ?_, ?_⟩
    · simp [h1]
    · simp [h2]
    · simp [h3]

theorem exec_idsOk (c : Cmd) {s : State} (hs : IdsOk s) : IdsOk (exec w c s).1 := by
  obtain ⟨h0, hlt⟩ := hs
  have fresh : s.nextId ∉ s.regions ++ s.distIds ++ s.listIds := fun h => Nat.lt_irrefl _ (hlt _ h)
  have step : ∀ {l : List ℕ}, l.Perm (s.nextId :: (s.regions ++ s.distIds ++ s.listIds)) →
      l.Nodup ∧ ∀ g ∈ l, g < s.nextId + 1 := by
    intro l hp
    refine ⟨hp.nodup_iff.mpr (List.nodup_cons.mpr ⟨fresh, h0⟩), ?_⟩
    intro g hg
    rcases List.mem_cons.mp (hp.mem_iff.mp hg) with h | h
    · omega
    · have := hlt g h; omega
  unfold IdsOk
  rcases exec_ids (w := w) c s with ⟨h1, h2, h3, h4⟩ | ⟨h4, ⟨h1, h2, h3⟩ | ⟨h1, h2, h3⟩ | ⟨h1, h2, h3⟩⟩ <;>
    rw [h1, h2, h3, h4]
  · exact ⟨h0, hlt⟩
  · apply step
    simpa [List.append_assoc] using
      (List.perm_middle (a := s.nextId) (l₁ := s.regions) (l₂ := s.distIds ++ s.listIds))
  · apply step
    have := (List.perm_middle (a := s.nextId) (l₁ := s.regions ++ s.distIds) (l₂ := s.listIds))
    simpa [List.append_assoc] using this
  · apply step
    have := (List.perm_middle (a := s.nextId) (l₁ := s.regions ++ s.distIds ++ s.listIds) (l₂ := []))
    simpa [List.append_assoc] using this

theorem reachable_idsOk {s : State} (hs : Reachable w s) : IdsOk s := by
  induction hs with
  | init => exact ⟨by decide, by decide⟩
  | step c _ _ ih => exact exec_idsOk c ih

theorem RunI_idsExt {p : Prog α} {s s' : State} {h : List Ev} {a : α} (hr : RunI w p s h s' a) :
    ∀ τ ∈ statesOf h s', IdsExt τ s' := by
  have : IdsExt s s' ∧ ∀ τ ∈ statesOf h s', IdsExt τ s' := by
    induction hr with
    | ret => exact ⟨IdsExt.refl _, by simpa [statesOf] using IdsExt.refl _⟩
    | env c hc _ ih =>
      have h1 := (exec_idsExt (w := w) c _).trans ih.1
      refine ⟨h1, ?_⟩
      intro τ hτ
      simp only [statesOf, List.map_cons, List.cons_append, List.mem_cons] at hτ
      rcases hτ with rfl | hτ
      · exact h1
      · exact ih.2 τ hτ
    | @op c k s0 h s' a _ ih =>
      have h1 := (exec_idsExt (w := w) c s0).trans ih.1
      refine ⟨h1, ?_⟩
      intro τ hτ
      simp only [statesOf, List.map_cons, List.cons_append, List.mem_cons] at hτ
      rcases hτ with rfl | hτ
      · exact h1
      · exact ih.2 τ hτ
  exact this.2

end Tricorder
