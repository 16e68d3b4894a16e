import Verif.Proof.Canon
import Verif.Proof.PlayI
import Verif.Props.Registry
/-!
# Examples for the theorems about listings
-/

namespace Tricorder
open Go Spec Tree

def exL : List (List Str × ℕ) := [([nA, nB, nM], 0), ([nA, nF], 1), ([nD], 2), ([nL], 3)]

theorem exL_reaches : ∀ x ∈ exL, Reaches exS.tree 0 x.1 (.metric x.2) := by
  intro x hx
  refine (resolve_iff (reachable_isTree exS_reachable)).mp ?_
  have : ∀ x ∈ exL, exS.tree.resolve 0 x.1 = some (.metric x.2) := by decide +kernel
  exact this x hx

theorem exL_canonical : Canonical exS.tree [] exL := by
  have ht := reachable_isTree exS_reachable
  refine ⟨?_, by decide +kernel⟩
  intro p m
  constructor
  · intro h; exact ⟨List.nil_prefix, exL_reaches _ h⟩
  · rintro ⟨-, h⟩
    obtain ⟨mo, h1, -⟩ := absPath_metric ht h
    have h2 := (List.getElem?_eq_some_iff.mp h1).1
    have h3 : exS.tree.metrics.length = 4 := by decide +kernel
    rw [h3] at h2
    have h4 : ∀ m < 4, ∃ p, (p, m) ∈ exL := by
      intro m hm
      have : m = 0 ∨ m = 1 ∨ m = 2 ∨ m = 3 := by omega
      rcases this with rfl | rfl | rfl | rfl
      · exact ⟨[nA, nB, nM], by decide +kernel⟩
      · exact ⟨[nA, nF], by decide +kernel⟩
      · exact ⟨[nD], by decide +kernel⟩
      · exact ⟨[nL], by decide +kernel⟩
    obtain ⟨q, hq⟩ := h4 m h2
    rw [path_of_metric ht h (exL_reaches _ hq)]
    exact hq

/-- other goroutines meanwhile: after the root was listed `/z` is registered and `/d` removed, and variable 0
is set -/
def exSched : List (List Cmd) :=
  [[], [.writeVar 0 (.scalar none (.int .int64 6))],
   [.storeMetric 0 [122] [] exVarValue, .removeEntry 0 nD], [.tick 1], [.tick 1]]

def exZ : List Str := [[47, 97, 47, 98, 47, 109], [47, 97, 47, 102], [47, 100], [47, 108]]

/-- a collector that fails at the third metric -/
def exColl : Coll (List ℕ) := fun m s a =>
  .ret (s, a ++ [m], if a.length = 2 then .err 7 else .ok)

/-- a writer without failures -/
def exWriter : Writer Str := ⟨fun x y => (x ++ y, none)⟩

end Tricorder
