import Verif.Proof.Handle
import Verif.Model.Api
import Verif.Props.Ex
import Verif.Props.Path
/-!
# C80: a directory handle acts at its own path
-/

namespace Tricorder
open Go Spec Tree

variable {w : World} {s : State}

private theorem comps_eq {path : Str} {c : List Str} (h : Components path c) : newPathSpec path = c :=
  (C01_components_unique h).symm

/-- **C80** All ways of registering a metric are one: with the default group and with a group, of the package and of the root
directory, of a group, of a directory, of a directory with a group. -/
theorem C80_ways (fnTy : ℕ → GoTy) (g : Option ℕ) (d : ℕ) (path : Str) (m : RegSpec) (u : MUnit) (desc : Str) :
    Api.registerMetric fnTy path m u desc = Api.registerMetricInGroup fnTy path m (some Api.defaultGroup) u desc ∧
    Api.groupRegisterMetric fnTy g path m u desc = Api.registerMetricInGroup fnTy path m g u desc ∧
    Api.registerMetricInGroup fnTy path m g u desc = Api.dirRegisterMetricInGroup fnTy Api.root path m g u desc ∧
    Api.dirRegisterMetric fnTy d path m u desc = Api.dirRegisterMetricInGroup fnTy d path m (some Api.defaultGroup) u desc ∧
    (Api.DirectoryGroup.mk g d).registerMetric fnTy path m u desc = Api.dirRegisterMetricInGroup fnTy d path m g u desc ∧
    Api.dirRegisterMetricInGroup fnTy d path m g u desc = apiRegisterMetric fnTy d path m g u desc :=
  ⟨rfl, rfl, rfl, rfl, rfl, rfl⟩

/-- **C80** Registering a metric through a handle is registering it in the package under the path of the directory followed by
the given path: same result, same effect, also while other goroutines change the tree. -/
theorem C80_metric (hs : Reachable w s) {d : ℕ} {a c : List Str} {rel full : Str} (ha : Reaches s.tree 0 a (.dir d))
    (hr : Components rel c) (hf : Components full (a ++ c)) (hc : c ≠ []) (fnTy : ℕ → GoTy) (m : RegSpec) (g : Option ℕ) (u : MUnit)
    (desc : Str) :
    ActsLike w s (Api.registerMetricInGroup fnTy full m g u desc) (Api.dirRegisterMetricInGroup fnTy d rel m g u desc) := by
  unfold Api.registerMetricInGroup Api.dirRegisterMetricInGroup
  rw [comps_eq hr, comps_eq hf]
  exact registerMetric_like (reachable_isTree hs) ha hc fnTy m g u desc

/-- **C80** The empty path is refused by every handle, and nothing changes. -/
theorem C80_metric_empty {rel : Str} (hr : Components rel []) (d : ℕ) (fnTy : ℕ → GoTy) (m : RegSpec) (g : Option ℕ) (u : MUnit)
    (desc : Str) :
    (Api.dirRegisterMetricInGroup fnTy d rel m g u desc).run w s = (s, .ok (.error .pathInUse)) := by
  unfold Api.dirRegisterMetricInGroup
  rw [comps_eq hr]
  rfl

/-- **C80** The same for directories; with the empty path, the directory itself. -/
theorem C80_directory (hs : Reachable w s) {d : ℕ} {a c : List Str} {rel full : Str} (ha : Reaches s.tree 0 a (.dir d))
    (hr : Components rel c) (hf : Components full (a ++ c)) :
    ActsLike w s (Api.registerDirectory full) (Api.dirRegisterDirectory d rel) ∧
    (c = [] → (Api.registerDirectory full).run w s = (s, .ok d)) := by
  have h : ActsLike w s (Api.registerDirectory full) (Api.dirRegisterDirectory d rel) := by
    unfold Api.registerDirectory Api.dirRegisterDirectory
    rw [comps_eq hr, comps_eq hf]
    simpa only [Tricorder.bind_ret, Api.root] using registerDirectory_like (reachable_isTree hs) ha c Prog.ret
  refine ⟨h, fun hc => ?_⟩
  subst hc
  rw [h.alone]
  unfold Api.dirRegisterDirectory
  rw [comps_eq hr]
  rfl

/-- **C80** The same for unregistering a path. -/
theorem C80_unregister (hs : Reachable w s) {d : ℕ} {a c : List Str} {rel full : Str} (ha : Reaches s.tree 0 a (.dir d))
    (hr : Components rel c) (hf : Components full (a ++ c)) (hc : c ≠ []) :
    ActsLike w s (Api.unregisterPath full) (Api.dirUnregisterPath d rel) := by
  unfold Api.unregisterPath Api.dirUnregisterPath
  rw [comps_eq hr, comps_eq hf]
  exact unregisterPath_like (reachable_isTree hs) ha hc

/-- **C80** Unregistering a directory is unregistering its path. -/
theorem C80_unregister_directory (hs : Reachable w s) {d : ℕ} {a : List Str} {full : Str} (ha : Reaches s.tree 0 a (.dir d))
    (hf : Components full a) (hne : a ≠ []) :
    (Api.unregisterDirectory d).run w s = (Api.unregisterPath full).run w s := by
  have ht := reachable_isTree hs
  have hl := (List.dropLast_append_getLast hne).symm
  rw [hl] at ha
  obtain ⟨d1, h1, h2⟩ := reaches_split ha (by simp)
  have h3 := unregisterPath_like (w := w) ht h1 (c := [a.getLast hne]) (by simp)
  rw [← hl] at h3
  unfold Api.unregisterPath
  rw [comps_eq hf]
  refine Eq.trans ?_ h3.alone.symm
  obtain ⟨e, en, hc, he, hd⟩ := (reaches_one_iff ht).mp h2
  have hdl := (entry_dir ht he hd).2.2.1
  rcases unregisterDir_cases ht hdl with ⟨_, h⟩ | ⟨p, nm, e', en', hc', he', hd', h⟩
  · exact absurd hd (h _ _ _ _ hc he)
  · obtain ⟨rfl, rfl, rfl⟩ := dir_place_unique ht hc he hd hc' he' hd'
    show ({ s with tree := s.tree.unregisterDir d }, ()) = _
    rw [h]
    rfl

/-- **C80** The same for looking up. -/
theorem C80_lookup (hs : Reachable w s) {d : ℕ} {a c : List Str} {rel full : Str} (ha : Reaches s.tree 0 a (.dir d))
    (hr : Components rel c) (hf : Components full (a ++ c)) :
    ActsLike w s (Api.dirGetDirectoryOrMetric Api.root full) (Api.dirGetDirectoryOrMetric d rel) ∧
    ActsLike w s (Api.dirGetMetric Api.root full) (Api.dirGetMetric d rel) ∧
    ActsLike w s (Api.dirGetDirectory Api.root full) (Api.dirGetDirectory d rel) := by
  unfold Api.dirGetMetric Api.dirGetDirectoryOrMetric Api.dirGetDirectory
  rw [comps_eq hr, comps_eq hf]
  have ht := reachable_isTree hs
  refine ⟨?_, getDirectoryOrMetric_like ht ha c _, ?_⟩
  · simpa only [Tricorder.bind_ret, Api.root] using getDirectoryOrMetric_like ht ha c Prog.ret
  · simpa only [Tricorder.bind_ret, Api.root] using getDirectory_like ht ha c Prog.ret

/-- **C80** What looking up returns: `GetDirectory` the directory at the path below the handle and
nothing else, `GetMetric` the metric there and nothing else, `GetDirectoryOrMetric` both answers at
once.  Nothing changes. -/
theorem C80_lookup_result (hs : Reachable w s) (d : ℕ) {c : List Str} {rel : Str} (hr : Components rel c) :
    (∃ r, (Api.dirGetDirectory d rel).run w s = (s, r) ∧ ∀ x, r = some x ↔ Reaches s.tree d c (.dir x)) ∧
    (∃ r, (Api.dirGetMetric d rel).run w s = (s, r) ∧ ∀ x, r = some x ↔ Reaches s.tree d c (.metric x)) ∧
    (∃ r, (Api.dirGetDirectoryOrMetric d rel).run w s = (s, r) ∧
      (∀ x, r.1 = some x ↔ Reaches s.tree d c (.dir x)) ∧ ∀ x, r.2 = some x ↔ Reaches s.tree d c (.metric x)) := by
  have ht := reachable_isTree hs
  unfold Api.dirGetMetric Api.dirGetDirectoryOrMetric Api.dirGetDirectory
  rw [comps_eq hr]
  simp only [← resolve_iff ht]
  rw [run_bind, getDirectory_run ht, getDirectoryOrMetric_run ht]
  cases h : s.tree.resolve d c with
  | none => refine ⟨⟨_, rfl, ?_⟩, ⟨_, rfl, ?_⟩, _, rfl, ?_, ?_⟩ <;> simp
  | some n => cases n <;> refine ⟨⟨_, rfl, ?_⟩, ⟨_, rfl, ?_⟩, _, rfl, ?_, ?_⟩ <;> simp

/-! ### examples -/

/-- `/a/b` is directory 2; through it, `c/x` is `/a/b/c/x` -/
example : Reachable exW exS ∧ Reaches exS.tree 0 [nA, nB] (.dir 2) ∧ Components [99, 47, 120] [[99], [120]] ∧
    Components [47, 97, 47, 98, 47, 99, 47, 120] ([nA, nB] ++ [[99], [120]]) := by
  refine ⟨exS_reachable, ?_, C01_components _, C01_components _⟩
  exact (resolve_iff (reachable_isTree exS_reachable)).mp (by decide +kernel)

/-- something happens: the new metric is there afterwards, under both names -/
example :
    let s' := ((Api.dirRegisterMetric exW.fnTy 2 [99, 47, 120] (.ptr 0) .second nM).run exW exS).1
    resolve s'.tree 2 [[99], [120]] = resolve s'.tree 0 [nA, nB, [99], [120]] ∧
    (resolve s'.tree 0 [nA, nB, [99], [120]]).isSome ∧ resolve exS.tree 0 [nA, nB, [99], [120]] = none := by
  decide +kernel

/-- a handle which is not in the tree acts elsewhere: directory 3 was `/old` -/
example :
    let s' := ((Api.dirRegisterMetric exW.fnTy 3 [120] (.ptr 0) .second nM).run exW exS).1
    (resolve s'.tree 3 [[120]]).isSome ∧ resolve s'.tree 0 [nOld, [120]] = none := by
  decide +kernel

end Tricorder
