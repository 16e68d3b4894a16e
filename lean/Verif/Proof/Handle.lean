import Verif.Proof.Registry
import Verif.Spec.Handle
/-!
# Directory handles
-/

namespace Tricorder
open Go Spec Tree

variable {w : World} {s s' : State} {α β : Type}

theorem Spec.ActsLike.refl (p : Prog α) : ActsLike w s p p := ⟨rfl, fun h _ _ hr => ⟨[], by simp, hr⟩⟩

theorem Spec.ActsLike.trans {p q r : Prog α} (h1 : ActsLike w s r q) (h2 : ActsLike w s q p) : ActsLike w s r p := by
  refine ⟨h1.alone.trans h2.alone, fun h s' a hr => ?_⟩
  obtain ⟨h0, a1, a2⟩ := h2.amid h s' a hr
  obtain ⟨h0', b1, b2⟩ := h1.amid _ s' a a2
  refine ⟨h0' ++ h0, fun e he => ?_, by rw [List.append_assoc]; exact b2⟩
  rcases List.mem_append.mp he with he | he
  · exact b1 e he
  · exact a1 e he

theorem bind_assoc {γ : Type} (p : Prog α) (f : α → Prog β) (g : β → Prog γ) : (p.bind f).bind g = p.bind fun a => (f a).bind g := by
  induction p with
  | ret a => rfl
  | op c k ih =>
    simp only [Prog.bind]
    congr 1
    funext x
    exact ih x

theorem bind_ret (p : Prog α) : p.bind Prog.ret = p := by
  induction p with
  | ret a => rfl
  | op c k ih =>
    simp only [Prog.bind]
    congr 1
    funext x
    exact ih x

/-- one more step at the beginning, which changes nothing -/
theorem Spec.ActsLike.step {c : Cmd} {k : c.Resp → Prog α} {p : Prog α} (he : (exec w c s).1 = s)
    (h : ActsLike w s (k (exec w c s).2) p) : ActsLike w s (.op c k) p := by
  refine ⟨?_, fun h' s' a hr => ?_⟩
  · show (k (exec w c s).2).run w (exec w c s).1 = _
    rw [he]; exact h.alone
  · obtain ⟨h0, h1, h2⟩ := h.amid h' s' a hr
    refine ⟨⟨true, c, s⟩ :: h0, ?_, .op ?_⟩
    · intro e hm
      rcases List.mem_cons.mp hm with rfl | hm
      · exact ⟨rfl, rfl, he⟩
      · exact h1 e hm
    · rw [he]; exact h2

theorem createDir_there {V : Type} {t : Tree V} (ht : IsTree t) {d name e en d'} (hc : Child t d name e) (he : t.entries[e]? = some en)
    (hd : en.dir = some d') : t.createDir d name = (t, .ok d') := by
  have hg : t.getEntry d name = some e := by
    have := (entryAt_some ht).mpr ⟨hc, he⟩
    unfold entryAt at this
    cases h : t.getEntry d name with
    | none => rw [h] at this; cases this
    | some e' =>
      rw [h] at this
      cases h2 : t.entries[e']? <;> simp [h2] at this
      rw [this.1]
  obtain ⟨n, m, dd, p⟩ := en
  cases hd
  simp [Tree.createDir, hg, he]

/-- walking over existing directories -/
theorem registerDirectory_like (ht : IsTree s.tree) {d0 d : ℕ} {a : List Str} (h : Reaches s.tree d0 a (.dir d)) (c : List Str)
    (f : Except RegErr ℕ → Prog β) : ActsLike w s ((registerDirectory d0 (a ++ c)).bind f) ((registerDirectory d c).bind f) := by
  generalize hn : Node.dir d = n at h
  induction h with
  | here d1 => cases hn; exact .refl _
  | metric => cases hn
  | dir hc he hd _ ih =>
    have hx := createDir_there ht hc he hd
    refine Spec.ActsLike.step (c := .createDir _ _) (by simp [exec, hx]) ?_
    simp only [exec, hx]
    exact ih hn

theorem getDirectory_like (ht : IsTree s.tree) {d0 d : ℕ} {a : List Str} (h : Reaches s.tree d0 a (.dir d)) (c : List Str)
    (f : Option ℕ → Prog β) : ActsLike w s ((getDirectory d0 (a ++ c)).bind f) ((getDirectory d c).bind f) := by
  generalize hn : Node.dir d = n at h
  induction h with
  | here d1 => cases hn; exact .refl _
  | metric => cases hn
  | dir hc he hd _ ih =>
    have hx := (entryAt_some ht).mpr ⟨hc, he⟩
    refine Spec.ActsLike.step (c := .getEntry _ _) (by rw [exec_getEntry]) ?_
    rw [exec_getEntry, hx]
    simp only [hd]
    exact ih hn

theorem getDirectoryAndError_like (ht : IsTree s.tree) {d0 d : ℕ} {a : List Str} (h : Reaches s.tree d0 a (.dir d)) (c : List Str) :
    ActsLike w s (getDirectoryAndError d0 (a ++ c)) (getDirectoryAndError d c) := by
  generalize hn : Node.dir d = n at h
  induction h with
  | here d1 => cases hn; exact .refl _
  | metric => cases hn
  | dir hc he hd _ ih =>
    have hx := (entryAt_some ht).mpr ⟨hc, he⟩
    refine Spec.ActsLike.step (c := .getEntry _ _) (by rw [exec_getEntry]) ?_
    rw [exec_getEntry, hx]
    simp only [hd]
    exact ih hn

theorem dirBase_append {a c : List Str} (hc : c ≠ []) :
    pathDir (a ++ c) = some (a ++ c.dropLast) ∧ pathBase (a ++ c) = some (c.getLast hc) := by
  have h := pathDir_base (p := a ++ c) (by simp [hc])
  rw [List.dropLast_append_of_ne_nil hc] at h
  refine ⟨h.1, h.2.trans ?_⟩
  rw [List.getLast_append_of_ne_nil _ hc]

theorem registerMetric_like (ht : IsTree s.tree) {d0 d : ℕ} {a : List Str} (h : Reaches s.tree d0 a (.dir d)) {c : List Str} (hc : c ≠ [])
    (fnTy : ℕ → GoTy) (spec : RegSpec) (g : Option ℕ) (unit : MUnit) (desc : Str) :
    ActsLike w s (registerMetric fnTy d0 (a ++ c) spec g unit desc) (registerMetric fnTy d c spec g unit desc) := by
  have h1 : pathEmpty (a ++ c) = false := by simp [pathEmpty, hc]
  have h2 : pathEmpty c = false := by simp [pathEmpty, hc]
  unfold registerMetric
  rw [h1, h2, (dirBase_append hc).1, (dirBase_append hc).2, (pathDir_base hc).1, (pathDir_base hc).2]
  exact registerDirectory_like ht h _ _

theorem unregisterPath_like (ht : IsTree s.tree) {d0 d : ℕ} {a : List Str} (h : Reaches s.tree d0 a (.dir d)) {c : List Str} (hc : c ≠ []) :
    ActsLike w s (unregisterPath d0 (a ++ c)) (unregisterPath d c) := by
  unfold unregisterPath
  rw [(dirBase_append hc).1, (dirBase_append hc).2, (pathDir_base hc).1, (pathDir_base hc).2]
  exact getDirectory_like ht h _ _

theorem getDirectoryOrMetric_like (ht : IsTree s.tree) {d0 d : ℕ} {a : List Str} (h : Reaches s.tree d0 a (.dir d)) (c : List Str)
    (f : Option ℕ × Option ℕ → Prog β) :
    ActsLike w s ((getDirectoryOrMetric d0 (a ++ c)).bind f) ((getDirectoryOrMetric d c).bind f) := by
  by_cases hc : c = []
  · subst hc
    by_cases ha : a = []
    · subst ha
      cases h
      exact .refl _
    · have hl := (List.dropLast_append_getLast ha).symm
      rw [hl] at h
      obtain ⟨d1, h1, h2⟩ := reaches_split h (by simp)
      rw [List.append_nil]
      unfold getDirectoryOrMetric
      rw [(pathDir_base ha).1, (pathDir_base ha).2]
      simp only [bind_assoc]
      have this : ∀ F : Option ℕ → Prog β, ActsLike w s ((getDirectory d0 a.dropLast).bind F) (F (some d1)) := fun F => by
        have := getDirectory_like (w := w) ht h1 [] F
        rw [List.append_nil] at this
        exact this
      refine Spec.ActsLike.trans (this _) (Spec.ActsLike.step (c := .getEntry _ _) (by rw [exec_getEntry]) ?_)
      generalize hq : [a.getLast ha] = q at h2
      generalize hn : Node.dir d = n at h2
      cases h2 with
      | here => cases hq
      | metric => cases hn
      | dir hc he hd h3 =>
        cases hq
        cases hn
        cases h3
        rw [exec_getEntry, (entryAt_some ht).mpr ⟨hc, he⟩]
        simp only [hd, (entry_dir ht he hd).1]
        exact .refl _
  · unfold getDirectoryOrMetric
    rw [(dirBase_append hc).1, (dirBase_append hc).2, (pathDir_base hc).1, (pathDir_base hc).2]
    simp only [bind_assoc]
    exact getDirectory_like ht h _ _

end Tricorder
