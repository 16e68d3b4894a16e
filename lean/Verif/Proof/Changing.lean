import Verif.Spec.Changing
import Verif.Proof.Joint
import Verif.Proof.Lists
import Verif.Proof.Detached
import Verif.Proof.ListRun2
/-!
# The tree while others change it: walking along a path
-/

namespace Tricorder
open Go Spec Tree

variable {w : World} {α : Type}

/-- a directory stays where it is, or nothing is there any more -/
theorem step_stays {s : State} (ht : IsTree s.tree) {c : Cmd} (hc : c.Ok s) {d u x}
    (hx : Reaches s.tree d u (.dir x)) :
    Reaches (exec w c s).1.tree d u (.dir x) ∨ ∀ n, ¬ Reaches (exec w c s).1.tree d u n := by
  by_cases hn : c.isTree = false
  · rw [exec_tree_of_not hn]; exact Or.inl hx
  cases c with
  | createDir d1 name => exact Or.inl (createDir_grow ht hc.1 name _ _ _ hx)
  | storeMetric d1 name desc v => exact Or.inl (storeMetric_grow ht hc.1 name desc v _ _ _ hx)
  | removeEntry d1 name =>
    change Reaches (s.tree.removeEntry d1 name) d u (.dir x) ∨ ∀ n, ¬ Reaches (s.tree.removeEntry d1 name) d u n
    unfold removeEntry
    by_cases h : ∃ a, Reaches s.tree d a (.dir d1) ∧ (a ++ [name]) <+: u
    · exact Or.inr fun n hn => ((reaches_drop ht).mp hn).2 h
    · exact Or.inl ((reaches_drop ht).mpr ⟨hx, h⟩)
  | unregisterDir d1 =>
    change Reaches (s.tree.unregisterDir d1) d u (.dir x) ∨ ∀ n, ¬ Reaches (s.tree.unregisterDir d1) d u n
    by_cases hd : d1 < s.tree.dirs.length
    · by_cases h : ∃ a b, a ≠ [] ∧ u = a ++ b ∧ Reaches s.tree d a (.dir d1)
      · exact Or.inr fun n hn => ((reaches_unregisterDir ht hd).mp hn).2 h
      · exact Or.inl ((reaches_unregisterDir ht hd).mpr ⟨hx, h⟩)
    · have : s.tree.unregisterDir d1 = s.tree := by
        have he : s.tree.enclosing d1 = none := by
          unfold enclosing
          rw [List.getElem?_eq_none (by omega)]
        simp [unregisterDir, he]
      rw [this]; exact Or.inl hx
  | _ => exact absurd rfl hn

theorem Spec.CutBy.left {d p} {h1 h2 : List Ev} (h : CutBy w d p h1) : CutBy w d p (h1 ++ h2) := by
  obtain ⟨e, he, h⟩ := h
  exact ⟨e, by simp [he], h⟩

theorem Spec.CutBy.right {d p} {h1 h2 : List Ev} (h : CutBy w d p h2) : CutBy w d p (h1 ++ h2) := by
  obtain ⟨e, he, h⟩ := h
  exact ⟨e, by simp [he], h⟩

theorem Spec.CutBy.cons {d p} {e : Ev} {h2 : List Ev} (h : CutBy w d p h2) : CutBy w d p (e :: h2) := by
  obtain ⟨e, he, h⟩ := h
  exact ⟨e, by simp [he], h⟩

theorem Spec.CutBy.mono {d p q} {h : List Ev} (hc : CutBy w d p h) (hq : p <+: q) : CutBy w d q h := by
  obtain ⟨e, he, ho, u, x, h1, h2⟩ := hc
  exact ⟨e, he, ho, u, x, h1.trans hq, h2⟩

theorem RunI_unit {a b : α} {s s' : State} {h : List Ev} (hr : RunI w (.ret a) s h s' b) : RunI w (.ret ()) s h s' () := by
  generalize hp : Prog.ret a = p at hr
  induction hr with
  | ret => exact .ret _ _
  | env c hc _ ih => exact .env c hc (ih hp)
  | op => cases hp

/-- as long as the own steps do not change the tree, a directory stays where it is, unless it is cut off -/
theorem run_stays {p : Prog α} {s s1 : State} {h : List Ev} {a : α} (hr : RunI w p s h s1 a) (hs : Reachable w s)
    (hown : ∀ e ∈ h, e.own = true → e.cmd.isTree = false) {d u x}
    (hx : Reaches s.tree d u (.dir x)) : Reaches s1.tree d u (.dir x) ∨ CutBy w d u h := by
  induction hr with
  | ret => exact Or.inl hx
  | @env p s h s' a c hc hr ih =>
    rcases step_stays (w := w) (reachable_isTree hs) hc hx with h1 | h1
    · rcases ih (.step c hs hc) (fun e he => hown e (List.mem_cons_of_mem _ he)) h1 with h2 | h2
      · exact Or.inl h2
      · exact Or.inr (CutBy.cons h2)
    · exact Or.inr ⟨⟨false, c, s⟩, List.mem_cons_self, rfl, u, x, List.prefix_refl _, hx, h1⟩
  | @op c k s h s' a hr ih =>
    have hn := hown _ List.mem_cons_self rfl
    rcases ih (.step c hs (ok_of_not_tree hn _)) (fun e he => hown e (List.mem_cons_of_mem _ he))
      (by rw [exec_tree_of_not hn]; exact hx) with h2 | h2
    · exact Or.inl h2
    · exact Or.inr (CutBy.cons h2)

theorem env_stays {s s1 : State} {h : List Ev} (hr : RunI w (.ret ()) s h s1 ()) (hs : Reachable w s) {d u x}
    (hx : Reaches s.tree d u (.dir x)) : Reaches s1.tree d u (.dir x) ∨ CutBy w d u h :=
  run_stays hr hs (fun e he ho => absurd ((RunI_ret hr).2 e he) (by simp [ho])) hx

theorem mem_states_left {h1 h2 : List Ev} {s1 s' σ : State} (hhead : (statesOf h2 s').head? = some s1)
    (h : σ ∈ statesOf h1 s1) : σ ∈ statesOf (h1 ++ h2) s' := by
  unfold statesOf at *
  rw [List.map_append, List.append_assoc]
  rcases List.mem_append.mp h with h | h
  · exact List.mem_append_left _ h
  · rw [List.mem_singleton] at h
    subst h
    exact List.mem_append_right _ (List.mem_of_head? hhead)

theorem mem_states_right {h1 h2 : List Ev} {s' σ : State} (h : σ ∈ statesOf h2 s') : σ ∈ statesOf (h1 ++ h2) s' := by
  unfold statesOf at *
  rw [List.map_append, List.append_assoc]
  exact List.mem_append_right _ h

theorem mem_states_cons {e : Ev} {h2 : List Ev} {s' σ : State} (h : σ ∈ statesOf h2 s') : σ ∈ statesOf (e :: h2) s' :=
  List.mem_cons_of_mem _ h

/-- the state after a step is one of the states of the run -/
theorem after_mem {p : Prog α} {s s' : State} {h : List Ev} {a : α} (hr : RunI w p s h s' a) {e : Ev} (he : e ∈ h) :
    (exec w e.cmd e.pre).1 ∈ statesOf h s' := by
  obtain ⟨h1, h2, rfl⟩ := List.append_of_mem he
  obtain ⟨p', r'⟩ := RunI_after hr rfl
  exact mem_states_right (mem_states_cons (List.mem_of_head? (RunI_head r')))

/-- if a directory on the way is cut off then the path leads nowhere at that moment -/
theorem cut_nowhere {p : Prog α} {s s' : State} {h : List Ev} {a : α} (hr : RunI w p s h s' a) {d q}
    (hc : CutBy w d q h) : ∃ σ ∈ statesOf h s', ∀ n, ¬ Reaches σ.tree d q n := by
  obtain ⟨e, he, _, u, x, ⟨v, hv⟩, _, h2⟩ := hc
  refine ⟨_, after_mem hr he, fun n hn => ?_⟩
  rw [← hv] at hn
  obtain ⟨n', hn'⟩ := reaches_prefix hn
  exact h2 n' hn'

theorem getEntry_exec (d : ℕ) (name : Str) (s : State) (ht : IsTree s.tree) :
    (exec w (.getEntry d name) s).1 = s ∧
    ((exec w (.getEntry d name) s).2 = none ∧ (∀ n, ¬ Reaches s.tree d [name] n) ∨
      ∃ e en, (exec w (.getEntry d name) s).2 = some (e, en) ∧ Child s.tree d name e ∧ s.tree.entries[e]? = some en ∧
        ((∃ x, en.dir = some x ∧ en.metric = none ∧ Reaches s.tree d [name] (.dir x)) ∨
          ∃ m, en.dir = none ∧ en.metric = some m ∧ Reaches s.tree d [name] (.metric m))) := by
  refine ⟨rfl, ?_⟩
  change (match s.tree.getEntry d name with | none => none | some e => s.tree.entries[e]?.map fun en => (e, en)) = none ∧ _ ∨
    ∃ e en, (match s.tree.getEntry d name with | none => none | some e => s.tree.entries[e]?.map fun en => (e, en)) = some (e, en) ∧ _
  cases hg : s.tree.getEntry d name with
  | none =>
    refine Or.inl ⟨rfl, fun n hn => ?_⟩
    obtain ⟨e, en, hc, _⟩ := (reaches_one_iff ht).mp hn
    exact getEntry_none_iff.mp hg e hc
  | some e =>
    have hc := getEntry_some hg
    obtain ⟨en, he, _⟩ := ht.child _ _ _ hc
    refine Or.inr ⟨e, en, by simp [he], hc, he, ?_⟩
    cases hdd : en.dir with
    | none =>
      obtain ⟨m, hm⟩ := entry_no_dir ht he hdd
      exact Or.inr ⟨m, rfl, hm, .metric hc he hm⟩
    | some x => exact Or.inl ⟨x, rfl, (entry_dir ht he hdd).1, .dir hc he hdd (.here x)⟩

/-- walking along a path: the answer is right at some moment, unless the way was cut -/
theorem getDirectory_walk {d0 d : ℕ} {u p : List Str} {s s' : State} {h : List Ev} {r}
    (hs : Reachable w s) (hx : Reaches s.tree d0 u (.dir d)) (hr : RunI w (getDirectory d p) s h s' r) :
    CutBy w d0 (u ++ p) h ∨ (∃ x, r = some x ∧ Reaches s'.tree d0 (u ++ p) (.dir x)) ∨
      (r = none ∧ ∃ σ ∈ statesOf h s', ¬ ∃ x, Reaches σ.tree d0 (u ++ p) (.dir x)) := by
  induction p generalizing d u s h with
  | nil =>
    have hr' : RunI w (.ret (some d)) s h s' r := hr
    obtain ⟨h1, h2⟩ := RunI_ret hr'
    rw [List.append_nil]
    rcases env_stays (RunI_unit hr') hs hx with h3 | h3
    · exact Or.inr (Or.inl ⟨d, h1.symm, h3⟩)
    · exact Or.inl h3
  | cons name p ih =>
    obtain ⟨h1, s1, h2, rfl, r1, r2⟩ := RunI_op hr
    have hs1 := env_reachable r1 hs
    have ht1 := reachable_isTree hs1
    have happ : u ++ name :: p = (u ++ [name]) ++ p := by simp
    rcases env_stays r1 hs hx with h3 | h3
    swap
    · exact Or.inl (h3.mono (List.prefix_append _ _)).left
    have hno : (∀ x, ¬ Reaches s1.tree d [name] (.dir x)) → ¬ ∃ x, Reaches s1.tree d0 (u ++ name :: p) (.dir x) := by
      rintro hno ⟨x, hx⟩
      have hx := reaches_suffix ht1 hx h3
      by_cases hp : p = []
      · subst hp; exact hno x hx
      · obtain ⟨y, hy, _⟩ := reaches_split (p := [name]) hx hp
        exact hno y hy
    obtain ⟨g1, g2⟩ := getEntry_exec (w := w) d name s1 ht1
    have hmem : s1 ∈ statesOf (h1 ++ ⟨true, .getEntry d name, s1⟩ :: h2) s' := mem_states_right (by simp [statesOf])
    rcases g2 with ⟨g2, g3⟩ | ⟨e, en, g2, hc, he, ⟨x, g3, g4, g5⟩ | ⟨m, g3, g4, g5⟩⟩
    · rw [g2] at r2
      exact Or.inr (Or.inr ⟨(RunI_ret r2).1.symm, s1, hmem, hno fun x => g3 _⟩)
    · rw [g2, g1] at r2
      simp only [g3] at r2
      rw [happ]
      rcases ih hs1 (reaches_trans h3 g5) r2 with h4 | h4 | ⟨h4, σ, h5, h6⟩
      · exact Or.inl h4.cons.right
      · exact Or.inr (Or.inl h4)
      · exact Or.inr (Or.inr ⟨h4, σ, mem_states_right (mem_states_cons h5), h6⟩)
    · rw [g2] at r2
      simp only [g3] at r2
      refine Or.inr (Or.inr ⟨(RunI_ret r2).1.symm, s1, hmem, hno fun x hx => ?_⟩)
      cases reaches_unique ht1 hx g5

/-- the same for `getDirectoryAndError` -/
theorem getDirectoryAndError_walk {d0 d : ℕ} {u p : List Str} {s s' : State} {h : List Ev} {r}
    (hs : Reachable w s) (hx : Reaches s.tree d0 u (.dir d)) (hr : RunI w (getDirectoryAndError d p) s h s' r) :
    CutBy w d0 (u ++ p) h ∨ (∃ x, r = .ok x ∧ Reaches s'.tree d0 (u ++ p) (.dir x)) ∨
      (r = .error .notFound ∧ ∃ σ ∈ statesOf h s', ∀ n, ¬ Reaches σ.tree d0 (u ++ p) n) ∨
      (r = .error .pathInUse ∧ ∃ σ ∈ statesOf h s', ∃ v m, v <+: u ++ p ∧ Reaches σ.tree d0 v (.metric m)) := by
  induction p generalizing d u s h with
  | nil =>
    have hr' : RunI w (.ret (.ok d)) s h s' r := hr
    obtain ⟨h1, h2⟩ := RunI_ret hr'
    rw [List.append_nil]
    rcases env_stays (RunI_unit hr') hs hx with h3 | h3
    · exact Or.inr (Or.inl ⟨d, h1.symm, h3⟩)
    · exact Or.inl h3
  | cons name p ih =>
    obtain ⟨h1, s1, h2, rfl, r1, r2⟩ := RunI_op hr
    have hs1 := env_reachable r1 hs
    have ht1 := reachable_isTree hs1
    have happ : u ++ name :: p = (u ++ [name]) ++ p := by simp
    rcases env_stays r1 hs hx with h3 | h3
    swap
    · exact Or.inl (h3.mono (List.prefix_append _ _)).left
    obtain ⟨g1, g2⟩ := getEntry_exec (w := w) d name s1 ht1
    have hmem : s1 ∈ statesOf (h1 ++ ⟨true, .getEntry d name, s1⟩ :: h2) s' := mem_states_right (by simp [statesOf])
    rcases g2 with ⟨g2, g3⟩ | ⟨e, en, g2, hc, he, ⟨x, g3, g4, g5⟩ | ⟨m, g3, g4, g5⟩⟩
    · rw [g2] at r2
      refine Or.inr (Or.inr (Or.inl ⟨(RunI_ret r2).1.symm, s1, hmem, fun n hn => ?_⟩))
      have hn := reaches_suffix ht1 hn h3
      obtain ⟨n', hn'⟩ := reaches_prefix (p := [name]) hn
      exact g3 n' hn'
    · rw [g2, g1] at r2
      simp only [g3] at r2
      rw [happ]
      rcases ih hs1 (reaches_trans h3 g5) r2 with h4 | h4 | ⟨h4, σ, h5, h6⟩ | ⟨h4, σ, h5, h6⟩
      · exact Or.inl h4.cons.right
      · exact Or.inr (Or.inl h4)
      · exact Or.inr (Or.inr (Or.inl ⟨h4, σ, mem_states_right (mem_states_cons h5), h6⟩))
      · exact Or.inr (Or.inr (Or.inr ⟨h4, σ, mem_states_right (mem_states_cons h5), h6⟩))
    · rw [g2] at r2
      simp only [g3] at r2
      refine Or.inr (Or.inr (Or.inr ⟨(RunI_ret r2).1.symm, s1, hmem, u ++ [name], m, ⟨p, by simp⟩, reaches_trans h3 g5⟩))

/-- looking up: the answer is right at some moment, unless the way was cut -/
theorem getDirectoryOrMetric_walk {d : ℕ} {p : List Str} {s s' : State} {h : List Ev} {r}
    (hs : Reachable w s) (hr : RunI w (getDirectoryOrMetric d p) s h s' r) :
    CutBy w d p h ∨ ∃ σ ∈ statesOf h s', RightAt σ d p r := by
  by_cases h0 : p = []
  · subst h0
    have hr' : RunI w (.ret (some d, none)) s h s' r := hr
    rw [← (RunI_ret hr').1]
    exact Or.inr ⟨s', by simp [statesOf], .here d⟩
  obtain ⟨e1, e2⟩ := pathDir_base h0
  unfold getDirectoryOrMetric at hr
  simp only [e1, e2] at hr
  obtain ⟨h1, s1, a, h2, rfl, r1, r2⟩ := RunI_bind hr
  have hs1 := (RunI_reads (getDirectory_reads _ _) r1 hs).1 s1 (by simp [statesOf])
  have hp : p = p.dropLast ++ [p.getLast h0] := (List.dropLast_append_getLast h0).symm
  rcases getDirectory_walk (d0 := d) (u := []) hs (.here d) r1 with h3 | ⟨x, rfl, h3⟩ | ⟨rfl, σ, h3, h4⟩
  · exact Or.inl (h3.mono (List.dropLast_prefix p)).left
  · obtain ⟨h4, s2, h5, rfl, r3, r4⟩ := RunI_op r2
    have hs2 := env_reachable r3 hs1
    have ht2 := reachable_isTree hs2
    rw [List.nil_append] at h3
    rcases env_stays r3 hs1 h3 with h6 | h6
    swap
    · exact Or.inl (h6.mono (List.dropLast_prefix p)).left.right
    obtain ⟨g1, g2⟩ := getEntry_exec (w := w) x (p.getLast h0) s2 ht2
    refine Or.inr ⟨s2, mem_states_right (mem_states_right (by simp [statesOf])), ?_⟩
    rcases g2 with ⟨g2, g3⟩ | ⟨e, en, g2, hc, he, ⟨y, g3, g4, g5⟩ | ⟨m, g3, g4, g5⟩⟩
    · rw [g2] at r4
      rw [← (RunI_ret r4).1]
      intro n hn
      rw [hp] at hn
      obtain ⟨x', k1, k2⟩ := reaches_snoc_iff.mp hn
      cases reaches_unique ht2 k1 h6
      exact g3 n k2
    · rw [g2] at r4
      rw [← (RunI_ret r4).1, g3, g4]
      have := reaches_trans h6 g5
      rw [← hp] at this
      exact this
    · rw [g2] at r4
      rw [← (RunI_ret r4).1, g3, g4]
      have := reaches_trans h6 g5
      rw [← hp] at this
      exact this
  · rw [← (RunI_ret r2).1]
    refine Or.inr ⟨σ, mem_states_left (RunI_head r2) h3, fun n hn => ?_⟩
    rw [hp] at hn
    obtain ⟨x', k1, k2⟩ := reaches_snoc_iff.mp hn
    exact h4 ⟨x', k1⟩

/-! ### registering and unregistering -/

theorem registerDirectory_walk {d0 d : ℕ} {u p : List Str} (hp : ∀ x ∈ p, GoodName x) {s s' : State} {h : List Ev} {r}
    (hs : Reachable w s) (hd : d < s.tree.dirs.length) (hx : Reaches s.tree d0 u (.dir d))
    (hr : RunI w (registerDirectory d p) s h s' r) :
    CutBy w d0 (u ++ p) h ∨ (∃ x, r = .ok x ∧ Reaches s'.tree d0 (u ++ p) (.dir x)) ∨
      (r = .error .pathInUse ∧ ∃ σ ∈ statesOf h s', ∃ v m, v <+: u ++ p ∧ Reaches σ.tree d0 v (.metric m)) := by
  induction p generalizing d u s h with
  | nil =>
    have hr' : RunI w (.ret (.ok d)) s h s' r := hr
    obtain ⟨h1, h2⟩ := RunI_ret hr'
    rw [List.append_nil]
    rcases env_stays (RunI_unit hr') hs hx with h3 | h3
    · exact Or.inr (Or.inl ⟨d, h1.symm, h3⟩)
    · exact Or.inl h3
  | cons name p ih =>
    obtain ⟨h1, s1, h2, rfl, r1, r2⟩ := RunI_op hr
    have hs1 := env_reachable r1 hs
    have ht1 := reachable_isTree hs1
    have hd1 : d < s1.tree.dirs.length := lt_of_lt_of_le hd (RunI_ext r1).2.dirs
    have happ : u ++ name :: p = (u ++ [name]) ++ p := by simp
    have hok : (Cmd.createDir d name).Ok s1 := ⟨hd1, okName.mpr (hp name List.mem_cons_self)⟩
    rcases env_stays r1 hs hx with h3 | h3
    swap
    · exact Or.inl (h3.mono (List.prefix_append _ _)).left
    have hmem : s1 ∈ statesOf (h1 ++ ⟨true, .createDir d name, s1⟩ :: h2) s' := mem_states_right (by simp [statesOf])
    rcases createDir_says (w := w) ht1 hd1 (name := name) with ⟨x, g1, g2⟩ | ⟨m, g1, g2⟩
    · have hlt := createDir_handle ht1 g1
      rw [g1] at r2
      rw [happ]
      rcases ih (fun y hy => hp y (List.mem_cons_of_mem _ hy)) (.step _ hs1 hok) hlt
        (reaches_trans (createDir_grow ht1 hd1 name _ _ _ h3) g2) r2 with h4 | h4 | ⟨h4, σ, h5, h6⟩
      · exact Or.inl h4.cons.right
      · exact Or.inr (Or.inl h4)
      · exact Or.inr (Or.inr ⟨h4, σ, mem_states_right (mem_states_cons h5), h6⟩)
    · rw [g1] at r2
      exact Or.inr (Or.inr ⟨(RunI_ret r2).1.symm, s1, hmem, u ++ [name], m, ⟨p, by simp⟩, reaches_trans h3 g2⟩)

theorem registerMetric_walk {d : ℕ} {p : List Str} (hp : ∀ x ∈ p, GoodName x) {spec group unit desc} {s s' : State}
    {h : List Ev} {r} (hs : Reachable w s) (hd : d < s.tree.dirs.length)
    (hr : RunI w (registerMetric w.fnTy d p spec group unit desc) s h s' r) :
    CutBy w d p.dropLast h ∨
    (r = .ok (.ok ()) ∧ ∃ e ∈ h, e.own = true ∧ ∃ m v en, (∀ n, ¬ Reaches e.pre.tree d p n) ∧
        Reaches (exec w e.cmd e.pre).1.tree d p (.metric m) ∧
        (exec w e.cmd e.pre).1.tree.metrics[m]? = some ⟨desc, v, en⟩ ∧ StandsFor v spec group unit) ∨
    (r = .ok (.error .pathInUse) ∧ ∃ σ ∈ statesOf h s', (∃ u m, u <+: p ∧ Reaches σ.tree d u (.metric m)) ∨
          ∃ n, Reaches σ.tree d p n) ∨
    (r ≠ .ok (.ok ()) ∧ r ≠ .ok (.error .pathInUse) ∧ ∃ σ ∈ statesOf h s', valueSays w σ unit spec ≠ .ok none) := by
  by_cases h0 : p = []
  · subst h0
    have hr' : RunI w (.ret (.ok (.error .pathInUse))) s h s' r := hr
    exact Or.inr (Or.inr (Or.inl ⟨(RunI_ret hr').1.symm, s', by simp [statesOf], Or.inr ⟨.dir d, .here d⟩⟩))
  have hbase : p = p.dropLast ++ [p.getLast h0] := (List.dropLast_append_getLast h0).symm
  obtain ⟨e1, e2⟩ := pathDir_base h0
  generalize p.getLast h0 = base at hbase e2
  unfold registerMetric at hr
  rw [if_neg (by simpa [pathEmpty] using h0)] at hr
  simp only [e1, e2] at hr
  obtain ⟨h1, s1, a, h2, rfl, r1, r2⟩ := RunI_bind hr
  obtain ⟨hok1, hh⟩ := registerDirectory_safe (dropLast_good hp) hs hd r1
  have hs1 := (RunI_reachable r1 hs hok1).2
  rcases registerDirectory_walk (d0 := d) (u := []) (dropLast_good hp) hs hd (.here d) r1 with
    h3 | ⟨cur, rfl, hcur⟩ | ⟨rfl, σ, h3, u, m, h4, h5⟩
  · exact Or.inl h3.left
  · simp only at r2
    obtain ⟨h3, s3, v, h4, rfl, r3, r4⟩ := RunI_bind r2
    have hnt3 : ∀ e ∈ h3, e.own = true → e.cmd.isTree = false := RunI_all (newValue_all _ _ _ _) r3
    have hs3 := (RunI_reachable r3 hs1 fun e he ho => ok_of_not_tree (hnt3 e he ho) _).2
    have hc3 : cur < s3.tree.dirs.length := lt_of_lt_of_le (hh cur rfl) (RunI_ext r3).2.dirs
    rw [List.nil_append] at hcur
    rcases run_stays r3 hs1 hnt3 hcur with hcur | hcut
    swap
    · exact Or.inl hcut.left.right
    obtain ⟨σ, hσ, hv⟩ := newValue_at r3
    have hnv := (newValue_run (w := w) (s := σ) spec group unit).2
    simp only [hv] at hnv
    have hσ' : σ ∈ statesOf (h1 ++ (h3 ++ h4)) s' := mem_states_right (mem_states_left (RunI_head r4) hσ)
    cases v with
    | panic =>
      refine Or.inr (Or.inr (Or.inr ?_))
      rw [← (RunI_ret r4).1]
      exact ⟨by simp, by simp, σ, hσ', by rw [hnv]; simp⟩
    | ok x =>
      cases x with
      | error er =>
        refine Or.inr (Or.inr (Or.inr ?_))
        rw [← (RunI_ret r4).1]
        refine ⟨by simp, ?_, σ, hσ', by rw [hnv]; simp⟩
        intro he
        cases he
        exact valueSays_not_path _ _ _ _ hnv
      | ok v =>
        simp only at r4
        obtain ⟨h5, s5, h6, rfl, r5, r6⟩ := RunI_op r4
        have hs5 := env_reachable r5 hs3
        have ht5 := reachable_isTree hs5
        have hc5 : cur < s5.tree.dirs.length := lt_of_lt_of_le hc3 (RunI_ext r5).2.dirs
        rcases env_stays r5 hs3 hcur with hcur | hcut
        swap
        · exact Or.inl hcut.left.right.right
        rcases storeMetric_says (w := w) ht5 hc5 (name := base) (desc := desc) (v := v) with
          ⟨m, hm, k1, k2, mo, k3, k4, k5⟩ | ⟨hm, n, hn⟩
        · rw [hm] at r6
          refine Or.inr (Or.inl ⟨(RunI_ret r6).1.symm, ⟨true, .storeMetric cur base desc v, s5⟩, by simp, rfl,
            m, v, mo.enclosing, fun n hn => ?_, ?_, ?_, hnv.2⟩)
          · rw [hbase] at hn
            obtain ⟨x, l1, l2⟩ := reaches_snoc_iff.mp hn
            cases reaches_unique ht5 l1 hcur
            exact k1 n l2
          · rw [hbase]
            exact reaches_snoc_iff.mpr ⟨cur, storeMetric_grow ht5 hc5 _ _ _ _ _ _ hcur, k2⟩
          · change (exec w (.storeMetric cur base desc v) s5).1.tree.metrics[m]? = _
            rw [k3, ← k4, ← k5]
        · rw [hm] at r6
          refine Or.inr (Or.inr (Or.inl ⟨(RunI_ret r6).1.symm, s5,
            mem_states_right (mem_states_right (mem_states_right (by simp [statesOf]))), Or.inr ⟨n, ?_⟩⟩))
          rw [hbase]
          exact reaches_snoc_iff.mpr ⟨cur, hcur, hn⟩
  · exact Or.inr (Or.inr (Or.inl ⟨(RunI_ret r2).1.symm, σ, mem_states_left (RunI_head r2) h3,
      Or.inl ⟨u, m, h4.trans (List.dropLast_prefix p), h5⟩⟩))

/-- at some moment there is nothing at the path that is unregistered -/
theorem unregisterPath_walk {d : ℕ} {p : List Str} (h0 : p ≠ []) {s s' : State} {h : List Ev} {r}
    (hs : Reachable w s) (hr : RunI w (unregisterPath d p) s h s' r) :
    ∃ σ ∈ statesOf h s', ∀ n, ¬ Reaches σ.tree d p n := by
  have hbase : p = p.dropLast ++ [p.getLast h0] := (List.dropLast_append_getLast h0).symm
  obtain ⟨e1, e2⟩ := pathDir_base h0
  generalize p.getLast h0 = base at hbase e2
  have hr0 := hr
  unfold unregisterPath at hr
  simp only [e1, e2] at hr
  obtain ⟨h1, s1, a, h2, rfl, r1, r2⟩ := RunI_bind hr
  have hs1 := (RunI_reads (getDirectory_reads _ _) r1 hs).1 s1 (by simp [statesOf])
  rcases getDirectory_walk (d0 := d) (u := []) hs (.here d) r1 with h3 | ⟨x, rfl, h3⟩ | ⟨rfl, σ, h3, h4⟩
  · exact cut_nowhere hr0 (h3.mono (List.dropLast_prefix p)).left
  · simp only at r2
    obtain ⟨h4, s2, h5, rfl, r3, r4⟩ := RunI_op r2
    have hs2 := env_reachable r3 hs1
    have ht2 := reachable_isTree hs2
    rw [List.nil_append] at h3
    rcases env_stays r3 hs1 h3 with h6 | h6
    swap
    · exact cut_nowhere hr0 (h6.mono (List.dropLast_prefix p)).left.right
    refine ⟨_, mem_states_right (mem_states_right (mem_states_cons (List.mem_of_head? (RunI_head r4)))), fun n hn => ?_⟩
    change Reaches (s2.tree.removeEntry x base) d p n at hn
    exact ((reaches_drop ht2).mp hn).2 ⟨p.dropLast, h6, ⟨[], by rw [List.append_nil]; exact hbase.symm⟩⟩
  · refine ⟨σ, mem_states_left (RunI_head r2) h3, fun n hn => ?_⟩
    rw [hbase] at hn
    obtain ⟨x', k1, k2⟩ := reaches_snoc_iff.mp hn
    exact h4 ⟨x', k1⟩

/-! ### what was found, if it is registered at all, is registered at the path asked for -/

theorem seenDir_attached {S : State → Prop} {T : Tree MValue} (hT : IsTree T)
    (hS : ∀ τ, S τ → IsTree τ.tree ∧ Ext τ.tree T) {d p x} (h : SeenDir S d p x) {b : List Str}
    (hb : Reaches T 0 b (.dir x)) : ∃ a, b = a ++ p ∧ Reaches T 0 a (.dir d) := by
  induction h generalizing b with
  | here => exact ⟨b, by simp, hb⟩
  | @dir d name d' p x σ hσ hr _ ih =>
    obtain ⟨a, h1, h2⟩ := ih hb
    obtain ⟨e, en, hc, he, hh⟩ := (reaches_one_iff (hS _ hσ).1).mp hr
    have hl := (linked_of_child (hS _ hσ).1 hc he).ext (hS _ hσ).2
    obtain ⟨_, k1, _, k3⟩ := entry_dir hT hl.1 hh
    have ha : a ≠ [] := by rintro rfl; cases h2; omega
    rw [← List.dropLast_append_getLast ha] at h2
    obtain ⟨z, l1, l2⟩ := reaches_snoc_iff.mp h2
    obtain ⟨e', en', hc', he', hh'⟩ := (reaches_one_iff hT).mp l2
    have l3 := (entry_dir hT he' hh').2.2.2
    rw [k3] at l3
    cases l3
    cases hl.1.symm.trans he'
    obtain ⟨n1, n2⟩ := child_entry hT hc' he'
    have hz : z = d := enclosing_inj hT (child_lt hT hc') hl.2.2.2 (by rw [← n2]; exact hl.2.2.1)
    subst hz
    refine ⟨a.dropLast, ?_, l1⟩
    rw [h1, ← hl.2.1, n1]
    conv_lhs => rw [← List.dropLast_append_getLast ha]
    simp

theorem seen_attached {S : State → Prop} {T : Tree MValue} (hT : IsTree T)
    (hS : ∀ τ, S τ → IsTree τ.tree ∧ Ext τ.tree T) {d p m} (h : Seen S d p m) {b : List Str}
    (hb : Reaches T 0 b (.metric m)) : ∃ a, b = a ++ p ∧ Reaches T 0 a (.dir d) := by
  have hx : ∃ q x name, p = q ++ [name] ∧ SeenDir S d q x ∧ ∃ σ, S σ ∧ Reaches σ.tree x [name] (.metric m) := by
    clear hb
    induction h with
    | @metric d name m σ hσ hr => exact ⟨[], d, name, rfl, .here d, σ, hσ, hr⟩
    | @dir d name d' p m σ hσ hr _ ih =>
      obtain ⟨q, x, nm, h1, h2, h3⟩ := ih
      exact ⟨name :: q, x, nm, by rw [h1]; rfl, .dir hσ hr h2, h3⟩
  obtain ⟨q, x, name, rfl, h2, σ, hσ, hr⟩ := hx
  obtain ⟨e, en, hc, he, hh⟩ := (reaches_one_iff (hS _ hσ).1).mp hr
  have hl := (linked_of_child (hS _ hσ).1 hc he).ext (hS _ hσ).2
  obtain ⟨_, mo, k1, k2⟩ := entry_metric hT hl.1 hh
  have ha : b ≠ [] := by rintro rfl; cases hb
  rw [← List.dropLast_append_getLast ha] at hb
  obtain ⟨z, l1, l2⟩ := reaches_snoc_iff.mp hb
  obtain ⟨e', en', hc', he', hh'⟩ := (reaches_one_iff hT).mp l2
  obtain ⟨_, mo', k3, k4⟩ := entry_metric hT he' hh'
  rw [k1] at k3
  cases k3
  rw [k2] at k4
  subst k4
  cases hl.1.symm.trans he'
  obtain ⟨n1, n2⟩ := child_entry hT hc' he'
  have hz : z = x := enclosing_inj hT (child_lt hT hc') hl.2.2.2 (by rw [← n2]; exact hl.2.2.1)
  subst hz
  obtain ⟨a, m1, m2⟩ := seenDir_attached hT hS h2 l1
  refine ⟨a, ?_, m2⟩
  rw [← List.dropLast_append_getLast ha, m1, ← n1, hl.2.1]
  simp

/-! ### what a call of UnregisterPath removes -/

theorem unregisterPath_frame {d : ℕ} {p : List Str} {s s' : State} {h : List Ev} {r}
    (hs : Reachable w s) (hr : RunI w (unregisterPath d p) s h s' r) {e : Ev} (he : e ∈ h) (ho : e.own = true) :
    (∀ q n, Reaches (exec w e.cmd e.pre).1.tree 0 q n → Reaches e.pre.tree 0 q n) ∧
    (∀ q n, Reaches e.pre.tree 0 q n → Reaches (exec w e.cmd e.pre).1.tree 0 q n ∨
      ∃ a, Reaches e.pre.tree 0 a (.dir d) ∧ a ++ p <+: q) := by
  by_cases h0 : p = []
  · subst h0
    have hr' : RunI w (.ret ()) s h s' r := hr
    exact absurd ((RunI_ret hr').2 e he) (by simp [ho])
  have hbase : p = p.dropLast ++ [p.getLast h0] := (List.dropLast_append_getLast h0).symm
  obtain ⟨e1, e2⟩ := pathDir_base h0
  generalize p.getLast h0 = base at hbase e2
  unfold unregisterPath at hr
  simp only [e1, e2] at hr
  obtain ⟨h1, s1, x, h2, rfl, r1, r2⟩ := RunI_bind hr
  have hre1 := (RunI_reads (getDirectory_reads _ _) r1 hs).1
  have hs1 := hre1 s1 (by simp [statesOf])
  rcases List.mem_append.mp he with he | he
  · have hc := (getDirectory_reads d p.dropLast)
    have hrd : e.cmd.reads = true := RunI_all hc r1 e he ho
    rw [exec_reads hrd]
    exact ⟨fun q n h => h, fun q n h => Or.inl h⟩
  · cases x with
    | none => exact absurd ((RunI_ret r2).2 e he) (by simp [ho])
    | some x =>
      simp only at r2
      obtain ⟨h4, s2, h5, rfl, r3, r4⟩ := RunI_op r2
      have hs2 := env_reachable r3 hs1
      have ht2 := reachable_isTree hs2
      have hee : e = ⟨true, .removeEntry x base, s2⟩ := by
        rcases List.mem_append.mp he with he | he
        · exact absurd ((RunI_ret r3).2 e he) (by simp [ho])
        · rcases List.mem_cons.mp he with he | he
          · exact he
          · exact absurd ((RunI_ret r4).2 e he) (by simp [ho])
      subst hee
      obtain ⟨ht1, hS⟩ := states_tree r1 hre1
      have hx2 := (RunI_ext r3).2
      have hS2 : ∀ τ, τ ∈ statesOf h1 s1 → IsTree τ.tree ∧ Ext τ.tree s2.tree := fun τ hτ =>
        ⟨(hS τ hτ).1, (hS τ hτ).2.trans hx2⟩
      change (∀ q n, Reaches (s2.tree.removeEntry x base) 0 q n → Reaches s2.tree 0 q n) ∧
        (∀ q n, Reaches s2.tree 0 q n → Reaches (s2.tree.removeEntry x base) 0 q n ∨
          ∃ a, Reaches s2.tree 0 a (.dir d) ∧ a ++ p <+: q)
      refine ⟨fun q n h => ((reaches_drop ht2).mp h).1, fun q n h => ?_⟩
      by_cases hu : ∃ a, Reaches s2.tree 0 a (.dir x) ∧ (a ++ [base]) <+: q
      · obtain ⟨b, k1, k2⟩ := hu
        rcases getDirectory_seen ht2 hS2 r1 (fun e he => List.mem_append_left _ (List.mem_map.mpr ⟨e, he, rfl⟩)) with
          ⟨x', k3, k4, -⟩ | ⟨k3, -⟩
        · cases k3
          obtain ⟨a, m1, m2⟩ := seenDir_attached ht2 hS2 k4 k1
          refine Or.inr ⟨a, m2, ?_⟩
          rw [hbase, ← List.append_assoc, ← m1]
          exact k2
        · cases k3
      · exact Or.inl ((reaches_drop ht2).mpr ⟨h, hu⟩)

end Tricorder
