import Verif.Proof.Sys2
import Mathlib.Data.List.Induction
/-!
# Directories that the root no longer sees
-/

namespace Tricorder
open Go Spec Tree

namespace Tree

variable {V : Type} {t : Tree V}

/-- two ways to a directory: the second start lies on the first way -/
theorem reaches_common (ht : IsTree t) {a u : List Str} {d x} (h1 : Reaches t 0 a (.dir x))
    (h2 : Reaches t d u (.dir x)) : ∃ b, Reaches t 0 b (.dir d) ∧ a = b ++ u := by
  induction u using List.reverseRecOn generalizing a x with
  | nil => cases h2; exact ⟨a, h1, by simp⟩
  | append_singleton u nm ih =>
    obtain ⟨y, h3, h4⟩ := reaches_snoc_iff.mp h2
    obtain ⟨e, en, hc, he, hh⟩ := (reaches_one_iff ht).mp h4
    have ha : a ≠ [] := by
      rintro rfl
      cases h1
      have := (entry_dir ht he hh).2.1
      omega
    rw [← List.dropLast_append_getLast ha] at h1
    obtain ⟨y', h5, h6⟩ := reaches_snoc_iff.mp h1
    obtain ⟨e', en', hc', he', hh'⟩ := (reaches_one_iff ht).mp h6
    obtain ⟨p1, p2, -⟩ := dir_place_unique ht hc' he' hh' hc he hh
    subst p1
    obtain ⟨b, hb1, hb2⟩ := ih h5 h3
    exact ⟨b, hb1, by rw [← List.append_assoc, ← hb2, ← p2, List.dropLast_append_getLast]⟩

/-- the root does not see the directory -/
def Detached (t : Tree V) (d : ℕ) : Prop := ∀ p, ¬ Reaches t 0 p (.dir d)

theorem Detached.below (ht : IsTree t) {d u x} (h : Detached t d) (hr : Reaches t d u (.dir x)) :
    Detached t x := by
  intro a ha
  obtain ⟨b, hb, _⟩ := reaches_common ht ha hr
  exact h b hb

/-- the same view from the root -/
def SameView (t t' : Tree V) : Prop := ∀ p n, Reaches t' 0 p n ↔ Reaches t 0 p n

theorem SameView.refl (t : Tree V) : SameView t t := fun _ _ => Iff.rfl

theorem SameView.detached {t t' : Tree V} (h : SameView t t') {d} (hd : Detached t d) : Detached t' d :=
  fun p hp => hd p ((h p _).mp hp)

theorem link_view (ht : IsTree t) {d : ℕ} (hd : d < t.dirs.length) {e ds ms} (hn : NewEntry t e ds ms)
    (hdet : Detached t d) : SameView t (t.link d e ds ms) := by
  intro p n
  rw [reaches_link ht hd hn ht.rootIn]
  constructor
  · rintro (h | ⟨q, h, _⟩)
    · exact h
    · exact absurd h (hdet q)
  · exact Or.inl

theorem createDir_view (ht : IsTree t) {d name} (hd : d < t.dirs.length) (hdet : Detached t d) :
    SameView t (t.createDir d name).1 ∧
      ∀ d', (t.createDir d name).2 = .ok d' → Detached (t.createDir d name).1 d' := by
  cases hg : t.getEntry d name with
  | none =>
    rw [createDir_new hg]
    have hv := link_view ht hd (e := ⟨name, none, some t.dirs.length, t.enclosing d⟩)
      (ds := [⟨some t.entries.length, []⟩]) (ms := []) (Or.inl ⟨rfl, rfl, rfl, rfl⟩) hdet
    refine ⟨hv, ?_⟩
    intro d' h p hp
    simp only [Except.ok.injEq] at h
    subst h
    have := reaches_lt ht ((hv _ _).mp hp) ht.rootIn
    omega
  | some e =>
    have hc := getEntry_some hg
    obtain ⟨en, he, _⟩ := ht.child _ _ _ hc
    cases hd' : en.dir with
    | none => rw [createDir_err hg he hd']; exact ⟨SameView.refl _, fun d' h => nomatch h⟩
    | some x =>
      rw [createDir_old hg he hd']
      refine ⟨SameView.refl _, ?_⟩
      intro d' h
      cases h
      exact hdet.below ht (.dir hc he hd' (.here _))

theorem storeMetric_view (ht : IsTree t) {d name desc} {v : V} (hd : d < t.dirs.length)
    (hdet : Detached t d) : SameView t (t.storeMetric d name desc v).1 := by
  cases hg : t.getEntry d name with
  | none =>
    rw [storeMetric_new hg]
    exact link_view ht hd (Or.inr ⟨rfl, rfl, rfl, _, rfl, rfl⟩) hdet
  | some e => rw [storeMetric_old hg]; exact SameView.refl _

theorem removeEntry_view (ht : IsTree t) {d name} (hdet : Detached t d) :
    SameView t (t.removeEntry d name) := by
  intro p n
  unfold removeEntry
  rw [reaches_drop ht]
  constructor
  · exact fun h => h.1
  · intro h
    refine ⟨h, ?_⟩
    rintro ⟨a, ha, _⟩
    exact hdet a ha

theorem unregisterDir_view (ht : IsTree t) {d} (hd : d < t.dirs.length) (hdet : Detached t d) :
    SameView t (t.unregisterDir d) := by
  intro p n
  rw [reaches_unregisterDir ht hd]
  constructor
  · exact fun h => h.1
  · intro h
    refine ⟨h, ?_⟩
    rintro ⟨a, b, _, _, ha⟩
    exact hdet a ha

end Tree

variable {α : Type} {w : World}

/-- detached stays detached, whatever anyone does -/
theorem exec_detached {s : State} (ht : IsTree s.tree) {c : Cmd} (hc : c.Ok s) {d : ℕ}
    (hd : d < s.tree.dirs.length) (h : Detached s.tree d) : Detached (exec w c s).1.tree d := by
  have hlink : ∀ {d1 : ℕ} {e ds ms}, d1 < s.tree.dirs.length → NewEntry s.tree e ds ms →
      Detached (s.tree.link d1 e ds ms) d := by
    intro d1 e ds ms h1 hn p hp
    rcases (reaches_link ht h1 hn ht.rootIn).mp hp with h2 | ⟨q, _, _, h3⟩
    · exact h p h2
    · rcases hn with ⟨_, h4, _⟩ | ⟨_, h4, _⟩
      · change e.dir = some d at h3
        rw [h4] at h3
        cases h3
        omega
      · change e.dir = some d at h3
        rw [h4] at h3
        cases h3
  by_cases hcc : c.isTree = true
  · cases c <;> simp [Cmd.isTree] at hcc
    · intro p hp
      exact h p ((reaches_drop ht).mp hp).1
    · rename_i d1
      intro p hp
      by_cases hd1 : d1 < s.tree.dirs.length
      · exact h p ((reaches_unregisterDir ht hd1).mp hp).1
      · have : s.tree.unregisterDir d1 = s.tree := by
          unfold unregisterDir
          rw [enclosing_invalid _ hd1]
        change Reaches (s.tree.unregisterDir d1) 0 p (.dir d) at hp
        rw [this] at hp
        exact h p hp
    · rename_i d1 name
      show Detached (s.tree.createDir d1 name).1 d
      cases hg : s.tree.getEntry d1 name with
      | none => rw [createDir_new hg]; exact hlink hc.1 (Or.inl ⟨rfl, rfl, rfl, rfl⟩)
      | some e =>
        obtain ⟨en, he, _⟩ := ht.child _ _ _ (getEntry_some hg)
        cases hd' : en.dir with
        | none => rw [createDir_err hg he hd']; exact h
        | some x => rw [createDir_old hg he hd']; exact h
    · rename_i d1 name desc v
      show Detached (s.tree.storeMetric d1 name desc v).1 d
      cases hg : s.tree.getEntry d1 name with
      | none => rw [storeMetric_new hg]; exact hlink hc.1 (Or.inr ⟨rfl, rfl, rfl, _, rfl, rfl⟩)
      | some e => rw [storeMetric_old hg]; exact h
  · rw [exec_tree_of_not (by simpa using hcc)]
    exact h

theorem RunI_detached {p : Prog α} {s s' : State} {h : List Ev} {a : α} (hr : RunI w p s h s' a)
    (hs : Reachable w s) (ho : ∀ e ∈ h, e.own = true → e.cmd.Ok e.pre) {d : ℕ}
    (hd : d < s.tree.dirs.length) (hdet : Detached s.tree d) :
    (∀ e ∈ h, Detached e.pre.tree d) ∧ Detached s'.tree d := by
  have hre := (RunI_reachable hr hs ho).1
  have hex := (RunI_ext hr).1
  refine RunI_inv (P := fun x => Detached x.tree d) hr hdet ?_
  intro e he hde
  refine exec_detached (reachable_isTree (hre e he)) ?_ (lt_of_lt_of_le hd (hex e he).dirs) hde
  cases ho' : e.own with
  | true => exact ho e he ho'
  | false => exact RunI_env_ok hr e he ho'

/-- the program's own steps do not change what the root sees -/
def Silent (w : World) (h : List Ev) : Prop :=
  ∀ e ∈ h, e.own = true → SameView e.pre.tree (exec w e.cmd e.pre).1.tree

theorem Silent.append {h1 h2 : List Ev} (a : Silent w h1) (b : Silent w h2) : Silent w (h1 ++ h2) := by
  intro e he
  rcases List.mem_append.mp he with he | he
  · exact a e he
  · exact b e he

theorem Silent.ret {x y : α} {s s' : State} {h : List Ev} (hr : RunI w (.ret x) s h s' y) : Silent w h :=
  fun e he ho => absurd ((RunI_ret hr).2 e he) (by simp [ho])

theorem Silent.cons {c : Cmd} {s : State} {h : List Ev} (a : SameView s.tree (exec w c s).1.tree)
    (b : Silent w h) : Silent w (⟨true, c, s⟩ :: h) := by
  intro e he
  rcases List.mem_cons.mp he with he | he
  · subst he; exact fun _ => a
  · exact b e he

theorem Silent.of_all {p : Prog α} {s s' : State} {h : List Ev} {a : α}
    (hp : ProgAll (fun c => c.isTree = false) p) (hr : RunI w p s h s' a) : Silent w h := by
  intro e he ho
  rw [exec_tree_of_not (RunI_all hp hr e he ho)]
  exact SameView.refl _

theorem env_ok {s s1 : State} {h1 : List Ev} (hr : RunI w (.ret ()) s h1 s1 ()) :
    ∀ e ∈ h1, e.own = true → e.cmd.Ok e.pre :=
  fun e he ho => absurd ((RunI_ret hr).2 e he) (by simp [ho])

theorem env_detached {s s1 : State} {h1 : List Ev} (hr : RunI w (.ret ()) s h1 s1 ())
    (hs : Reachable w s) {d : ℕ} (hd : d < s.tree.dirs.length) (hdet : Detached s.tree d) :
    Detached s1.tree d := (RunI_detached hr hs (env_ok hr) hd hdet).2

theorem registerDirectory_silent {d : ℕ} {p : List Str} (hp : ∀ x ∈ p, GoodName x) {s s' : State}
    {h : List Ev} {r} (hs : Reachable w s) (hd : d < s.tree.dirs.length) (hdet : Detached s.tree d)
    (hr : RunI w (registerDirectory d p) s h s' r) :
    Silent w h ∧ ∀ d', r = .ok d' → Detached s'.tree d' := by
  induction p generalizing d s h with
  | nil =>
    obtain ⟨h1, h2⟩ := RunI_ret hr
    refine ⟨Silent.ret hr, ?_⟩
    rintro d' rfl
    cases h1
    exact (RunI_detached hr hs (fun e he ho => absurd (h2 e he) (by simp [ho])) hd hdet).2
  | cons name p ih =>
    obtain ⟨h1, s1, h2, e, r1, r2⟩ := RunI_op hr
    have hd1 : d < s1.tree.dirs.length := lt_of_lt_of_le hd (RunI_ext r1).2.dirs
    have hs1 := env_reachable r1 hs
    have hok : (Cmd.createDir d name).Ok s1 := ⟨hd1, okName.mpr (hp name List.mem_cons_self)⟩
    have hs2 : Reachable w (exec w (.createDir d name) s1).1 := .step _ hs1 hok
    subst e
    obtain ⟨hv1, hv2⟩ := createDir_view (reachable_isTree hs1) (name := name) hd1
      (env_detached r1 hs hd hdet)
    cases hc : (exec w (.createDir d name) s1).2 with
    | error er =>
      rw [hc] at r2
      obtain ⟨h3, h4⟩ := RunI_ret r2
      refine ⟨(Silent.ret r1).append (Silent.cons hv1 (Silent.ret r2)), ?_⟩
      rintro d' rfl
      cases h3
    | ok d2 =>
      rw [hc] at r2
      obtain ⟨h3, h4⟩ := ih (fun x hx => hp x (List.mem_cons_of_mem _ hx)) hs2
        (createDir_handle (reachable_isTree hs1) hc) (hv2 d2 hc) r2
      exact ⟨(Silent.ret r1).append (Silent.cons hv1 h3), h4⟩

theorem registerMetric_silent {fnTy : ℕ → GoTy} {d : ℕ} {p : List Str} (hp : ∀ x ∈ p, GoodName x)
    {spec group unit desc} {s s' : State} {h : List Ev} {r} (hs : Reachable w s)
    (hd : d < s.tree.dirs.length) (hdet : Detached s.tree d)
    (hr : RunI w (registerMetric fnTy d p spec group unit desc) s h s' r) : Silent w h := by
  by_cases h0 : p = []
  · subst h0
    exact Silent.ret hr
  · obtain ⟨h1, h2⟩ := pathDir_base h0
    unfold registerMetric at hr
    rw [if_neg (by simpa [pathEmpty] using h0)] at hr
    simp only [h1, h2] at hr
    obtain ⟨h1, s1, a, h2, e, r1, r2⟩ := RunI_bind hr
    subst e
    obtain ⟨hok1, hh⟩ := registerDirectory_safe (dropLast_good hp) hs hd r1
    obtain ⟨hsil, hdd⟩ := registerDirectory_silent (dropLast_good hp) hs hd hdet r1
    have hs1 := (RunI_reachable r1 hs hok1).2
    refine hsil.append ?_
    cases a with
    | error er => exact Silent.ret r2
    | ok cur =>
      simp only at r2
      obtain ⟨h3, s3, v, h4, e, r3, r4⟩ := RunI_bind r2
      subst e
      have hok3 : ∀ e ∈ h3, e.own = true → e.cmd.Ok e.pre :=
        fun e he ho => ok_of_not_tree (RunI_all (newValue_all _ _ _ _) r3 e he ho) _
      have hs3 := (RunI_reachable r3 hs1 hok3).2
      have hc3 : cur < s3.tree.dirs.length := lt_of_lt_of_le (hh cur rfl) (RunI_ext r3).2.dirs
      have hd3 := (RunI_detached r3 hs1 hok3 (hh cur rfl) (hdd cur rfl)).2
      refine (Silent.of_all (newValue_all _ _ _ _) r3).append ?_
      cases v with
      | panic => exact Silent.ret r4
      | ok x =>
        cases x with
        | error er => exact Silent.ret r4
        | ok v =>
          simp only at r4
          obtain ⟨h5, s5, h6, e, r5, r6⟩ := RunI_op r4
          subst e
          refine (Silent.ret r5).append (Silent.cons ?_ ?_)
          · exact storeMetric_view (reachable_isTree (env_reachable r5 hs3))
              (lt_of_lt_of_le hc3 (RunI_ext r5).2.dirs) (env_detached r5 hs3 hc3 hd3)
          · cases hx : (exec w (.storeMetric cur (p.getLast h0) desc v) s5).2 with
            | error er => rw [hx] at r6; exact Silent.ret r6
            | ok m => rw [hx] at r6; exact Silent.ret r6

/-- walking down from a detached directory stays among detached directories -/
theorem getDirectory_silent {d : ℕ} {p : List Str} {s s' : State} {h : List Ev} {r}
    (hs : Reachable w s) (hd : d < s.tree.dirs.length) (hdet : Detached s.tree d)
    (hr : RunI w (getDirectory d p) s h s' r) :
    Silent w h ∧ Reachable w s' ∧ ∀ d', r = some d' → d' < s'.tree.dirs.length ∧ Detached s'.tree d' := by
  induction p generalizing d s h with
  | nil =>
    obtain ⟨h1, h2⟩ := RunI_ret hr
    have hown : ∀ e ∈ h, e.own = true → e.cmd.Ok e.pre := fun e he ho => absurd (h2 e he) (by simp [ho])
    refine ⟨Silent.ret hr, (RunI_reachable hr hs hown).2, ?_⟩
    rintro d' rfl
    cases h1
    exact ⟨lt_of_lt_of_le hd (RunI_ext hr).2.dirs, (RunI_detached hr hs hown hd hdet).2⟩
  | cons name p ih =>
    obtain ⟨h1, s1, h2, e, r1, r2⟩ := RunI_op hr
    have hs1 := env_reachable r1 hs
    have hdet1 := env_detached r1 hs hd hdet
    have ht1 := reachable_isTree hs1
    subst e
    have hret : ∀ {x : Option ℕ} {h2}, RunI w (.ret x) s1 h2 s' r →
        Silent w h2 ∧ Reachable w s' ∧ r = x := by
      intro x h2 hr
      obtain ⟨h3, h4⟩ := RunI_ret hr
      exact ⟨Silent.ret hr, (RunI_reachable hr hs1 (fun e he ho => absurd (h4 e he) (by simp [ho]))).2, h3.symm⟩
    rw [exec_getEntry] at r2
    cases hc : s1.tree.entryAt d name with
    | none =>
      rw [hc] at r2
      obtain ⟨a, b, c⟩ := hret r2
      exact ⟨(Silent.ret r1).append (Silent.cons (SameView.refl _) a), b, fun d' h => by rw [c] at h; cases h⟩
    | some x =>
      obtain ⟨e, en⟩ := x
      rw [hc] at r2
      simp only at r2
      obtain ⟨hch, hen⟩ := (entryAt_some ht1).mp hc
      cases hdd : en.dir with
      | none =>
        rw [hdd] at r2
        obtain ⟨a, b, c⟩ := hret r2
        exact ⟨(Silent.ret r1).append (Silent.cons (SameView.refl _) a), b, fun d' h => by rw [c] at h; cases h⟩
      | some d2 =>
        rw [hdd] at r2
        obtain ⟨a, b, c⟩ := ih hs1 (entry_dir ht1 hen hdd).2.2.1
          (hdet1.below ht1 (.dir hch hen hdd (.here _))) r2
        exact ⟨(Silent.ret r1).append (Silent.cons (SameView.refl _) a), b, c⟩

theorem unregisterPath_silent {d : ℕ} {p : List Str} {s s' : State} {h : List Ev} {r}
    (hs : Reachable w s) (hd : d < s.tree.dirs.length) (hdet : Detached s.tree d)
    (hr : RunI w (unregisterPath d p) s h s' r) : Silent w h := by
  by_cases h0 : p = []
  · subst h0; exact Silent.ret hr
  · obtain ⟨h1, h2⟩ := pathDir_base h0
    unfold unregisterPath at hr
    simp only [h1, h2] at hr
    obtain ⟨h1, s1, a, h2, e, r1, r2⟩ := RunI_bind hr
    subst e
    obtain ⟨a1, a2, a3⟩ := getDirectory_silent hs hd hdet r1
    refine a1.append ?_
    cases a with
    | none => exact Silent.ret r2
    | some d' =>
      simp only at r2
      obtain ⟨h5, s5, h6, e, r5, r6⟩ := RunI_op r2
      subst e
      obtain ⟨b1, b2⟩ := a3 d' rfl
      exact (Silent.ret r5).append (Silent.cons
        (removeEntry_view (reachable_isTree (env_reachable r5 a2)) (env_detached r5 a2 b1 b2)) (Silent.ret r6))

theorem unregisterDirectory_silent {d : ℕ} {s s' : State} {h : List Ev} {r}
    (hs : Reachable w s) (hd : d < s.tree.dirs.length) (hdet : Detached s.tree d)
    (hr : RunI w (apiUnregisterDirectory d) s h s' r) : Silent w h := by
  obtain ⟨h5, s5, h6, e, r5, r6⟩ := RunI_op hr
  subst e
  exact (Silent.ret r5).append (Silent.cons
    (unregisterDir_view (reachable_isTree (env_reachable r5 hs))
      (lt_of_lt_of_le hd (RunI_ext r5).2.dirs) (env_detached r5 hs hd hdet)) (Silent.ret r6))

end Tricorder
