import Verif.Proof.Kinds
import Verif.Proof.Canon
import Verif.Spec.Setup
/-!
# Lemmas about start-up: registering many metrics
-/

namespace Tricorder
open Go Spec Tree

variable {α : Type} {w : World} {s s' : State}

/-- a metric below `d` has one path -/
theorem reaches_metric_unique {t : Tree MValue} (ht : IsTree t) {d p q m} (h1 : Reaches t d p (.metric m))
    (h2 : Reaches t d q (.metric m)) (hd : d < t.dirs.length) : p = q := by
  have hp : p ≠ [] := by rintro rfl; cases h1
  have hq : q ≠ [] := by rintro rfl; cases h2
  rw [← List.dropLast_append_getLast hp] at h1
  rw [← List.dropLast_append_getLast hq] at h2
  obtain ⟨a, a1, a2⟩ := reaches_snoc_iff.mp h1
  obtain ⟨b, b1, b2⟩ := reaches_snoc_iff.mp h2
  obtain ⟨e, en, c1, c2, c3⟩ := (reaches_one_iff ht).mp a2
  obtain ⟨e', en', d1, d2, d3⟩ := (reaches_one_iff ht).mp b2
  obtain ⟨-, mo, m1, m2⟩ := entry_metric ht c2 c3
  obtain ⟨-, mo', m1', m2'⟩ := entry_metric ht d2 d3
  rw [m1] at m1'
  cases m1'
  rw [m2] at m2'
  subst m2'
  rw [c2] at d2
  cases d2
  obtain ⟨n1, n2⟩ := child_entry ht c1 c2
  obtain ⟨n3, n4⟩ := child_entry ht d1 c2
  have hab : a = b := enclosing_inj ht (reaches_lt ht a1 hd) (reaches_lt ht b1 hd) (n2.symm.trans n4)
  subst hab
  rw [← List.dropLast_append_getLast hp, ← List.dropLast_append_getLast hq, reaches_path_unique ht a1 b1 hd, ← n1, ← n3]

theorem sameButTree_refl (s : State) : SameButTree s s := rfl

theorem same_trans {a b c : State} (h1 : SameButTree a b) (h2 : SameButTree b c) : SameButTree a c := by
  unfold SameButTree at *
  rw [h2, h1]

theorem onlyUnit_same {s s' : State} {spec : RegSpec} {u : MUnit} (h : OnlyUnit s s' spec u)
    (hs : ∀ i, spec ≠ .dist i) : s' = s := by
  rcases h with h | ⟨i, d, h, -⟩
  · exact h
  · exact absurd h (hs _)

/-- what one registration keeps -/
structure Keeps (d : ℕ) (p : List Str) (s s' : State) : Prop where
  tree : IsTree s'.tree
  ext : Ext s.tree s'.tree
  mono : ∀ d0 q n, Reaches s.tree d0 q n → Reaches s'.tree d0 q n
  same : SameButTree s s'
  clear : ∀ c, Apart p c → Clear s.tree d c → Clear s'.tree d c
  metrics : ∀ q m, Reaches s'.tree d q (.metric m) → Reaches s.tree d q (.metric m) ∨ q = p

theorem Keeps.refl (ht : IsTree s.tree) {d : ℕ} {p : List Str} : Keeps d p s s :=
  ⟨ht, Ext.refl _, fun _ _ _ h => h, rfl, fun _ _ h => h, fun _ _ h => Or.inl h⟩

theorem register_keeps (ht : IsTree s.tree) {d : ℕ} (hd : d < s.tree.dirs.length) {path : Str} {spec : RegSpec}
    (hspec : ∀ i, spec ≠ .dist i) (group : Option ℕ) (unit : MUnit) (desc : Str) :
    Keeps d (newPathSpec path) s ((apiRegisterMetric w.fnTy d path spec group unit desc).run w s).1 := by
  unfold apiRegisterMetric
  have hg : ∀ x ∈ newPathSpec path, GoodName x := fun _ hx => newPathSpec_comp hx
  generalize newPathSpec path = p at hg
  by_cases hp : p = []
  · subst hp
    rw [registerMetric_empty]
    exact .refl ht
  obtain ⟨a1, a2, a3, hcase⟩ := registerMetric_run (w := w) ht hd hg hp spec group unit desc
  obtain ⟨i1, -⟩ := registerDirectory_run (w := w) ht hd (dropLast_good hg)
  have hs1 : SameButTree s ((registerDirectory d p.dropLast).run w s).1 := i1
  generalize (registerMetric w.fnTy d p spec group unit desc).run w s = r at *
  rcases hcase with ⟨_, h⟩ | ⟨⟨hno, hcase⟩, hnew⟩
  · rw [h]; exact .refl ht
  · have hsame : SameButTree s r.1 := by
      rcases hcase with ⟨_, h⟩ | ⟨e, _, h⟩ | ⟨_, ⟨_, _, h⟩ | ⟨_, _, h, _⟩⟩
      · rw [h]; exact hs1
      · rw [h]; exact hs1
      · rw [onlyUnit_same h hspec]; exact rfl
      · have := onlyUnit_same h hspec
        unfold SameButTree
        exact this
    have hdl : d < r.1.tree.dirs.length := lt_of_lt_of_le hd a2.dirs
    -- what is new below `d` is on the path
    have hnew' : ∀ q n, Reaches r.1.tree d q n → Reaches s.tree d q n ∨ q <+: p ∧ (q ≠ p → ∃ d', n = .dir d') := by
      intro q n hq
      rcases hnew d q n hd hq with h | ⟨u, u1, u2, u3, u4, u5, u6⟩
      · exact Or.inl h
      · right
        have : q = u := by
          cases n with
          | dir x => exact reaches_path_unique a1 hq u3 hdl
          | metric m => exact reaches_metric_unique a1 hq u3 hdl
        subst this
        exact ⟨u2, u5⟩
    refine ⟨a1, a2, a3, hsame, ?_, ?_⟩
    · rintro c (h | ⟨h1, h2⟩) ⟨hc1, hc2⟩
      · exact absurd h hp
      refine ⟨fun u m hu hne hr => ?_, fun n hr => ?_⟩
      · rcases hnew' u _ hr with h | ⟨h3, h4⟩
        · exact hc1 u m hu hne h
        · by_cases he : u = p
          · subst he; exact h1 hu
          · obtain ⟨d', hd'⟩ := h4 he
            cases hd'
      · rcases hnew' c _ hr with h | ⟨h3, h4⟩
        · exact hc2 n h
        · exact h2 h3
    · intro q m hr
      rcases hnew' q _ hr with h | ⟨h3, h4⟩
      · exact Or.inl h
      · right
        by_contra he
        obtain ⟨d', hd'⟩ := h4 he
        cases hd'

/-- a registration with nothing in its way -/
theorem register_now (ht : IsTree s.tree) {d : ℕ} (hd : d < s.tree.dirs.length) {path : Str} {spec : RegSpec}
    (hspec : ∀ i, spec ≠ .dist i) {group : Option ℕ} {unit : MUnit} {desc : Str} (hne : newPathSpec path ≠ [])
    (hc : Clear s.tree d (newPathSpec path))
    (hv : ∀ σ, SameButTree s σ → ∃ v, ((newValue w.fnTy spec group unit).run w σ).2 = .ok (.ok v)) :
    let r := (apiRegisterMetric w.fnTy d path spec group unit desc).run w s
    r.2 = .ok (.ok ()) ∧ ∃ m mo σ, Reaches r.1.tree d (newPathSpec path) (.metric m) ∧ r.1.tree.metrics[m]? = some mo ∧
      mo.description = desc ∧ SameButTree s σ ∧ ((newValue w.fnTy spec group unit).run w σ).2 = .ok (.ok mo.value) := by
  unfold apiRegisterMetric
  have hg : ∀ x ∈ newPathSpec path, GoodName x := fun _ hx => newPathSpec_comp hx
  generalize newPathSpec path = p at *
  obtain ⟨a1, a2, a3, hcase⟩ := registerMetric_run (w := w) ht hd hg hne spec group unit desc
  obtain ⟨i1, -⟩ := registerDirectory_run (w := w) ht hd (dropLast_good hg)
  have hs1 : SameButTree s ((registerDirectory d p.dropLast).run w s).1 := i1
  obtain ⟨v, hv⟩ := hv _ hs1
  have hn := newValue_run (w := w) (s := ((registerDirectory d p.dropLast).run w s).1) spec group unit
  simp only [hv] at hn
  obtain ⟨-, hn, -⟩ := hn
  intro r
  rcases hcase with ⟨⟨u, m, h1, h2, h3⟩, h⟩ | ⟨⟨hno, hcase⟩, hnew⟩
  · exact absurd h3 (hc.1 u m h1 h2)
  · rcases hcase with ⟨h, _⟩ | ⟨e, h, _⟩ | ⟨_, ⟨⟨n, h⟩, _⟩ | ⟨_, h, _, m, mo, h1, h2, h3, _, h4⟩⟩
    · rw [hn] at h; cases h
    · rw [hn] at h; cases h
    · exact absurd h (hc.2 n)
    · exact ⟨h, m, mo, _, h1, h2, h3, hs1, h4⟩

/-! ### flags -/

theorem flagUnit_run (u : FlagUnits) (f : Flag) :
    ((flagUnit u f).run w s).1 = s ∧ ∀ ty, flagTy w s f = some ty →
      ((flagUnit u f).run w s).2 = .ok (flagUnitOf u f ty) := by
  unfold flagUnit flagUnitOf flagTy
  cases hl : u.lookup f.name with
  | some unit => exact ⟨rfl, fun _ _ => rfl⟩
  | none =>
    cases hg : f.getter with
    | true =>
      simp only [if_true, Prog.run, exec]
      cases hd : w.flagGet s f.g with
      | none => exact ⟨rfl, fun ty h => by cases h⟩
      | some d =>
        refine ⟨rfl, fun ty h => ?_⟩
        simp only [Option.bind_some] at h
        simp only [Prog.run]
        cases d with
        | scalar n v =>
          cases h
          cases n with
          | none => cases v <;> simp [defaultUnit, Base.ty]
          | some n => simp [defaultUnit]
        | timePtr t => cases h; simp [defaultUnit]
        | other i => cases h; simp [defaultUnit]
        | invalid => cases h
    | false =>
      simp only [Bool.false_eq_true, if_false, Prog.run, exec]
      cases hd : w.flagString s f.g with
      | none => exact ⟨rfl, fun ty h => by cases h⟩
      | some d =>
        refine ⟨rfl, fun ty h => ?_⟩
        cases h
        simp [defaultUnit, Prog.run]

theorem newValue_flag {f : Flag} {ty : GoTy} (h : flagTy w s f = some ty) (unit : MUnit) :
    ∃ v, ((newValue w.fnTy (.flag f.g f.getter) (some 0) unit).run w s).2 = .ok (.ok v) ∧ ReportsFlag v f ty ∧
      v.unit = unit := by
  unfold flagTy at h
  unfold ReportsFlag
  rw [metricType_eq]
  cases hg : f.getter with
  | true =>
    rw [hg, if_pos rfl] at h
    simp only [newValue, Prog.run, exec]
    cases hd : w.flagGet s f.g with
    | none => rw [hd] at h; cases h
    | some d =>
      rw [hd] at h
      simp only [Option.bind_some] at h
      simp only [Prog.run, flagValue, h]
      cases hp : getPrimitiveType ty with
      | none => exact ⟨_, rfl, ⟨rfl, rfl, rfl, rfl, rfl, rfl⟩, rfl⟩
      | some x => exact ⟨_, rfl, ⟨rfl, rfl, rfl, rfl, rfl, rfl⟩, rfl⟩
  | false =>
    rw [hg, if_neg (by simp)] at h
    simp only [newValue, Prog.run, exec]
    cases hd : w.flagString s f.g with
    | none => rw [hd] at h; cases h
    | some d =>
      rw [hd] at h
      cases h
      exact ⟨_, rfl, ⟨rfl, rfl, rfl, rfl, rfl, rfl⟩, rfl⟩

theorem flagsIn_run (u : FlagUnits) {d : ℕ} {fs : List Flag} (ht : IsTree s.tree) (hd : d < s.tree.dirs.length)
    (hf : ∀ f ∈ fs, ∀ σ, SameButTree s σ → ∃ ty, flagTy w σ f = some ty) :
    let r := (registerFlagsIn w.fnTy u d fs).run w s
    r.2 = .ok () ∧ IsTree r.1.tree ∧ Ext s.tree r.1.tree ∧
    (∀ d0 q n, Reaches s.tree d0 q n → Reaches r.1.tree d0 q n) ∧ SameButTree s r.1 ∧
    (∀ q m, Reaches r.1.tree d q (.metric m) → Reaches s.tree d q (.metric m) ∨ ∃ f ∈ fs, q = newPathSpec f.name) ∧
    ∀ pre f post, fs = pre ++ f :: post → newPathSpec f.name ≠ [] → Clear s.tree d (newPathSpec f.name) →
      (∀ g ∈ pre, Apart (newPathSpec g.name) (newPathSpec f.name)) →
      FlagIn w s u f r.1.tree d (newPathSpec f.name) := by
  induction fs generalizing s with
  | nil =>
    refine ⟨rfl, ht, Ext.refl _, fun _ _ _ h => h, rfl, fun _ _ h => Or.inl h, ?_⟩
    intro pre f post h
    simp at h
  | cons f fs ih =>
    obtain ⟨ty, hty⟩ := hf f (by simp) s rfl
    obtain ⟨u1, u2⟩ := flagUnit_run (w := w) (s := s) u f
    have u2 := u2 ty hty
    have k := register_keeps (w := w) ht hd (path := f.name) (spec := .flag f.g f.getter) (by simp) (some 0)
      (flagUnitOf u f ty) f.usage
    have hnp : ∃ x, ((apiRegisterMetric w.fnTy d f.name (.flag f.g f.getter) (some 0) (flagUnitOf u f ty) f.usage).run
        w s).2 = .ok x := by
      unfold apiRegisterMetric
      by_cases hp : newPathSpec f.name = []
      · rw [hp, registerMetric_empty]; exact ⟨_, rfl⟩
      have hg : ∀ x ∈ newPathSpec f.name, GoodName x := fun _ hx => newPathSpec_comp hx
      obtain ⟨-, -, -, hcase⟩ := registerMetric_run (w := w) ht hd hg hp (.flag f.g f.getter) (some 0)
        (flagUnitOf u f ty) f.usage
      obtain ⟨i1, -⟩ := registerDirectory_run (w := w) ht hd (dropLast_good hg)
      have hs1 : SameButTree s ((registerDirectory d (newPathSpec f.name).dropLast).run w s).1 := i1
      obtain ⟨ty1, hty1⟩ := hf f (by simp) _ hs1
      obtain ⟨v, hv, -⟩ := newValue_flag hty1 (flagUnitOf u f ty)
      have hn := newValue_run (w := w) (s := ((registerDirectory d (newPathSpec f.name).dropLast).run w s).1)
        (.flag f.g f.getter) (some 0) (flagUnitOf u f ty)
      simp only [hv] at hn
      rcases hcase with ⟨_, h⟩ | ⟨⟨hno, hcase⟩, hnew⟩
      · exact ⟨_, congrArg Prod.snd h⟩
      · rcases hcase with ⟨h, _⟩ | ⟨e, _, h⟩ | ⟨_, ⟨_, h, _⟩ | ⟨_, h, _⟩⟩
        · rw [hn.2.1] at h; cases h
        · exact ⟨_, congrArg Prod.snd h⟩
        · exact ⟨_, h⟩
        · exact ⟨_, h⟩
    have hnow := register_now (w := w) ht hd (path := f.name) (spec := .flag f.g f.getter) (by simp) (group := some 0)
      (unit := flagUnitOf u f ty) (desc := f.usage)
    have hr : (registerFlagsIn w.fnTy u d (f :: fs)).run w s = (registerFlagsIn w.fnTy u d fs).run w
        ((apiRegisterMetric w.fnTy d f.name (.flag f.g f.getter) (some 0) (flagUnitOf u f ty) f.usage).run w s).1 := by
      obtain ⟨x, hx⟩ := hnp
      rw [registerFlagsIn, run_bind, u2]
      simp only [u1]
      rw [run_bind, hx]
    rw [hr]
    generalize (apiRegisterMetric w.fnTy d f.name (.flag f.g f.getter) (some 0) (flagUnitOf u f ty) f.usage).run w s = q
      at k hnow
    have hd1 : d < q.1.tree.dirs.length := lt_of_lt_of_le hd k.ext.dirs
    obtain ⟨r1, r2, r3, r4, r5, r6, r7⟩ := ih (s := q.1) k.tree hd1
      (fun g hg σ hσ => hf g (by simp [hg]) σ (same_trans k.same hσ))
    refine ⟨r1, r2, k.ext.trans r3, fun d0 p n h => r4 _ _ _ (k.mono _ _ _ h), same_trans k.same r5, ?_, ?_⟩
    · intro p m h
      rcases r6 p m h with h | ⟨g, hg, h⟩
      · rcases k.metrics p m h with h | h
        · exact Or.inl h
        · exact Or.inr ⟨f, by simp, h⟩
      · exact Or.inr ⟨g, by simp [hg], h⟩
    · intro pre g post he hne hc hap
      cases pre with
      | nil =>
        cases he
        obtain ⟨-, m, mo, τ, m1, m2, m3, m4, m5⟩ := hnow hne hc (fun σ hσ => by
          obtain ⟨ty1, hty1⟩ := hf f (by simp) σ hσ
          obtain ⟨v, hv, -⟩ := newValue_flag hty1 (flagUnitOf u f ty)
          exact ⟨v, hv⟩)
        obtain ⟨ty1, hty1⟩ := hf f (by simp) τ m4
        obtain ⟨v, hv, hv1, hv2⟩ := newValue_flag hty1 (flagUnitOf u f ty)
        rw [hv] at m5
        simp only [Out.ok.injEq, Except.ok.injEq] at m5
        subst m5
        exact ⟨m, mo, r4 _ _ _ m1, r3.metrics _ _ m2, m3, s, τ, ty, ty1, rfl, hty, hv2, m4, hty1, hv1⟩
      | cons a pre =>
        simp only [List.cons_append, List.cons.injEq] at he
        obtain ⟨rfl, rfl⟩ := he
        obtain ⟨m, mo, h1, h2, h3, σ, τ, ty1, ty2, h4, h5, h6, h7, h8, h9⟩ := r7 pre g post rfl hne
          (k.clear _ (hap _ (by simp)) hc) (fun x hx => hap x (by simp [hx]))
        exact ⟨m, mo, h1, h2, h3, σ, τ, ty1, ty2, same_trans k.same h4, h5, h6, same_trans k.same h7, h8, h9⟩

theorem flags_comps : newPathSpec (lit "/proc/flags") = [lit "proc", lit "flags"] := by decide +kernel

/-- the whole of `RegisterFlags` -/
theorem registerFlags_run (u : FlagUnits) {fs : List Flag} (ht : IsTree s.tree)
    (hf : ∀ f ∈ fs, ∀ σ, SameButTree s σ → ∃ ty, flagTy w σ f = some ty)
    (hno : ∀ v m, v <+: [lit "proc", lit "flags"] → ¬ Reaches s.tree 0 v (.metric m)) :
    let r := (registerFlags w.fnTy u fs).run w s
    r.2 = .ok () ∧ IsTree r.1.tree ∧
    (∀ d0 q n, Reaches s.tree d0 q n → Reaches r.1.tree d0 q n) ∧ SameButTree s r.1 ∧
    (∃ d, Reaches r.1.tree 0 [lit "proc", lit "flags"] (.dir d)) ∧
    ∀ pre f post, fs = pre ++ f :: post → newPathSpec f.name ≠ [] →
      Clear s.tree 0 ([lit "proc", lit "flags"] ++ newPathSpec f.name) →
      (∀ g ∈ pre, Apart (newPathSpec g.name) (newPathSpec f.name)) →
      FlagIn w s u f r.1.tree 0 ([lit "proc", lit "flags"] ++ newPathSpec f.name) := by
  have hg : ∀ x ∈ newPathSpec (lit "/proc/flags"), GoodName x := fun _ hx => newPathSpec_comp hx
  obtain ⟨i1, i2, i3, i4, -, i6⟩ := registerDirectory_run (w := w) ht ht.rootIn hg
  rw [flags_comps] at *
  have hr : (registerFlags w.fnTy u fs).run w s = match ((registerDirectory 0 [lit "proc", lit "flags"]).run w s).2 with
      | .error _ => (((registerDirectory 0 [lit "proc", lit "flags"]).run w s).1, .panic)
      | .ok d => (registerFlagsIn w.fnTy u d fs).run w ((registerDirectory 0 [lit "proc", lit "flags"]).run w s).1 := by
    rw [registerFlags, apiRegisterDirectory, flags_comps, run_bind]
    generalize (registerDirectory 0 [lit "proc", lit "flags"]).run w s = q
    obtain ⟨a, b⟩ := q
    cases b <;> rfl
  rw [hr]
  generalize (registerDirectory 0 [lit "proc", lit "flags"]).run w s = q at *
  rcases i6 with ⟨v, m, h1, h2, -⟩ | ⟨d, h1, h2, h3⟩
  · exact absurd h2 (hno v m h1)
  rw [h1]
  have hq : SameButTree s q.1 := i1
  have hd : d < q.1.tree.dirs.length := reaches_lt i2 h2 i2.rootIn
  obtain ⟨r1, r2, r3, r4, r5, r6, r7⟩ := flagsIn_run (w := w) (s := q.1) (fs := fs) u i2 hd
    (fun g hg σ hσ => hf g hg σ (same_trans hq hσ))
  refine ⟨r1, r2, fun d0 p n h => r4 _ _ _ (i4 _ _ _ h), same_trans hq r5, ⟨d, r4 _ _ _ h2⟩, ?_⟩
  intro pre f post he hne hc hap
  -- what is below the directory now was below the path before
  have hold : ∀ v n, v ≠ [] → Reaches q.1.tree d v n → Reaches s.tree 0 ([lit "proc", lit "flags"] ++ v) n := by
    intro v n hv hr
    have hfull := reaches_trans h2 hr
    rcases h3 0 _ n ht.rootIn hfull with h | ⟨x, x1, x2, x3, -⟩
    · exact h
    · exfalso
      have : [lit "proc", lit "flags"] ++ v = x := by
        cases n with
        | dir y => exact reaches_path_unique i2 hfull x3 i2.rootIn
        | metric m => exact reaches_metric_unique i2 hfull x3 i2.rootIn
      rw [← this] at x2
      obtain ⟨z, hz⟩ := x2
      have := congrArg List.length hz
      simp only [List.length_append, List.length_cons, List.length_nil] at this
      have := List.length_pos_of_ne_nil hv
      omega
  have hclear : Clear q.1.tree d (newPathSpec f.name) := by
    refine ⟨fun v m hv hvn hr => ?_, fun n hr => hc.2 n (hold _ n hne hr)⟩
    have hv0 : v ≠ [] := by rintro rfl; cases hr
    refine hc.1 _ m ((List.prefix_append_right_inj _).mpr hv) (fun h => hvn ?_) (hold v _ hv0 hr)
    exact List.append_cancel_left h
  obtain ⟨m, mo, m1, m2, m3, σ, τ, ty1, ty2, h4, h5, h6, h7, h8, h9⟩ := r7 pre f post he hne hclear hap
  exact ⟨m, mo, reaches_trans (r4 _ _ _ h2) m1, m2, m3, σ, τ, ty1, ty2, same_trans hq h4, h5, h6, same_trans hq h7, h8, h9⟩

end Tricorder
