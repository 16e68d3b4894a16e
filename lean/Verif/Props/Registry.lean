import Verif.Proof.Detached
import Verif.Props.Ex
/-!
# C02–C09, C13: the tree of metrics

`Reachable w s`: the state `s` is the result of some interleaving of atomic steps of any goroutines, in
the world `w` (arbitrary user code, map orders and clocks).  `Reaches s.tree d p n`: the components `p`
lead from directory `d` to the object `n`; directory 0 is the root.  `p.run w s` is a call run alone,
`RunI w p s h s' r` a call with the steps of other goroutines interleaved: `h` is the list of all steps.
-/

namespace Tricorder
open Go Spec Tree

variable {w : World} {s : State}

/-! ### facts about the example state -/

theorem exDirs : exS.tree.dirs.length = 5 := by decide +kernel
theorem exM : Reaches exS.tree 0 [nA, nB, nM] (.metric 0) :=
  (resolve_iff (reachable_isTree exS_reachable)).mp (by decide +kernel)
theorem exB : Reaches exS.tree 0 [nA, nB] (.dir 2) :=
  (resolve_iff (reachable_isTree exS_reachable)).mp (by decide +kernel)
theorem exA : Reaches exS.tree 0 [nA] (.dir 1) :=
  (resolve_iff (reachable_isTree exS_reachable)).mp (by decide +kernel)
theorem exOld : Reaches exS.tree 0 [nOld] (.dir 4) :=
  (resolve_iff (reachable_isTree exS_reachable)).mp (by decide +kernel)

/-- directory 3 was unregistered -/
theorem exDetached : Detached exS.tree 3 := by
  have ht := reachable_isTree exS_reachable
  have h3 : exS.tree.enclosing 3 = some 6 := by decide +kernel
  have hno : ∀ d < 5, ∀ x ∈ exS.tree.contents d, x.2 ≠ 6 := by decide +kernel
  intro p hp
  have hp0 : p ≠ [] := by
    rintro rfl
    rw [reaches_nil_iff] at hp
    cases hp
  rw [← List.dropLast_append_getLast hp0] at hp
  obtain ⟨d', _, h4⟩ := reaches_snoc_iff.mp hp
  obtain ⟨e, en, hc, he, hh⟩ := (reaches_one_iff ht).mp h4
  have := (entry_dir ht he hh).2.2.2
  rw [h3] at this
  cases this
  have hlt := child_lt ht hc
  rw [exDirs] at hlt
  exact hno d' hlt _ hc rfl

/-! ## C02 -/

/-- **C02 (directories)** The absolute path of a directory that can be reached from the root is `/` followed by
the components used, and looking that string up from the root yields that directory. -/
theorem C02_directory_path (hs : Reachable w s) {p : List Str} {d : ℕ}
    (h : Reaches s.tree 0 p (.dir d)) :
    (exec w (.dirAbsPath d) s).2 = some (47 :: List.intercalate [47] p) ∧
    (lookupPath 0 (47 :: List.intercalate [47] p)).run w s = (s, (some d, none)) := by
  have ht := reachable_isTree hs
  constructor
  · show s.tree.dirAbsPath d = _
    unfold dirAbsPath absPath
    rw [absPath_dir ht h, Option.map_some, pathString, joinByte_eq]
  · unfold lookupPath
    rw [newPathSpec_slash, ← joinByte_eq, ← pathString, newPathSpec_join p (reaches_good ht h),
      getDirectoryOrMetric_run ht, (resolve_iff ht).mpr h]

/-- **C02 (metrics)** The same for metrics. -/
theorem C02_metric_path (hs : Reachable w s) {p : List Str} {m : ℕ}
    (h : Reaches s.tree 0 p (.metric m)) :
    (∃ mv : MetricView, (exec w (.metric m) s).2 = some mv ∧ mv.path = 47 :: List.intercalate [47] p) ∧
    (lookupPath 0 (47 :: List.intercalate [47] p)).run w s = (s, (none, some m)) := by
  have ht := reachable_isTree hs
  constructor
  · obtain ⟨mo, h1, h2⟩ := absPath_metric ht h
    refine ⟨⟨47 :: List.intercalate [47] p, mo.description, mo.value⟩, ?_, rfl⟩
    show metricView s.tree m = _
    have : s.tree.metricAbsPath m = some (47 :: List.intercalate [47] p) := by
      unfold metricAbsPath absPath
      simp only [h1]
      rw [h2, Option.map_some, pathString, joinByte_eq]
    simp only [metricView, h1, this]
  · unfold lookupPath
    rw [newPathSpec_slash, ← joinByte_eq, ← pathString, newPathSpec_join p (reaches_good ht h),
      getDirectoryOrMetric_run ht, (resolve_iff ht).mpr h]

/-- **C02** Different objects have different absolute paths. -/
theorem C02_paths_distinct (hs : Reachable w s) {p q : List Str} {n n' : Node}
    (h : Reaches s.tree 0 p n) (h' : Reaches s.tree 0 q n')
    (he : List.intercalate [47] p = List.intercalate [47] q) : n = n' := by
  have ht := reachable_isTree hs
  have a := newPathSpec_join p (reaches_good ht h)
  have b := newPathSpec_join q (reaches_good ht h')
  rw [pathString, joinByte_eq] at a b
  rw [he, b] at a
  subst a
  exact reaches_unique ht h h'

example : (exec exW (.metric 0) exS).2.map MetricView.path = some [47, 97, 47, 98, 47, 109] := by
  obtain ⟨mv, h, hp⟩ := (C02_metric_path exS_reachable exM).1
  rw [h, Option.map_some, hp]; decide +kernel
example : (lookupPath 0 [47, 97, 47, 98]).run exW exS = (exS, (some 2, none)) :=
  (C02_directory_path exS_reachable exB).2

/-! ## C03, C04, C05: `RegisterMetric` -/

/-- **C03** The result of `RegisterMetric`, called alone on any directory handle with any path and value.
`s1` is the state in which the value is examined, after the missing parents have been made. -/
theorem C03_register_result (hs : Reachable w s) {d : ℕ} (hd : d < s.tree.dirs.length) (path : Str)
    (spec : RegSpec) (group : Option ℕ) (unit : MUnit) (desc : Str) {c : List Str}
    (hc : Components path c) :
    let s1 := ((apiRegisterDirectory d (List.intercalate [47] c.dropLast)).run w s).1
    let r := ((apiRegisterMetric w.fnTy d path spec group unit desc).run w s).2
    (c = [] ∨ (∃ u m, u <+: c ∧ u ≠ c ∧ Reaches s.tree d u (.metric m)) →
      r = .ok (.error .pathInUse)) ∧
    (c ≠ [] → (∀ u m, u <+: c → u ≠ c → ¬ Reaches s.tree d u (.metric m)) →
      (valueSays w s1 unit spec = .panic → r = .panic) ∧
      (∀ e, valueSays w s1 unit spec = .ok (some e) → r = .ok (.error e)) ∧
      (valueSays w s1 unit spec = .ok none →
        ((∃ n, Reaches s.tree d c n) → r = .ok (.error .pathInUse)) ∧
        ((∀ n, ¬ Reaches s.tree d c n) → r = .ok (.ok ())))) := by
  intro s1 r
  have hcc : c = newPathSpec path := by
    obtain ⟨parts, ⟨h0, h1, h2⟩, keep, h3, rfl⟩ := hc
    unfold newPathSpec
    rw [← h2, splitByte_unique 47 parts h0 h1]
    apply List.filter_congr
    intro x _
    have := h3 x
    rw [← trimSpace_nil_iff] at this
    cases hk : keep x with
    | true => simpa using (this.mp hk)
    | false =>
      have h4 : ¬ ¬ trimSpace x = [] := fun h => by rw [this.mpr h] at hk; cases hk
      simpa using h4
  have hgood : ∀ x ∈ c, GoodName x := fun x hx => newPathSpec_comp (hcc ▸ hx)
  have ht := reachable_isTree hs
  by_cases h0 : c = []
  · have hr : r = .ok (.error .pathInUse) := by
      show ((registerMetric w.fnTy d (newPathSpec path) spec group unit desc).run w s).2 = _
      rw [← hcc, h0, registerMetric_empty]
    exact ⟨fun _ => hr, fun h => absurd h0 h⟩
  · have hs1 : s1 = ((registerDirectory d c.dropLast).run w s).1 := by
      show ((registerDirectory d (newPathSpec (List.intercalate [47] c.dropLast))).run w s).1 = _
      rw [← joinByte_eq, ← pathString, newPathSpec_join _ (dropLast_good hgood)]
    have hr : r = ((registerMetric w.fnTy d c spec group unit desc).run w s).2 := by
      show ((registerMetric w.fnTy d (newPathSpec path) spec group unit desc).run w s).2 = _
      rw [← hcc]
    obtain ⟨-, -, -, hcase⟩ := registerMetric_run (w := w) ht hd hgood h0 spec group unit desc
    rw [hr, hs1]
    rcases hcase with ⟨⟨u, m, hu1, hu2, hu3⟩, hr⟩ | ⟨⟨hno, hcase⟩, -⟩
    · refine ⟨fun _ => by rw [hr], fun _ hn => absurd hu3 (hn u m hu1 hu2)⟩
    · refine ⟨?_, fun _ _ => ?_⟩
      · rintro (h | ⟨u, m, hu1, hu2, hu3⟩)
        · exact absurd h h0
        · exact absurd hu3 (hno u m hu1 hu2)
      · rcases hcase with ⟨hv, hr⟩ | ⟨e, hv, hr⟩ | ⟨hv, hcase⟩
        · rw [hv, hr]
          exact ⟨fun _ => rfl, fun e h => (nomatch h), fun h => (nomatch h)⟩
        · rw [hv, hr]
          exact ⟨fun h => (nomatch h), fun e' h => by cases h; rfl, fun h => (nomatch h)⟩
        · rw [hv]
          refine ⟨fun h => (nomatch h), fun e' h => (nomatch h), fun _ => ?_⟩
          rcases hcase with ⟨⟨n, hn⟩, hr, _⟩ | ⟨hn, hr, _⟩
          · exact ⟨fun _ => hr, fun h => absurd hn (h n)⟩
          · exact ⟨fun ⟨n, h⟩ => absurd h (hn n), fun _ => hr⟩

/-- **C03** For values other than flags the state in which the value is examined does not matter: what it says
is already decided before the call. -/
theorem C03_value_examined_before (hs : Reachable w s) {d : ℕ} (hd : d < s.tree.dirs.length) (path : Str)
    (spec : RegSpec) (unit : MUnit) (hf : ∀ g b, spec ≠ .flag g b) :
    valueSays w ((apiRegisterDirectory d path).run w s).1 unit spec = valueSays w s unit spec := by
  obtain ⟨h, -⟩ := registerDirectory_run (w := w) (reachable_isTree hs) hd
    (p := newPathSpec path) (fun x hx => newPathSpec_comp hx)
  show valueSays w ((registerDirectory d (newPathSpec path)).run w s).1 unit spec = _
  rw [h]
  cases spec with
  | flag g b => exact absurd rfl (hf g b)
  | dist i => cases i <;> rfl
  | _ => rfl

/-- `a/b/m/x`: a proper prefix is a metric; `a/x` with an unsupported function: wrong type; the distribution with
another unit: wrong unit; `a/f`: taken; `a/x`: fine -/
example :
    ((apiRegisterMetric exW.fnTy 0 [97, 47, 98, 47, 109, 47, 120] (.func 1 8) (some 0) .none []).run exW exS).2
        = .ok (.error .pathInUse) ∧
    ((apiRegisterMetric exW.fnTy 1 [120] (.func 1 8) (some 0) .none []).run exW exS).2
        = .ok (.error .wrongType) ∧
    ((apiRegisterMetric exW.fnTy 1 [120] (.dist (some 0)) (some 0) .none []).run exW exS).2
        = .ok (.error .wrongUnit) ∧
    ((apiRegisterMetric exW.fnTy 1 [102] (.ptr 0) (some 0) .none []).run exW exS).2
        = .ok (.error .pathInUse) ∧
    ((apiRegisterMetric exW.fnTy 1 [120] (.ptr 0) (some 0) .none []).run exW exS).2 = .ok (.ok ()) := by
  decide +kernel

/-- the components of a path, and that they are names -/
theorem comps_good {path : Str} : ∀ x ∈ newPathSpec path, GoodName x := fun _ hx => newPathSpec_comp hx

/-- **C04** After `RegisterMetric` returned nil: the path leads to a metric with the given description,
unit and value; everything that could be reached (from any directory) still is what it was; everything
that can be reached but could not before lies on the path: it is the new metric or a directory at a proper
prefix of the path, which did not exist; and apart from the tree nothing but the unit of the distribution
registered may have changed. -/
theorem C04_register_success (hs : Reachable w s) {d : ℕ} (hd : d < s.tree.dirs.length) {path : Str}
    {spec : RegSpec} {group : Option ℕ} {unit : MUnit} {desc : Str}
    (hr : ((apiRegisterMetric w.fnTy d path spec group unit desc).run w s).2 = .ok (.ok ())) :
    let s' := ((apiRegisterMetric w.fnTy d path spec group unit desc).run w s).1
    (∃ m mo, (lookupPath d path).run w s' = (s', (none, some m)) ∧ s'.tree.metrics[m]? = some mo ∧
      mo.description = desc ∧ StandsFor mo.value spec group unit) ∧
    (∀ d0 q n, Reaches s.tree d0 q n → Reaches s'.tree d0 q n) ∧
    (∀ (m : ℕ) mo, s.tree.metrics[m]? = some mo → s'.tree.metrics[m]? = some mo) ∧
    (∀ d0 q n, d0 < s.tree.dirs.length → Reaches s'.tree d0 q n → Reaches s.tree d0 q n ∨
      ∃ u, u ≠ [] ∧ u <+: newPathSpec path ∧ Reaches s'.tree d u n ∧ (∀ n', ¬ Reaches s.tree d u n') ∧
        (u ≠ newPathSpec path → ∃ d', n = .dir d')) ∧
    OnlyUnit { s with tree := s'.tree } s' spec unit := by
  intro s'
  have ht := reachable_isTree hs
  have h0 : newPathSpec path ≠ [] := by
    intro h
    have : ((registerMetric w.fnTy d (newPathSpec path) spec group unit desc).run w s).2 = .ok (.ok ()) := hr
    rw [h, registerMetric_empty] at this
    cases this
  obtain ⟨a1, a2, a3, hcase⟩ := registerMetric_run (w := w) ht hd (comps_good (path := path)) h0
    spec group unit desc
  change ((registerMetric w.fnTy d (newPathSpec path) spec group unit desc).run w s).2 = .ok (.ok ()) at hr
  have hs' : s' = ((registerMetric w.fnTy d (newPathSpec path) spec group unit desc).run w s).1 := rfl
  generalize (registerMetric w.fnTy d (newPathSpec path) spec group unit desc).run w s = r at *
  rw [hs']
  rcases hcase with ⟨_, h⟩ | ⟨⟨hno, hcase⟩, hnew⟩
  · rw [h] at hr; cases hr
  · rcases hcase with ⟨_, h⟩ | ⟨e, _, h⟩ | ⟨_, ⟨_, h, _⟩ | ⟨_, _, ho, m, mo, h1, h2, h3, h4, -⟩⟩
    · rw [h] at hr; cases hr
    · rw [h] at hr; cases hr
    · rw [h] at hr; cases hr
    · refine ⟨⟨m, mo, ?_, h2, h3, h4⟩, a3, a2.metrics, ?_, ho⟩
      · unfold lookupPath
        rw [getDirectoryOrMetric_run a1, (resolve_iff a1).mpr h1]
      · intro d0 q n h0 hr'
        rcases hnew d0 q n h0 hr' with h | ⟨u, hu1, hu2, hu3, hu4, hu5, _⟩
        · exact Or.inl h
        · exact Or.inr ⟨u, hu1, hu2, hu3, hu4, hu5⟩

/-- registering `x/y/z` in directory `a` of the example makes `a/x/y/z`; its unit and description are those given -/
example : ((apiRegisterMetric exW.fnTy 1 [120, 47, 121, 47, 122] (.ptr 0) (some 0) .second [33]).run exW exS).2 =
    .ok (.ok ()) := by decide +kernel

/-- what C05 claims: a failed registration changes nothing that can be looked up, and no later
registration notices it -/
def NoTrace : Prop :=
  ∀ (w : World) (s : State) (d : ℕ) (path : Str) (spec : RegSpec) (group : Option ℕ) (unit : MUnit)
    (desc : Str) (e : RegErr), Reachable w s → d < s.tree.dirs.length →
    ((apiRegisterMetric w.fnTy d path spec group unit desc).run w s).2 = .ok (.error e) →
    let s' := ((apiRegisterMetric w.fnTy d path spec group unit desc).run w s).1
    (∀ q, (lookupPath 0 q).run w s' = (s', ((lookupPath 0 q).run w s).2)) ∧
    (∀ d2 path2 spec2 group2 unit2 desc2, d2 < s.tree.dirs.length →
      ((apiRegisterMetric w.fnTy d2 path2 spec2 group2 unit2 desc2).run w s').2 =
      ((apiRegisterMetric w.fnTy d2 path2 spec2 group2 unit2 desc2).run w s).2)

/-- **C05 is false**: registering a value of unsupported type at `x/y` fails but leaves directory `x`
behind, which can be looked up, and makes a later registration at `x` fail. -/
theorem C05_false_directory : ¬ NoTrace := by
  intro h
  have := (h exW exS 0 [120, 47, 121] (.func 1 8) (some 0) .none [] .wrongType exS_reachable
    (by rw [exDirs]; omega) (by decide +kernel)).2 0 [120] (.ptr 0) (some 0) .none []
    (by rw [exDirs]; omega)
  revert this
  decide +kernel

/-- a distribution that was never registered, in the example state -/
def exS2 : State := (exec exW (.newDist [] false Time.zero) exS).1

theorem exS2_reachable : Reachable exW exS2 := .step _ exS_reachable trivial

/-- **C05 is false** also for the distribution itself: registering it at a path in use fails but fixes its
unit, so that a later registration with another unit fails although it would have succeeded. -/
theorem C05_false_unit : ¬ NoTrace := by
  intro h
  have := (h exW exS2 0 nD (.dist (some 1)) (some 0) .second [] .pathInUse exS2_reachable
    (by decide +kernel) (by decide +kernel)).2 0 [120] (.dist (some 1)) (some 0) .byte []
    (by decide +kernel)
  revert this
  decide +kernel

/-- **C05 (partial)** What does hold after an error: no metric appears, disappears or moves, whatever could be
reached is unchanged, and what is new is directories at proper prefixes of the path.  If the path is the
reason (`ErrPathInUse`) the tree is not changed at all; if the value is the reason, only the tree can
have changed.  Missing: no new directories at all, and an unchanged unit. -/
theorem C05_failed_registration_partial (hs : Reachable w s) {d : ℕ} (hd : d < s.tree.dirs.length)
    {path : Str} {spec : RegSpec} {group : Option ℕ} {unit : MUnit} {desc : Str} {e : RegErr}
    (hr : ((apiRegisterMetric w.fnTy d path spec group unit desc).run w s).2 = .ok (.error e)) :
    let s' := ((apiRegisterMetric w.fnTy d path spec group unit desc).run w s).1
    (∀ d0 q m, d0 < s.tree.dirs.length →
      (Reaches s'.tree d0 q (.metric m) ↔ Reaches s.tree d0 q (.metric m))) ∧
    (∀ d0 q n, Reaches s.tree d0 q n → Reaches s'.tree d0 q n) ∧
    (∀ d0 q n, d0 < s.tree.dirs.length → Reaches s'.tree d0 q n → Reaches s.tree d0 q n ∨
      ∃ u, u ≠ [] ∧ u <+: newPathSpec path ∧ u ≠ newPathSpec path ∧ Reaches s'.tree d u n ∧
        (∀ n', ¬ Reaches s.tree d u n') ∧ ∃ d', n = .dir d') ∧
    (e = .pathInUse → OnlyUnit s s' spec unit) ∧
    (e ≠ .pathInUse → s' = { s with tree := s'.tree }) := by
  intro s'
  have ht := reachable_isTree hs
  change ((registerMetric w.fnTy d (newPathSpec path) spec group unit desc).run w s).2 = .ok (.error e) at hr
  by_cases h0 : newPathSpec path = []
  · have hs' : s' = s := by
      show ((registerMetric w.fnTy d (newPathSpec path) spec group unit desc).run w s).1 = s
      rw [h0, registerMetric_empty]
    rw [h0, registerMetric_empty] at hr
    cases hr
    rw [hs']
    exact ⟨fun _ _ _ _ => Iff.rfl, fun _ _ _ h => h, fun _ _ _ _ h => Or.inl h, fun _ => Or.inl rfl,
      fun h => absurd rfl h⟩
  · obtain ⟨a1, a2, a3, hcase⟩ := registerMetric_run (w := w) ht hd (comps_good (path := path)) h0
      spec group unit desc
    obtain ⟨hd1, -⟩ := registerDirectory_run (w := w) ht hd (p := (newPathSpec path).dropLast)
      (dropLast_good (comps_good (path := path)))
    have hs' : s' = ((registerMetric w.fnTy d (newPathSpec path) spec group unit desc).run w s).1 := rfl
    generalize (registerMetric w.fnTy d (newPathSpec path) spec group unit desc).run w s = r at *
    rw [hs']
    have key : (∀ d0 q n, d0 < s.tree.dirs.length → Reaches r.1.tree d0 q n → Reaches s.tree d0 q n ∨
        ∃ u, u ≠ [] ∧ u <+: newPathSpec path ∧ u ≠ newPathSpec path ∧ Reaches r.1.tree d u n ∧
          (∀ n', ¬ Reaches s.tree d u n') ∧ ∃ d', n = .dir d') := by
      rcases hcase with ⟨_, h⟩ | ⟨_, hnew⟩
      · rw [h]; exact fun _ _ _ _ h => Or.inl h
      · intro d0 q n h0 hr'
        rcases hnew d0 q n h0 hr' with h | ⟨u, hu1, hu2, hu3, hu4, hu5, hu6⟩
        · exact Or.inl h
        · have hne : u ≠ newPathSpec path := by
            intro h
            rw [hu6 h] at hr; cases hr
          exact Or.inr ⟨u, hu1, hu2, hne, hu3, hu4, hu5 hne⟩
    refine ⟨?_, a3, key, ?_, ?_⟩
    · intro d0 q m hd0
      constructor
      · intro h
        rcases key d0 q _ hd0 h with h | ⟨_, _, _, _, _, _, d', h⟩
        · exact h
        · cases h
      · exact a3 _ _ _
    · rintro rfl
      rcases hcase with ⟨_, h⟩ | ⟨⟨hno, hcase⟩, hnew⟩
      · rw [h]; exact Or.inl rfl
      · rcases hcase with ⟨_, h⟩ | ⟨e, hv, h⟩ | ⟨_, ⟨_, _, h⟩ | ⟨_, h, _⟩⟩
        · rw [h] at hr; cases hr
        · rw [h] at hr
          simp only [Out.ok.injEq, Except.error.injEq] at hr
          subst hr
          exfalso
          have : ∀ s1, valueSays w s1 unit spec ≠ .ok (some .pathInUse) := by
            intro s1 hh
            unfold valueSays at hh
            split at hh <;> (try cases hh)
            · split at hh
              · cases hh
              · simp only [Out.ok.injEq] at hh
                split at hh <;> cases hh
            · split at hh
              · cases hh
              · split at hh <;> cases hh
            · split at hh <;> cases hh
            · split at hh
              · simp only [Out.ok.injEq] at hh
                split at hh <;> cases hh
              · cases hh
            · split at hh
              · cases hh
              · split at hh
                · cases hh
                · simp only [Out.ok.injEq] at hh
                  split at hh <;> cases hh
          exact this _ hv
        · exact h
        · rw [h] at hr; cases hr
    · intro hne
      rcases hcase with ⟨_, h⟩ | ⟨⟨hno, hcase⟩, hnew⟩
      · rw [h] at hr; cases hr; exact absurd rfl hne
      · rcases hcase with ⟨_, h⟩ | ⟨e, hv, h⟩ | ⟨_, ⟨_, h, _⟩ | ⟨_, h, _⟩⟩
        · rw [h] at hr; cases hr
        · rw [h]; exact hd1
        · rw [h] at hr; cases hr; exact absurd rfl hne
        · rw [h] at hr; cases hr

/-- a failed registration at `x/y` in the example -/
example : ((apiRegisterMetric exW.fnTy 0 [120, 47, 121] (.func 1 8) (some 0) .none []).run exW exS).2 =
    .ok (.error .wrongType) := by decide +kernel

/-! ## C06, C07: unregistering -/

/-- **C06** `UnregisterPath(p)` on directory `d`, seen from any directory `d0` above or at `d` (the root for
instance, or `d` itself, `a = []`): exactly the paths that equal `p` or lie under `p` stop resolving.  The
empty path changes nothing.  Nothing but the tree is touched and no object is destroyed. -/
theorem C06_unregister_path (hs : Reachable w s) {d d0 : ℕ} (hd0 : d0 < s.tree.dirs.length) {a : List Str}
    (ha : Reaches s.tree d0 a (.dir d)) (path : Str) :
    let s' := ((apiUnregisterPath d path).run w s).1
    (∀ q n, Reaches s'.tree d0 q n ↔
      Reaches s.tree d0 q n ∧ ¬ (newPathSpec path ≠ [] ∧ (a ++ newPathSpec path) <+: q)) ∧
    s' = { s with tree := s'.tree } ∧ Ext s.tree s'.tree := by
  intro s'
  have ht := reachable_isTree hs
  obtain ⟨t', h1, h2, h3, hcase⟩ := unregisterPath_run (w := w) ht d (newPathSpec path)
  have hs' : s' = { s with tree := t' } := h1
  rw [hs']
  refine ⟨?_, rfl, h3⟩
  intro q n
  rcases hcase with ⟨d', hp, hd', rfl⟩ | ⟨rfl, hcase⟩
  · rw [reaches_drop ht]
    have hfull := reaches_trans ha hd'
    constructor
    · rintro ⟨hr, hno⟩
      refine ⟨hr, ?_⟩
      rintro ⟨_, hpre⟩
      refine hno ⟨_, hfull, ?_⟩
      rw [List.append_assoc, List.dropLast_append_getLast]
      exact hpre
    · rintro ⟨hr, hno⟩
      refine ⟨hr, ?_⟩
      rintro ⟨b, hb, hpre⟩
      have := reaches_path_unique ht hb hfull hd0
      subst this
      rw [List.append_assoc, List.dropLast_append_getLast] at hpre
      exact hno ⟨hp, hpre⟩
  · constructor
    · intro hr
      refine ⟨hr, ?_⟩
      rintro ⟨hp, z, hz⟩
      rcases hcase with h | h
      · exact hp h
      · subst hz
        rw [← List.dropLast_append_getLast hp, List.append_assoc, List.append_assoc] at hr
        have := reaches_suffix ht hr ha
        obtain ⟨d', hd', _⟩ := reaches_split this (by simp)
        exact h d' hd'
    · exact fun h => h.1

/-- **C06** If the handle is no longer in the tree, the view from the root does not change. -/
theorem C06_unregister_path_detached (hs : Reachable w s) {d : ℕ} (ha : ∀ a, ¬ Reaches s.tree 0 a (.dir d))
    (path : Str) (q : List Str) (n : Node) :
    Reaches ((apiUnregisterPath d path).run w s).1.tree 0 q n ↔ Reaches s.tree 0 q n := by
  have ht := reachable_isTree hs
  obtain ⟨t', h1, h2, h3, hcase⟩ := unregisterPath_run (w := w) ht d (newPathSpec path)
  change Reaches ((unregisterPath d (newPathSpec path)).run w s).1.tree 0 q n ↔ _
  rw [h1]
  rcases hcase with ⟨d', hp, hd', rfl⟩ | ⟨rfl, _⟩
  · exact removeEntry_view ht (Detached.below ht ha hd') q n
  · exact Iff.rfl

/-- unregistering `b` in directory `a` of the example removes `a/b/m` but not `a/f` -/
example : ¬ Reaches ((apiUnregisterPath 1 nB).run exW exS).1.tree 0 [nA, nB, nM] (.metric 0) ∧
    Reaches ((apiUnregisterPath 1 nB).run exW exS).1.tree 0 [nA, nF] (.metric 1) := by
  have h := (C06_unregister_path exS_reachable (by rw [exDirs]; omega) exA nB).1
  rw [show newPathSpec nB = [nB] by decide +kernel] at h
  constructor
  · rw [h]
    rintro ⟨_, hno⟩
    exact hno ⟨by simp, ⟨[nM], rfl⟩⟩
  · rw [h]
    refine ⟨(resolve_iff (reachable_isTree exS_reachable)).mp (by decide +kernel), ?_⟩
    rintro ⟨_, hpre⟩
    revert hpre
    decide +kernel

/-- **C07** `UnregisterDirectory` on any handle, attached or not: seen from any directory, exactly the paths that
lead to or through that very directory stop resolving; nothing but the tree changes. -/
theorem C07_unregister_directory (hs : Reachable w s) {d : ℕ} (hd : d < s.tree.dirs.length) :
    let s' := ((apiUnregisterDirectory d).run w s).1
    (∀ d0 q n, Reaches s'.tree d0 q n ↔
      Reaches s.tree d0 q n ∧ ¬ ∃ a b, a ≠ [] ∧ q = a ++ b ∧ Reaches s.tree d0 a (.dir d)) ∧
    s' = { s with tree := s'.tree } ∧ Ext s.tree s'.tree :=
  ⟨fun _ _ _ => reaches_unregisterDir (reachable_isTree hs) hd, rfl, ext_unregisterDir _ _⟩

/-- **C07** On a handle that is not in the tree (unregistered before, perhaps replaced by another directory of the
same name) and on the root handle it changes nothing at all. -/
theorem C07_stale_handle (hs : Reachable w s) {d : ℕ} (hd : d < s.tree.dirs.length)
    (h : d = 0 ∨ ∀ d0 name, ¬ Reaches s.tree d0 [name] (.dir d)) :
    ((apiUnregisterDirectory d).run w s).1 = s := by
  have ht := reachable_isTree hs
  show { s with tree := s.tree.unregisterDir d } = s
  have : s.tree.unregisterDir d = s.tree := by
    rcases unregisterDir_cases ht hd with ⟨h1, _⟩ | ⟨p, nm, e, en, hc, he, hdd, _⟩
    · exact h1
    · exfalso
      rcases h with rfl | h
      · have := (entry_dir ht he hdd).2.1
        omega
      · exact h p nm ((reaches_one_iff ht).mpr ⟨e, en, hc, he, hdd⟩)
  rw [this]

/-- **C07** The second of two calls changes nothing, even if other goroutines have registered another directory
under the same path in between; and the other directory stays. -/
theorem C07_twice (hs : Reachable w s) {d : ℕ} (hd : d < s.tree.dirs.length) {h : List Ev} {s' : State} {u : Unit}
    (hr : RunI w (.ret ()) ((apiUnregisterDirectory d).run w s).1 h s' u) (h0 : d ≠ 0) :
    ((apiUnregisterDirectory d).run w s').1 = s' := by
  have ht := reachable_isTree hs
  have hs1 : Reachable w ((apiUnregisterDirectory d).run w s).1 := .step (.unregisterDir d) hs trivial
  have hs' : Reachable w s' := env_reachable hr hs1
  have hl1 : d < ((apiUnregisterDirectory d).run w s).1.tree.dirs.length :=
    lt_of_lt_of_le hd (C07_unregister_directory hs hd).2.2.dirs
  refine C07_stale_handle hs' (lt_of_lt_of_le hl1 (RunI_ext hr).2.dirs) (Or.inr ?_)
  -- the entry of a directory that is nowhere stays nowhere
  have hrec := (RunI_reachable hr hs1 (env_ok hr)).1
  have hext := (RunI_ext hr).1
  refine (RunI_inv (P := fun x => ∀ d0 name, ¬ Reaches x.tree d0 [name] (.dir d)) hr ?_ ?_).2
  · intro d0 name hx
    obtain ⟨hx1, hx2⟩ := ((C07_unregister_directory hs hd).1 d0 [name] (.dir d)).mp hx
    exact hx2 ⟨[name], [], by simp, by simp, hx1⟩
  · intro e he hP d0 name hx
    have hte := reachable_isTree (hrec e he)
    have hte' := exec_isTree (w := w) hte (RunI_env_ok hr e he ((RunI_ret hr).2 e he))
    have hde : d < e.pre.tree.dirs.length := lt_of_lt_of_le hl1 (hext e he).dirs
    obtain ⟨e1, en, hc, hen, hh⟩ := (reaches_one_iff hte').mp hx
    have hok := RunI_env_ok hr e he ((RunI_ret hr).2 e he)
    have hlink : ∀ {d1 : ℕ} {e2 ds ms}, d1 < e.pre.tree.dirs.length → NewEntry e.pre.tree e2 ds ms →
        (exec w e.cmd e.pre).1.tree = e.pre.tree.link d1 e2 ds ms → False := by
      intro d1 e2 ds ms h1 hn heq
      rw [heq] at hc hen hx
      by_cases hd0 : d0 < e.pre.tree.dirs.length
      · rcases (reaches_link hte h1 hn hd0).mp hx with h2 | ⟨q, _, _, h3⟩
        · exact hP _ _ h2
        · rcases hn with ⟨_, h4, _⟩ | ⟨_, h4, _⟩
          · change e2.dir = some d at h3
            rw [h4] at h3
            cases h3
            omega
          · change e2.dir = some d at h3
            rw [h4] at h3
            cases h3
      · have hlt := child_lt (heq ▸ hte') hc
        rw [link_length] at hlt
        rcases hn with ⟨_, h2, h3, h4⟩ | ⟨_, h2, h3, h4⟩
        · subst h3
          simp at hlt
          have : d0 = e.pre.tree.dirs.length := by omega
          subst this
          cases (link_new_empty h1 (Or.inl ⟨by assumption, h2, rfl, h4⟩) h2 hx).1
        · subst h3
          simp at hlt
          omega
    have hsub : ∀ {d1 : ℕ} {nm : Str},
        (exec w e.cmd e.pre).1.tree = e.pre.tree.setContents d1 (erase (e.pre.tree.contents d1) nm) → False := by
      intro d1 nm heq
      rw [heq] at hx
      exact hP _ _ ((reaches_drop hte).mp hx).1
    by_cases hcc : e.cmd.isTree = true
    · cases hcmd : e.cmd <;> simp [hcmd, Cmd.isTree] at hcc <;> rw [hcmd] at hok hx hlink hsub
      · exact hsub rfl
      · rename_i d1
        by_cases hv : d1 < e.pre.tree.dirs.length
        · exact hP _ _ ((reaches_unregisterDir hte hv).mp hx).1
        · have : e.pre.tree.unregisterDir d1 = e.pre.tree := by
            unfold unregisterDir
            rw [enclosing_invalid _ hv]
          change Reaches (e.pre.tree.unregisterDir d1) d0 [name] (.dir d) at hx
          rw [this] at hx
          exact hP _ _ hx
      · rename_i d1 nm
        cases hg : e.pre.tree.getEntry d1 nm with
        | none =>
          exact hlink hok.1 (Or.inl ⟨rfl, rfl, rfl, rfl⟩) (congrArg Prod.fst (createDir_new hg))
        | some e3 =>
          obtain ⟨en3, he3, _⟩ := hte.child _ _ _ (getEntry_some hg)
          change Reaches (e.pre.tree.createDir d1 nm).1 d0 [name] (.dir d) at hx
          cases hd' : en3.dir with
          | none => rw [createDir_err hg he3 hd'] at hx; exact hP _ _ hx
          | some x => rw [createDir_old hg he3 hd'] at hx; exact hP _ _ hx
      · rename_i d1 nm desc v
        cases hg : e.pre.tree.getEntry d1 nm with
        | none =>
          exact hlink hok.1 (Or.inr ⟨rfl, rfl, rfl, _, rfl, rfl⟩) (congrArg Prod.fst (storeMetric_new hg))
        | some e3 =>
          change Reaches (e.pre.tree.storeMetric d1 nm desc v).1 d0 [name] (.dir d) at hx
          rw [storeMetric_old hg] at hx
          exact hP _ _ hx
    · rw [exec_tree_of_not (by simpa using hcc)] at hx
      exact hP _ _ hx

/-- in the example directory 3 was replaced by directory 4; unregistering 3 again leaves 4 in place, unregistering 4 removes it -/
example : Reaches ((apiUnregisterDirectory 3).run exW exS).1.tree 0 [nOld] (.dir 4) ∧
    ¬ Reaches ((apiUnregisterDirectory 4).run exW exS).1.tree 0 [nOld] (.dir 4) := by
  constructor
  · rw [(C07_unregister_directory exS_reachable (by rw [exDirs]; omega)).1]
    refine ⟨exOld, ?_⟩
    rintro ⟨a, b, ha, _, hr⟩
    exact exDetached a hr
  · rw [(C07_unregister_directory exS_reachable (by rw [exDirs]; omega)).1]
    rintro ⟨_, h⟩
    exact h ⟨[nOld], [], by simp, by simp, exOld⟩

/-! ## C08 -/

/-- **C08** A directory that has been unregistered is out of the root's sight, and it stays so whatever any
goroutine does afterwards. -/
theorem C08_unregistered_stays (hs : Reachable w s) {d : ℕ} (hd : d < s.tree.dirs.length) (h0 : d ≠ 0)
    {h : List Ev} {s' : State} {u : Unit}
    (hr : RunI w (.ret ()) ((apiUnregisterDirectory d).run w s).1 h s' u) :
    ∀ p, ¬ Reaches s'.tree 0 p (.dir d) := by
  have ht := reachable_isTree hs
  have hs1 : Reachable w ((apiUnregisterDirectory d).run w s).1 := .step (.unregisterDir d) hs trivial
  have hl1 : d < ((apiUnregisterDirectory d).run w s).1.tree.dirs.length :=
    lt_of_lt_of_le hd (C07_unregister_directory hs hd).2.2.dirs
  refine env_detached hr hs1 hl1 ?_
  intro p hp
  obtain ⟨h1, h2⟩ := ((C07_unregister_directory hs hd).1 0 p (.dir d)).mp hp
  by_cases hpe : p = []
  · subst hpe
    cases h1
    exact h0 rfl
  · exact h2 ⟨p, [], hpe, by simp, h1⟩

/-- **C08** The same for directories that were at or below a path given to `UnregisterPath`. -/
theorem C08_unregistered_path_stays (hs : Reachable w s) {d x : ℕ} {a b : List Str} {path : Str}
    (ha : Reaches s.tree 0 a (.dir d)) (hp : newPathSpec path ≠ [])
    (hx : Reaches s.tree d (newPathSpec path ++ b) (.dir x))
    {h : List Ev} {s' : State} {u : Unit}
    (hr : RunI w (.ret ()) ((apiUnregisterPath d path).run w s).1 h s' u) :
    ∀ p, ¬ Reaches s'.tree 0 p (.dir x) := by
  have ht := reachable_isTree hs
  obtain ⟨h1, h2, h3⟩ := C06_unregister_path hs ht.rootIn ha path
  have hall : ProgAll (fun c => c.isTree = true → ∃ d n, c = .removeEntry d n) (apiUnregisterPath d path) := by
    have hg : ∀ d p, ProgAll (fun c => c.isTree = true → ∃ d n, c = .removeEntry d n) (getDirectory d p) := by
      intro d p
      induction p generalizing d with
      | nil => trivial
      | cons name p ih =>
        refine ⟨fun h => (nomatch h), ?_⟩
        intro r
        cases r with
        | none => trivial
        | some x =>
          simp only
          cases x.2.dir with
          | none => trivial
          | some d' => exact ih d'
    unfold apiUnregisterPath unregisterPath
    split
    · refine ProgAll_bind (hg _ _) ?_
      intro r
      cases r with
      | none => trivial
      | some d' => exact ⟨fun _ => ⟨_, _, rfl⟩, fun _ => trivial⟩
    · trivial
  have hs1 : Reachable w ((apiUnregisterPath d path).run w s).1 := by
    obtain ⟨h, hh, _⟩ := RunI_of_run (w := w) (apiUnregisterPath d path) s
    refine (RunI_reachable hh hs ?_).2
    intro e he ho
    have := RunI_all hall hh e he ho
    by_cases ht : e.cmd.isTree = true
    · obtain ⟨d, n, hc⟩ := this ht
      rw [hc]; trivial
    · exact ok_of_not_tree (by simpa using ht) _
  have hfull := reaches_trans ha hx
  have hxl := reaches_lt ht hfull ht.rootIn
  refine env_detached hr hs1 (lt_of_lt_of_le hxl h3.dirs) ?_
  intro p hpp
  obtain ⟨h4, h5⟩ := (h1 p _).mp hpp
  have := reaches_path_unique ht h4 hfull ht.rootIn
  subst this
  exact h5 ⟨hp, b, by simp⟩

/-- **C08** Once a directory is out of sight, no step of any call through its handle changes what the root
sees, whatever other goroutines do meanwhile; and a handle that `RegisterDirectory` returns is out of sight too,
so the same holds for calls through that handle. -/
theorem C08_calls_are_silent (hs : Reachable w s) {d : ℕ} (hd : d < s.tree.dirs.length)
    (hdet : ∀ p, ¬ Reaches s.tree 0 p (.dir d)) {h : List Ev} {s' : State} :
    (∀ fnTy path spec group unit desc r,
      RunI w (apiRegisterMetric fnTy d path spec group unit desc) s h s' r →
      ∀ e ∈ h, e.own = true → ∀ p n, Reaches (exec w e.cmd e.pre).1.tree 0 p n ↔ Reaches e.pre.tree 0 p n) ∧
    (∀ path r, RunI w (apiRegisterDirectory d path) s h s' r →
      (∀ e ∈ h, e.own = true → ∀ p n, Reaches (exec w e.cmd e.pre).1.tree 0 p n ↔ Reaches e.pre.tree 0 p n) ∧
      ∀ d', r = .ok d' → d' < s'.tree.dirs.length ∧ ∀ p, ¬ Reaches s'.tree 0 p (.dir d')) ∧
    (∀ path r, RunI w (apiUnregisterPath d path) s h s' r →
      ∀ e ∈ h, e.own = true → ∀ p n, Reaches (exec w e.cmd e.pre).1.tree 0 p n ↔ Reaches e.pre.tree 0 p n) ∧
    (∀ r, RunI w (apiUnregisterDirectory d) s h s' r →
      ∀ e ∈ h, e.own = true → ∀ p n, Reaches (exec w e.cmd e.pre).1.tree 0 p n ↔ Reaches e.pre.tree 0 p n) := by
  refine ⟨?_, ?_, ?_, ?_⟩
  · intro fnTy path spec group unit desc r hr
    exact registerMetric_silent comps_good hs hd hdet hr
  · intro path r hr
    obtain ⟨h1, h2⟩ := registerDirectory_silent comps_good hs hd hdet hr
    exact ⟨h1, fun d' hd' => ⟨(registerDirectory_safe comps_good hs hd hr).2 d' hd', h2 d' hd'⟩⟩
  · intro path r hr
    exact unregisterPath_silent hs hd hdet hr
  · intro r hr
    exact unregisterDirectory_silent hs hd hdet hr

/-- directory 3 of the example is out of sight; a metric can still be registered in it -/
example : (∀ p, ¬ Reaches exS.tree 0 p (.dir 3)) ∧
    ((apiRegisterMetric exW.fnTy 3 [120] (.ptr 0) (some 0) .none []).run exW exS).2 = .ok (.ok ()) :=
  ⟨exDetached, by decide +kernel⟩

/-! ## C09 -/

/-- **C09** `RegisterDirectory(p)`, called alone on any handle: `ErrPathInUse`, with nothing changed, iff some
non-empty prefix of `p` is a metric; otherwise it returns a handle to the directory now at `p`, a second call
returns the same handle and changes nothing, and `GetDirectory` (from the root) finds it.  Nothing that existed
changes. -/
theorem C09_register_directory (hs : Reachable w s) {d : ℕ} (hd : d < s.tree.dirs.length) (path : Str) :
    let c := newPathSpec path
    let r := (apiRegisterDirectory d path).run w s
    ((∃ u m, u ≠ [] ∧ u <+: c ∧ Reaches s.tree d u (.metric m)) → r = (s, .error .pathInUse)) ∧
    ((¬ ∃ u m, u ≠ [] ∧ u <+: c ∧ Reaches s.tree d u (.metric m)) → ∃ d', r.2 = .ok d' ∧
      Reaches r.1.tree d c (.dir d') ∧
      (apiRegisterDirectory d path).run w r.1 = (r.1, .ok d') ∧
      (d = 0 → (apiGetDirectory path).run w r.1 = (r.1, .ok d')) ∧
      ((∃ n, Reaches s.tree d c n) → r.1 = s) ∧
      r.1 = { s with tree := r.1.tree } ∧
      (∀ d0 q n, Reaches s.tree d0 q n → Reaches r.1.tree d0 q n) ∧
      (∀ d0 q n, d0 < s.tree.dirs.length → Reaches r.1.tree d0 q n → Reaches s.tree d0 q n ∨
        ∃ u, u ≠ [] ∧ u <+: c ∧ Reaches r.1.tree d u n ∧ (∀ n', ¬ Reaches s.tree d u n') ∧ ∃ d'', n = .dir d'')) := by
  intro c r
  have ht := reachable_isTree hs
  obtain ⟨a1, a2, a3, a4, a5, a6⟩ := registerDirectory_run (w := w) ht hd (comps_good (path := path))
  have hr : r = (registerDirectory d c).run w s := rfl
  generalize (registerDirectory d (newPathSpec path)).run w s = r' at *
  subst hr
  have hne : ∀ {u m}, Reaches s.tree d u (.metric m) → u ≠ [] := by
    rintro u m h rfl
    cases h
  rcases a6 with ⟨u, m, h1, h2, h3, h4⟩ | ⟨d', h1, h2, h3⟩
  · refine ⟨fun _ => ?_, fun h => absurd ⟨u, m, hne h2, h1, h2⟩ h⟩
    have : r.1 = s := by rw [a1, h4]
    exact Prod.ext this h3
  · have hnm : ¬ ∃ u m, u ≠ [] ∧ u <+: c ∧ Reaches s.tree d u (.metric m) := by
      rintro ⟨u, m, _, ⟨z, hz⟩, hu⟩
      have h5 : Reaches r.1.tree d (u ++ z) (.dir d') := by rw [hz]; exact h2
      have := reaches_metric_prefix a2 h5 (a4 _ _ _ hu)
      subst this
      rw [List.append_nil] at h5
      cases reaches_unique a2 h5 (a4 _ _ _ hu)
    refine ⟨fun h => absurd h hnm, fun _ => ⟨d', h1, h2, registerDirectory_exists a2 h2, ?_, ?_, a1, a4, ?_⟩⟩
    · rintro rfl
      obtain ⟨b1, b2⟩ := getDirectoryAndError_run (w := w) (s := r.1) a2 0 c
      refine Prod.ext b1 ?_
      exact DirResult_unique a2 b2 (.found h2)
    · rintro ⟨n, hn⟩
      cases n with
      | metric m =>
        by_cases hc : c = []
        · rw [hc] at hn; cases hn
        · exact absurd ⟨c, m, hc, List.prefix_refl _, hn⟩ hnm
      | dir x =>
        have := registerDirectory_exists (w := w) ht hn
        show ((registerDirectory d c).run w s).1 = s
        rw [this]
    · intro d0 q n h0 hr'
      rcases h3 d0 q n h0 hr' with h | ⟨u, hu1, ⟨z, hz⟩, hu3, hu4⟩
      · exact Or.inl h
      · refine Or.inr ⟨u, hu1, ⟨z, hz⟩, hu3, hu4, ?_⟩
        cases n with
        | dir x => exact ⟨x, rfl⟩
        | metric m =>
          exfalso
          have h5 : Reaches r.1.tree d (u ++ z) (.dir d') := by rw [hz]; exact h2
          have := reaches_metric_prefix a2 h5 hu3
          subst this
          rw [List.append_nil] at h5
          cases reaches_unique a2 h5 hu3

/-- **C09** `GetDirectory(p)` changes nothing, and its result is decided by the first component that is not a
directory: `ErrNotFound` if it is missing, `ErrPathInUse` if it is a metric; if there is none, the handle. -/
theorem C09_get_directory (hs : Reachable w s) (path : Str) :
    let c := newPathSpec path
    let r := (apiGetDirectory path).run w s
    r.1 = s ∧
    (∀ d', r.2 = .ok d' ↔ Reaches s.tree 0 c (.dir d')) ∧
    (r.2 = .error .notFound ↔ ∃ a name b d', c = a ++ name :: b ∧ Reaches s.tree 0 a (.dir d') ∧
      ∀ n, ¬ Reaches s.tree 0 (a ++ [name]) n) ∧
    (r.2 = .error .pathInUse ↔ ∃ a name b m, c = a ++ name :: b ∧ Reaches s.tree 0 (a ++ [name]) (.metric m)) ∧
    (∀ e, r.2 = .error e → e = .notFound ∨ e = .pathInUse) := by
  intro c r
  have ht := reachable_isTree hs
  obtain ⟨b1, b2⟩ := getDirectoryAndError_run (w := w) (s := s) ht 0 c
  have hr : r = (getDirectoryAndError 0 c).run w s := rfl
  rw [← hr] at b1 b2
  have hu : ∀ {x}, DirResult s.tree 0 c x → r.2 = x := fun h => DirResult_unique ht b2 h
  refine ⟨b1, ?_, ?_, ?_, ?_⟩
  · intro d'
    constructor
    · intro h; rw [h] at b2; cases b2; assumption
    · exact fun h => hu (.found h)
  · constructor
    · intro h; rw [h] at b2; cases b2; exact ⟨_, _, _, _, by assumption, by assumption, by assumption⟩
    · rintro ⟨a, name, b, d', h1, h2, h3⟩; exact hu (.missing h1 h2 h3)
  · constructor
    · intro h; rw [h] at b2; cases b2; exact ⟨_, _, _, _, by assumption, by assumption⟩
    · rintro ⟨a, name, b, m, h1, h2⟩
      obtain ⟨d', h3, _⟩ := reaches_snoc_iff.mp h2
      exact hu (.inUse h1 h3 h2)
  · intro e h
    rw [h] at b2
    cases b2
    · exact Or.inl rfl
    · exact Or.inr rfl

example :
    ((apiRegisterDirectory 0 [97, 47, 102, 47, 120]).run exW exS).2 = .error .pathInUse ∧
    ((apiRegisterDirectory 0 [97, 47, 120]).run exW exS).2 = .ok 5 ∧
    ((apiGetDirectory [97, 47, 98]).run exW exS).2 = .ok 2 ∧
    ((apiGetDirectory [97, 47, 120]).run exW exS).2 = .error .notFound ∧
    ((apiGetDirectory [97, 47, 102, 47, 120]).run exW exS).2 = .error .pathInUse := by
  decide +kernel

/-! ## C13 -/

/-- **C13** In every reachable state the heap is a tree (see `Spec.IsTree`): entries are a metric or a directory
but not both, names in a directory are distinct, parent links lead to older entries (no cycles) and agree with
the directory that holds the entry. -/
theorem C13_tree (hs : Reachable w s) : IsTree s.tree := reachable_isTree hs

/-- **C13** The parent link of an entry leads to the directory that holds it, and `Parent` of a directory that
is an entry is the directory that holds that entry. -/
theorem C13_parent (hs : Reachable w s) {d e : ℕ} {name : Str} {en : Entry} (hc : Child s.tree d name e)
    (he : s.tree.entries[e]? = some en) :
    s.tree.parentDir en = some d ∧ en.name = name ∧ ∀ d', en.dir = some d' → s.tree.parent d' = some d := by
  have ht := reachable_isTree hs
  obtain ⟨h1, h2⟩ := child_entry ht hc he
  have hp : s.tree.parentDir en = some d := by
    cases hpe : en.parent with
    | none =>
      rw [hpe] at h2
      have := (root_iff ht (child_lt ht hc)).mp h2.symm
      subst this
      simp [parentDir, hpe]
    | some p =>
      obtain ⟨_, pe, pd, h3, h4⟩ := ht.parent e en p he hpe
      obtain ⟨_, _, h5, h6⟩ := entry_dir ht h3 h4
      have : pd = d := enclosing_inj ht h5 (child_lt ht hc) (by rw [h6, ← h2, hpe])
      subst this
      simp [parentDir, hpe, h3, h4]
  refine ⟨hp, h1, ?_⟩
  intro d' hd'
  simp [Tree.parent, (entry_dir ht he hd').2.2.2, he, hp]

/-- **C13** Every computation of an absolute path ends, for every object, whether in the tree or not. -/
theorem C13_abs_path_ends (hs : Reachable w s) :
    (∀ d, d < s.tree.dirs.length → ∃ p, (exec w (.dirAbsPath d) s).2 = some p) ∧
    (∀ m, m < s.tree.metrics.length → ∃ mv, (exec w (.metric m) s).2 = some mv) := by
  have ht := reachable_isTree hs
  have key : ∀ {cur : Option ℕ}, (∀ e, cur = some e → ∃ en, s.tree.entries[e]? = some en) →
      ∃ p, s.tree.absPath cur = some p := by
    intro cur hc
    obtain ⟨⟨names, c⟩, hx⟩ := pathUp_full ht none hc
    unfold absPath pathFrom
    rw [ht.root, hx]
    simp only
    split <;> exact ⟨_, rfl⟩
  constructor
  · intro d hd
    refine key ?_
    intro e he
    have h0 : d ≠ 0 := by rintro rfl; rw [ht.root] at he; cases he
    obtain ⟨e', en, a, b, _⟩ := ht.dirs d (by omega) hd
    rw [he] at a; cases a; exact ⟨en, b⟩
  · intro m hm
    have hmo : s.tree.metrics[m]? = some s.tree.metrics[m] := List.getElem?_eq_getElem hm
    obtain ⟨en, h1, _⟩ := ht.metrics m _ hmo
    obtain ⟨p, hp⟩ := key (cur := some s.tree.metrics[m].enclosing) (by
      intro e he; cases he; exact ⟨en, h1⟩)
    refine ⟨⟨p, s.tree.metrics[m].description, s.tree.metrics[m].value⟩, ?_⟩
    show metricView s.tree m = _
    have : s.tree.metricAbsPath m = some p := by
      unfold metricAbsPath; rw [hmo]; exact hp
    simp only [metricView, hmo, this]

/-- **C13** Every state that a call passes through, with any interference, is reachable in the sense used above:
the steps of the API programs are among the steps that `Reachable` allows.  (Programs that only read are
covered by `RunI_all`.) -/
theorem C13_api_calls (hs : Reachable w s) {d : ℕ} (hd : d < s.tree.dirs.length) {h : List Ev} {s' : State} :
    (∀ fnTy path spec group unit desc r,
      RunI w (apiRegisterMetric fnTy d path spec group unit desc) s h s' r →
      (∀ e ∈ h, IsTree e.pre.tree) ∧ IsTree s'.tree ∧ Reachable w s') ∧
    (∀ path r, RunI w (apiRegisterDirectory d path) s h s' r →
      (∀ e ∈ h, IsTree e.pre.tree) ∧ IsTree s'.tree ∧ Reachable w s') := by
  constructor
  · intro fnTy path spec group unit desc r hr
    obtain ⟨h1, h2⟩ := RunI_reachable hr hs (registerMetric_safe comps_good hs hd hr)
    exact ⟨fun e he => reachable_isTree (h1 e he), reachable_isTree h2, h2⟩
  · intro path r hr
    obtain ⟨h1, h2⟩ := RunI_reachable hr hs (registerDirectory_safe comps_good hs hd hr).1
    exact ⟨fun e he => reachable_isTree (h1 e he), reachable_isTree h2, h2⟩

example : IsTree exS.tree := C13_tree exS_reachable
example : ∃ mv, (exec exW (.metric 3) exS).2 = some mv := (C13_abs_path_ends exS_reachable).2 3 (by decide +kernel)

end Tricorder
