import Verif.Proof.Setup2
import Verif.Spec.RegMany
/-!
# Lemmas about many registrations
-/

namespace Tricorder
open Go Spec Tree

variable {α : Type} {w : World} {s s' : State}

/-- `FitTogether`, with the components as computed -/
structure FitTogether' (rs : List Reg) : Prop where
  paths : ∀ r ∈ rs, newPathSpec r.path ≠ []
  apart : rs.Pairwise fun a b => Apart (newPathSpec a.path) (newPathSpec b.path)
  units : ∀ a ∈ rs, ∀ b ∈ rs, ∀ i, a.spec = .dist (some i) → b.spec = .dist (some i) → a.unit = b.unit

/-- `FitState`, with the components as computed -/
structure FitState' (w : World) (s : State) (d : ℕ) (rs : List Reg) : Prop where
  clear : ∀ r ∈ rs, Clear s.tree d (newPathSpec r.path)
  values : ∀ r ∈ rs, valueSays w s r.unit r.spec = .ok none
  flags : ∀ r ∈ rs, ∀ g b, r.spec ≠ .flag g b

/-- the value of a metric that is not a flag -/
def valOf (fnTy : ℕ → GoTy) (vars : List Dyn) (spec : RegSpec) (region : Option ℕ) (unit : MUnit) : Option MValue :=
  match spec with
  | .dist i => some ⟨none, none, i, none, .dist, false, unit⟩
  | .list i => some ⟨none, none, none, i, .list, false, unit⟩
  | .func _ f => (getPrimitiveType (fnTy f)).map fun t => ⟨some (.fn f), region, none, none, t.1, t.2, unit⟩
  | .ptr v => vars[v]?.bind fun d => d.ty.bind fun ty => (getPrimitiveType ty).map fun t =>
      ⟨some (.var v), region, none, none, t.1, t.2, unit⟩
  | _ => none

theorem newValue_valOf {spec : RegSpec} {group : Option ℕ} {unit : MUnit} {v : MValue} (hf : ∀ g b, spec ≠ .flag g b)
    (h : ((newValue w.fnTy spec group unit).run w s).2 = .ok (.ok v)) :
    valOf w.fnTy s.vars spec group unit = some v := by
  cases spec with
  | dist i =>
    cases i with
    | none => cases h
    | some i =>
      simp only [newValue, newValueForDist, Prog.run, exec] at h
      cases hd : s.dists[i]? with
      | none => simp [hd, Prog.run] at h
      | some d =>
        simp only [hd] at h
        cases hb : (d.setUnit unit).2 <;> simp [hb, Prog.run] at h
        simp [valOf, h]
  | list i => cases h; rfl
  | flag g b => exact absurd rfl (hf g b)
  | func n f =>
    simp only [newValue] at h
    split at h
    · cases h
    · unfold valOf
      cases hp : getPrimitiveType (w.fnTy f) with
      | none => simp [hp, Prog.run] at h
      | some t => simp only [hp, Prog.run] at h; cases h; simp [hp]
  | ptr v =>
    simp only [newValue, Prog.run, exec] at h
    unfold valOf
    cases hv : s.vars[v]? with
    | none => simp [hv, Prog.run] at h
    | some d =>
      simp only [hv] at h
      cases ht : d.ty with
      | none => simp [ht, Prog.run] at h
      | some ty =>
        simp only [ht] at h
        cases hp : getPrimitiveType ty with
        | none => simp [hp, Prog.run] at h
        | some t => simp only [hp, Prog.run] at h; cases h; simp [hv, ht, hp]
  | invalid => cases h

theorem valueSays_tree {spec : RegSpec} {unit : MUnit} (hf : ∀ g b, spec ≠ .flag g b) (t : Tree MValue) :
    valueSays w { s with tree := t } unit spec = valueSays w s unit spec := by
  cases spec with
  | flag g b => exact absurd rfl (hf g b)
  | dist i => cases i <;> rfl
  | _ => rfl

/-- a distribution registered elsewhere with the same unit stays fine -/
theorem valueSays_onlyUnit {spec spec' : RegSpec} {unit unit' : MUnit} (hf : ∀ g b, spec ≠ .flag g b)
    (h : OnlyUnit s s' spec' unit')
    (hu : ∀ i, spec = .dist (some i) → spec' = .dist (some i) → unit = unit')
    (hv : valueSays w s unit spec = .ok none) : valueSays w s' unit spec = .ok none := by
  rcases h with rfl | ⟨i, d, h1, h2, h3, rfl⟩
  · exact hv
  · cases spec with
    | flag g b => exact absurd rfl (hf g b)
    | dist j =>
      cases j with
      | none => cases hv
      | some j =>
        unfold valueSays at hv ⊢
        simp only at hv ⊢
        by_cases hij : i = j
        · subst hij
          have : i < s.dists.length := (List.getElem?_eq_some_iff.mp h2).1
          rw [List.getElem?_set_self this]
          simp [hu i rfl h1]
        · rw [List.getElem?_set_ne hij]
          exact hv
    | _ => exact hv

/-- a distribution registered has the unit -/
theorem register_unit {d : ℕ} {path : Str} {i : ℕ} {group : Option ℕ} {unit : MUnit} {desc : Str} {D : Dist Fl}
    (h : ((apiRegisterMetric w.fnTy d path (.dist (some i)) group unit desc).run w s).2 = .ok (.ok ()))
    (hD : ((apiRegisterMetric w.fnTy d path (.dist (some i)) group unit desc).run w s).1.dists[i]? = some D) :
    D.unitSet = true ∧ D.unit = unit := by
  unfold apiRegisterMetric at h hD
  generalize newPathSpec path = p at h hD
  by_cases hp : p = []
  · subst hp
    rw [registerMetric_empty] at h
    cases h
  rw [registerMetric_parts _ _ hp] at h hD
  simp only at h hD
  generalize (registerDirectory d p.dropLast).run w s = r1 at h hD
  cases hr : r1.2 with
  | error e => simp [hr] at h
  | ok c =>
    simp only [hr, newValue, newValueForDist, Prog.run, exec] at h hD
    cases hd : r1.1.dists[i]? with
    | none => simp [hd, Prog.run] at h
    | some D0 =>
      have hi : i < r1.1.dists.length := (List.getElem?_eq_some_iff.mp hd).1
      simp only [hd] at h hD
      cases hu : D0.unitSet with
      | false =>
        simp [Dist.setUnit, hu, Prog.run, List.getElem?_set_self hi] at hD
        subst hD
        exact ⟨rfl, rfl⟩
      | true =>
        by_cases hx : unit = D0.unit
        · simp [Dist.setUnit, hu, hx, Prog.run, List.getElem?_set_self hi] at hD
          subst hD
          exact ⟨hu, hx.symm⟩
        · simp [Dist.setUnit, hu, hx, Prog.run] at h

/-- one registration with nothing in its way -/
theorem register_step (ht : IsTree s.tree) {d : ℕ} (hd : d < s.tree.dirs.length) {path : Str} {spec : RegSpec}
    {group : Option ℕ} {unit : MUnit} {desc : Str} (hne : newPathSpec path ≠ []) (hc : Clear s.tree d (newPathSpec path))
    (hf : ∀ g b, spec ≠ .flag g b) (hv : valueSays w s unit spec = .ok none) :
    let r := (apiRegisterMetric w.fnTy d path spec group unit desc).run w s
    r.2 = .ok (.ok ()) ∧ IsTree r.1.tree ∧ Ext s.tree r.1.tree ∧
    (∀ d0 q n, Reaches s.tree d0 q n → Reaches r.1.tree d0 q n) ∧
    (∀ c, Apart (newPathSpec path) c → Clear s.tree d c → Clear r.1.tree d c) ∧
    (∀ q m, Reaches r.1.tree d q (.metric m) → Reaches s.tree d q (.metric m) ∨ q = newPathSpec path) ∧
    OnlyUnit { s with tree := r.1.tree } r.1 spec unit ∧
    ∃ v, valOf w.fnTy s.vars spec group unit = some v ∧ StandsFor v spec group unit ∧
      MetricAt r.1 d (newPathSpec path) desc v := by
  unfold apiRegisterMetric
  have hg : ∀ x ∈ newPathSpec path, GoodName x := fun _ hx => newPathSpec_comp hx
  generalize newPathSpec path = p at *
  obtain ⟨a1, a2, a3, hcase⟩ := registerMetric_run (w := w) ht hd hg hne spec group unit desc
  obtain ⟨i1, -⟩ := registerDirectory_run (w := w) ht hd (dropLast_good hg)
  have hs1 : valueSays w ((registerDirectory d p.dropLast).run w s).1 unit spec = .ok none := by
    rw [i1, valueSays_tree hf, hv]
  have hvars : ((registerDirectory d p.dropLast).run w s).1.vars = s.vars := by rw [i1]
  intro r
  change IsTree r.1.tree at a1
  change Ext s.tree r.1.tree at a2
  rcases hcase with ⟨⟨u, m, h1, h2, h3⟩, h⟩ | ⟨⟨hno, hcase⟩, hnew⟩
  · exact absurd h3 (hc.1 u m h1 h2)
  · rcases hcase with ⟨h, _⟩ | ⟨e, h, _⟩ | ⟨_, ⟨⟨n, h⟩, _⟩ | ⟨_, h, ho, m, mo, h1, h2, h3, h4, h5⟩⟩
    · rw [hs1] at h; cases h
    · rw [hs1] at h; cases h
    · exact absurd h (hc.2 n)
    have hdl : d < r.1.tree.dirs.length := lt_of_lt_of_le hd a2.dirs
    have hnew' : ∀ q n, Reaches r.1.tree d q n → Reaches s.tree d q n ∨ q <+: p ∧ (q ≠ p → ∃ d', n = .dir d') := by
      intro q n hq
      rcases hnew d q n hd hq with h | ⟨u, u1, u2, u3, u4, u5, u6⟩
      · exact Or.inl h
      · right
        have : q = u := by
          cases n with
          | dir x => exact reaches_path_unique a1 hq u3 hdl
          | metric m => exact reaches_metric_unique a1 hq u3 hdl
        subst this
        exact ⟨u2, u5⟩
    have hval := newValue_valOf hf h5
    rw [hvars] at hval
    refine ⟨h, a1, a2, a3, ?_, ?_, ho, mo.value, hval, h4, m, mo, h1, h2, h3, rfl⟩
    · rintro c (h | ⟨h1, h2⟩) ⟨hc1, hc2⟩
      · exact absurd h hne
      refine ⟨fun u m hu hne hr => ?_, fun n hr => ?_⟩
      · rcases hnew' u _ hr with h | ⟨h3, h4⟩
        · exact hc1 u m hu hne h
        · by_cases he : u = p
          · subst he; exact h1 hu
          · obtain ⟨d', hd'⟩ := h4 he
            cases hd'
      · rcases hnew' c _ hr with h | ⟨h3, h4⟩
        · exact hc2 n h
        · exact h2 h3
    · intro q m hr
      rcases hnew' q _ hr with h | ⟨h3, h4⟩
      · exact Or.inl h
      · right
        by_contra he
        obtain ⟨d', hd'⟩ := h4 he
        cases hd'

theorem Spec.MetricAt.mono {d : ℕ} {c : List Str} {desc : Str} {v : MValue} (h : MetricAt s d c desc v)
    (he : Ext s.tree s'.tree) (hm : ∀ d0 q n, Reaches s.tree d0 q n → Reaches s'.tree d0 q n) :
    MetricAt s' d c desc v := by
  obtain ⟨m, mo, h1, h2, h3, h4⟩ := h
  exact ⟨m, mo, hm _ _ _ h1, he.metrics _ _ h2, h3, h4⟩

/-- the distribution after the registrations -/
def unitsSet (rs : List Reg) (i : ℕ) (D : Dist Fl) : Dist Fl :=
  match rs.find? fun r => decide (r.spec = .dist (some i)) with
  | none => D
  | some r => { D with unitSet := true, unit := r.unit }

theorem many_run {rs : List Reg} {d : ℕ} (hs : Reachable w s) (hd : d < s.tree.dirs.length) (hft : FitTogether' rs)
    (hfs : FitState' w s d rs) :
    let r := (registerMany w.fnTy d rs).run w s
    r.2 = rs.map (fun _ => .ok (.ok ())) ∧ Reachable w r.1 ∧ Ext s.tree r.1.tree ∧
    (∀ d0 q n, Reaches s.tree d0 q n → Reaches r.1.tree d0 q n) ∧
    (∀ q m, Reaches r.1.tree d q (.metric m) → Reaches s.tree d q (.metric m) ∨ ∃ x ∈ rs, q = newPathSpec x.path) ∧
    r.1 = { s with tree := r.1.tree, dists := r.1.dists } ∧
    (∀ i, r.1.dists[i]? = s.dists[i]?.map (unitsSet rs i)) ∧
    ∀ x ∈ rs, ∃ v, valOf w.fnTy s.vars x.spec (some x.group) x.unit = some v ∧
      StandsFor v x.spec (some x.group) x.unit ∧ MetricAt r.1 d (newPathSpec x.path) x.description v := by
  induction rs generalizing s with
  | nil =>
    refine ⟨rfl, hs, Ext.refl _, fun _ _ _ h => h, fun _ _ h => Or.inl h, rfl, fun i => ?_, fun _ hx => by simp at hx⟩
    cases h : s.dists[i]? <;> simp [registerMany, Prog.run, h, unitsSet]
  | cons a rs ih =>
    have ht := reachable_isTree hs
    have hre := register_reachable hs hd a.path a.spec (some a.group) a.unit a.description
    obtain ⟨n1, n2, n3, n4, n5, n6, n7, v, n8, n9, n10⟩ := register_step (w := w) ht hd (group := some a.group)
      (desc := a.description) (hft.paths a (by simp)) (hfs.clear a (by simp)) (hfs.flags a (by simp))
      (hfs.values a (by simp))
    have nu : ∀ D i, a.spec = .dist (some i) → ((apiRegisterMetric w.fnTy d a.path a.spec (some a.group) a.unit
        a.description).run w s).1.dists[i]? = some D → D.unitSet = true ∧ D.unit = a.unit := by
      intro D i h hD
      rw [h] at hD
      rw [h] at n1
      exact register_unit n1 hD
    have hr : (registerMany w.fnTy d (a :: rs)).run w s =
        (((registerMany w.fnTy d rs).run w
          ((apiRegisterMetric w.fnTy d a.path a.spec (some a.group) a.unit a.description).run w s).1).1,
         ((apiRegisterMetric w.fnTy d a.path a.spec (some a.group) a.unit a.description).run w s).2 ::
         ((registerMany w.fnTy d rs).run w
          ((apiRegisterMetric w.fnTy d a.path a.spec (some a.group) a.unit a.description).run w s).1).2) := by
      rw [registerMany, run_bind, run_bind]
      rfl
    rw [hr]
    generalize (apiRegisterMetric w.fnTy d a.path a.spec (some a.group) a.unit a.description).run w s = q at *
    have hap := hft.apart
    rw [List.pairwise_cons] at hap
    have hvars : q.1.vars = s.vars := by
      rcases n7 with h | ⟨i, D, _, _, _, h⟩ <;> rw [h]
    obtain ⟨r1, r2, r3, r4, r5, r6, r7, r8⟩ := ih (s := q.1) hre (lt_of_lt_of_le hd n3.dirs)
      ⟨fun r hr => hft.paths r (by simp [hr]), hap.2,
        fun x hx y hy => hft.units x (by simp [hx]) y (by simp [hy])⟩
      ⟨fun r hr => n5 _ (hap.1 r hr) (hfs.clear r (by simp [hr])), fun r hr => by
        refine valueSays_onlyUnit (hfs.flags r (by simp [hr])) n7
          (fun i h1 h2 => hft.units r (by simp [hr]) a (by simp) i h1 h2) ?_
        rw [valueSays_tree (hfs.flags r (by simp [hr]))]
        exact hfs.values r (by simp [hr]), fun r hr => hfs.flags r (by simp [hr])⟩
    refine ⟨?_, r2, n3.trans r3, fun _ _ _ h => r4 _ _ _ (n4 _ _ _ h), ?_, ?_, ?_, ?_⟩
    · rw [n1, r1]; rfl
    · intro p m h
      rcases r5 p m h with h | ⟨x, hx, h⟩
      · rcases n6 p m h with h | h
        · exact Or.inl h
        · exact Or.inr ⟨a, by simp, h⟩
      · exact Or.inr ⟨x, by simp [hx], h⟩
    · rw [r6]
      rcases n7 with h | ⟨i, D, _, _, _, h⟩ <;> rw [h]
    · intro i
      show ((registerMany w.fnTy d rs).run w q.1).1.dists[i]? = _
      rw [r7 i]
      have hvi := hfs.values a (by simp)
      have hu := hft.units a (by simp)
      by_cases hai : a.spec = .dist (some i)
      · -- the first registration sets the unit
        have h2 : unitsSet (a :: rs) i = fun D => { D with unitSet := true, unit := a.unit } := by
          funext D; simp [unitsSet, hai]
        have h3 : ∀ D : Dist Fl, unitsSet rs i { D with unitSet := true, unit := a.unit } =
            { D with unitSet := true, unit := a.unit } := by
          intro D
          unfold unitsSet
          cases hf : rs.find? fun r => decide (r.spec = .dist (some i)) with
          | none => rfl
          | some r =>
            have hr := List.mem_of_find?_eq_some hf
            have hi := List.find?_some hf
            simp only [decide_eq_true_eq] at hi
            simp only
            rw [← hu r (by simp [hr]) i hai hi]
        rw [h2]
        rw [hai] at hvi
        unfold valueSays at hvi
        simp only at hvi
        cases hD : s.dists[i]? with
        | none => simp [hD] at hvi
        | some D =>
          simp only [hD] at hvi
          have hun : D.unitSet = true → D.unit = a.unit := by
            intro h; by_contra h'; simp [h, h'] at hvi
          rcases n7 with h | ⟨j, D', j1, j2, j3, h⟩
          · rw [h]
            simp only [hD, Option.map_some, Option.some.injEq]
            -- not set now, so set before
            have : D.unitSet = true ∧ D.unit = a.unit := nu D i hai (by rw [h]; exact hD)
            have h4 : ({ D with unitSet := true, unit := a.unit } : Dist Fl) = D := by
              rw [← this.1, ← this.2]
            rw [← h3 D, h4]
          · rw [hai] at j1
            cases j1
            rw [h]
            simp only at j2 ⊢
            rw [hD] at j2
            cases j2
            have hi : i < s.dists.length := (List.getElem?_eq_some_iff.mp hD).1
            rw [List.getElem?_set_self hi]
            simp [h3]
      · have h2 : unitsSet (a :: rs) i = unitsSet rs i := by
          funext D; simp [unitsSet, hai]
        rw [h2]
        rcases n7 with h | ⟨j, D', j1, j2, j3, h⟩
        · rw [h]
        · rw [h]
          have : j ≠ i := by rintro rfl; exact hai j1
          simp [List.getElem?_set_ne this]
    · intro x hx
      rcases List.mem_cons.mp hx with rfl | hx
      · exact ⟨v, n8, n9, n10.mono r3 r4⟩
      · obtain ⟨v, h1, h2, h3⟩ := r8 x hx
        rw [hvars] at h1
        exact ⟨v, h1, h2, h3⟩

theorem valueSays_back {spec spec' : RegSpec} {unit unit' : MUnit} (hf : ∀ g b, spec ≠ .flag g b)
    (h : OnlyUnit s s' spec' unit') (hv : valueSays w s' unit spec = .ok none) : valueSays w s unit spec = .ok none := by
  rcases h with rfl | ⟨i, d, h1, h2, h3, rfl⟩
  · exact hv
  · cases spec with
    | flag g b => exact absurd rfl (hf g b)
    | dist j =>
      cases j with
      | none => cases hv
      | some j =>
        unfold valueSays at hv ⊢
        simp only at hv ⊢
        by_cases hij : i = j
        · subst hij
          simp [h2, h3]
        · rw [List.getElem?_set_ne hij] at hv
          exact hv
    | _ => exact hv

/-- a registration that succeeds had nothing in its way -/
theorem register_only (ht : IsTree s.tree) {d : ℕ} (hd : d < s.tree.dirs.length) {path : Str} {spec : RegSpec}
    {group : Option ℕ} {unit : MUnit} {desc : Str} (hf : ∀ g b, spec ≠ .flag g b)
    (hr : ((apiRegisterMetric w.fnTy d path spec group unit desc).run w s).2 = .ok (.ok ())) :
    newPathSpec path ≠ [] ∧ Clear s.tree d (newPathSpec path) ∧ valueSays w s unit spec = .ok none := by
  unfold apiRegisterMetric at hr
  have hg : ∀ x ∈ newPathSpec path, GoodName x := fun _ hx => newPathSpec_comp hx
  generalize newPathSpec path = p at *
  by_cases hp : p = []
  · subst hp
    rw [registerMetric_empty] at hr
    cases hr
  obtain ⟨a1, a2, a3, hcase⟩ := registerMetric_run (w := w) ht hd hg hp spec group unit desc
  obtain ⟨i1, -⟩ := registerDirectory_run (w := w) ht hd (dropLast_good hg)
  rcases hcase with ⟨_, h⟩ | ⟨⟨hno, hcase⟩, hnew⟩
  · rw [h] at hr; cases hr
  · rcases hcase with ⟨_, h⟩ | ⟨e, _, h⟩ | ⟨h0, ⟨_, h, _⟩ | ⟨h1, _⟩⟩
    · rw [h] at hr; cases hr
    · rw [h] at hr; cases hr
    · rw [h] at hr; cases hr
    · rw [i1, valueSays_tree hf] at h0
      exact ⟨hp, ⟨hno, h1⟩, h0⟩

theorem many_back {rs : List Reg} {d : ℕ} (hs : Reachable w s) (hd : d < s.tree.dirs.length)
    (hf : ∀ r ∈ rs, ∀ g b, r.spec ≠ .flag g b)
    (hok : ∀ x ∈ ((registerMany w.fnTy d rs).run w s).2, x = .ok (.ok ())) :
    FitTogether' rs ∧ FitState' w s d rs := by
  induction rs generalizing s with
  | nil => exact ⟨⟨by simp, by simp, by simp⟩, ⟨by simp, by simp, by simp⟩⟩
  | cons a rs ih =>
    have ht := reachable_isTree hs
    have hr : ((registerMany w.fnTy d (a :: rs)).run w s).2 =
         ((apiRegisterMetric w.fnTy d a.path a.spec (some a.group) a.unit a.description).run w s).2 ::
         ((registerMany w.fnTy d rs).run w
          ((apiRegisterMetric w.fnTy d a.path a.spec (some a.group) a.unit a.description).run w s).1).2 := by
      rw [registerMany, run_bind, run_bind]
      rfl
    rw [hr] at hok
    have ha := hok _ (List.mem_cons_self ..)
    obtain ⟨b1, b2, b3⟩ := register_only ht hd (hf a (by simp)) ha
    obtain ⟨-, n2, n3, n4, n5, n6, n7, v, n8, n9, n10⟩ := register_step (w := w) ht hd (group := some a.group)
      (desc := a.description) b1 b2 (hf a (by simp)) b3
    have hre := register_reachable hs hd a.path a.spec (some a.group) a.unit a.description
    have nu : ∀ D i, a.spec = .dist (some i) → ((apiRegisterMetric w.fnTy d a.path a.spec (some a.group) a.unit
        a.description).run w s).1.dists[i]? = some D → D.unitSet = true ∧ D.unit = a.unit := by
      intro D i h hD
      rw [h] at hD ha
      exact register_unit ha hD
    generalize (apiRegisterMetric w.fnTy d a.path a.spec (some a.group) a.unit a.description).run w s = q at *
    obtain ⟨c1, c2⟩ := ih hre (lt_of_lt_of_le hd n3.dirs) (fun r hr => hf r (by simp [hr]))
      (fun x hx => hok x (List.mem_cons_of_mem _ hx))
    have hval : ∀ r ∈ rs, valueSays w s r.unit r.spec = .ok none := by
      intro r hr
      have := valueSays_back (hf r (by simp [hr])) n7 (c2.values r hr)
      rw [valueSays_tree (hf r (by simp [hr]))] at this
      exact this
    have hunit : ∀ r ∈ rs, ∀ i, a.spec = .dist (some i) → r.spec = .dist (some i) → a.unit = r.unit := by
      intro r hr i h1 h2
      have := c2.values r hr
      rw [h2] at this
      unfold valueSays at this
      simp only at this
      cases hD : q.1.dists[i]? with
      | none => simp [hD] at this
      | some D =>
        obtain ⟨e1, e2⟩ := nu D i h1 hD
        rw [← e2]
        by_contra hne
        simp [hD, e1, hne] at this
    obtain ⟨m, mo, hm, -⟩ := n10
    refine ⟨⟨?_, List.pairwise_cons.mpr ⟨?_, c1.apart⟩, ?_⟩, ?_, ?_, hf⟩
    · intro r hr
      rcases List.mem_cons.mp hr with rfl | hr
      · exact b1
      · exact c1.paths r hr
    · intro r hr
      have hcl := c2.clear r hr
      refine Or.inr ⟨fun h => ?_, fun h => ?_⟩
      · by_cases he : newPathSpec a.path = newPathSpec r.path
        · rw [he] at hm; exact hcl.2 _ hm
        · exact hcl.1 _ _ h he hm
      · obtain ⟨t, h⟩ := h
        by_cases h0 : t = []
        · subst h0
          rw [List.append_nil] at h
          rw [← h] at hm; exact hcl.2 _ hm
        · rw [← h] at hm
          obtain ⟨x, hx, -⟩ := reaches_split hm h0
          exact hcl.2 _ hx
    · intro x hx y hy i h1 h2
      rcases List.mem_cons.mp hx with rfl | hx' <;> rcases List.mem_cons.mp hy with rfl | hy'
      · rfl
      · exact hunit y hy' i h1 h2
      · exact (hunit x hx' i h2 h1).symm
      · exact c1.units x hx' y hy' i h1 h2
    · intro r hr
      rcases List.mem_cons.mp hr with rfl | hr
      · exact b2
      · have hcl := c2.clear r hr
        exact ⟨fun u m hu hne h => hcl.1 u m hu hne (n4 _ _ _ h), fun n h => hcl.2 n (n4 _ _ _ h)⟩
    · intro r hr
      rcases List.mem_cons.mp hr with rfl | hr
      · exact b3
      · exact hval r hr

end Tricorder
