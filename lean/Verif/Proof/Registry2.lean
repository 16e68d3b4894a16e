import Verif.Proof.Registry
import Verif.Spec.Registry
/-!
# `RegisterMetric` and `UnregisterPath`, run alone
-/

namespace Tricorder
open Go Spec Tree

variable {w : World} {s : State}

theorem supported_iff (ty : GoTy) : Supported ty = true ↔ ∃ x, getPrimitiveType ty = some x := by
  cases ty with
  | timePtr => simp [Supported, getPrimitiveType]
  | other => simp [Supported, getPrimitiveType]
  | scalar t =>
    obtain ⟨n, b⟩ := t
    cases n with
    | none => cases b with
      | int k => cases k <;> simp [Supported, getPrimitiveType, kindType]
      | _ => simp [Supported, getPrimitiveType, kindType]
    | some n => cases b with
      | int k => cases k <;> simp [Supported, getPrimitiveType, kindType]
      | _ => simp [Supported, getPrimitiveType, kindType]

theorem supported_none {ty : GoTy} (h : getPrimitiveType ty = none) : Supported ty = false := by
  cases hs : Supported ty with
  | false => rfl
  | true =>
    obtain ⟨x, hx⟩ := (supported_iff ty).mp hs
    rw [h] at hx; cases hx

theorem supported_some {ty : GoTy} {x} (h : getPrimitiveType ty = some x) : Supported ty = true :=
  (supported_iff ty).mpr ⟨x, h⟩

/-- what `newValue` does and says -/
theorem newValue_run (spec : RegSpec) (group : Option ℕ) (unit : MUnit) :
    let r := (newValue w.fnTy spec group unit).run w s
    OnlyUnit s r.1 spec unit ∧
    match r.2 with
    | .panic => valueSays w s unit spec = .panic
    | .ok (.error e) => valueSays w s unit spec = .ok (some e)
    | .ok (.ok v) => valueSays w s unit spec = .ok none ∧ StandsFor v spec group unit := by
  cases spec with
  | dist i =>
    cases i with
    | none => exact ⟨Or.inl rfl, rfl⟩
    | some i =>
      simp only [newValue, newValueForDist, Prog.run, exec]
      cases hd : s.dists[i]? with
      | none => exact ⟨Or.inl rfl, by simp [Prog.run, valueSays, hd]⟩
      | some d =>
        simp only
        cases hu : d.unitSet with
        | false =>
          have : d.setUnit unit = ({ d with unitSet := true, unit := unit }, true) := by
            simp [Dist.setUnit, hu]
          simp only [this, Prog.run]
          exact ⟨Or.inr ⟨i, d, rfl, hd, hu, rfl⟩, by simp [valueSays, hd, hu], rfl, rfl, rfl, rfl⟩
        | true =>
          have : d.setUnit unit = (d, decide (unit = d.unit)) := by
            simp [Dist.setUnit, hu]
          simp only [this]
          have hs : s.dists.set i d = s.dists := by
            obtain ⟨hi, hh⟩ := List.getElem?_eq_some_iff.mp hd
            rw [← hh]; exact List.set_getElem_self hi
          rw [hs]
          by_cases he : unit = d.unit
          · simp only [he, decide_true, Prog.run]
            exact ⟨Or.inl rfl, by simp [valueSays, hd], rfl, rfl, rfl, rfl⟩
          · simp only [he, decide_false, Prog.run]
            exact ⟨Or.inl rfl, by simp [valueSays, hd, hu, Ne.symm he]⟩
  | list i => exact ⟨Or.inl rfl, rfl, rfl, rfl, rfl, rfl⟩
  | flag g getter =>
    cases getter with
    | true =>
      simp only [newValue, Prog.run, exec]
      cases hf : w.flagGet s g with
      | none => exact ⟨Or.inl rfl, by simp [Prog.run, valueSays, hf]⟩
      | some d =>
        refine ⟨Or.inl rfl, ?_⟩
        simp only [Prog.run, flagValue]
        cases d with
        | invalid => simp [Dyn.ty, valueSays, hf]
        | scalar n v =>
          simp only [Dyn.ty]
          cases getPrimitiveType (.scalar ⟨n, v.ty⟩) with
          | none => exact ⟨by simp [valueSays, hf], rfl, rfl, rfl, rfl, Or.inl rfl⟩
          | some x => exact ⟨by simp [valueSays, hf], rfl, rfl, rfl, rfl, Or.inr ⟨rfl, rfl⟩⟩
        | timePtr t => exact ⟨by simp [valueSays, hf], rfl, rfl, rfl, rfl, Or.inr ⟨rfl, rfl⟩⟩
        | other i => exact ⟨by simp [valueSays, hf], rfl, rfl, rfl, rfl, Or.inl rfl⟩
    | false =>
      simp only [newValue, Prog.run, exec]
      cases hf : w.flagString s g with
      | none => exact ⟨Or.inl rfl, by simp [Prog.run, valueSays, hf]⟩
      | some str =>
        exact ⟨Or.inl rfl, by simp [valueSays, hf], rfl, rfl, rfl, rfl, Or.inl rfl⟩
  | func n f =>
    simp only [newValue]
    by_cases hn : n = 1
    · subst hn
      rw [if_neg (by simp)]
      cases ht : getPrimitiveType (w.fnTy f) with
      | none => exact ⟨Or.inl rfl, by simp [Prog.run, valueSays, supported_none ht]⟩
      | some x => exact ⟨Or.inl rfl, by simp [valueSays, supported_some ht], rfl, rfl, rfl, rfl, rfl⟩
    · rw [if_pos hn]
      exact ⟨Or.inl rfl, by simp [Prog.run, valueSays, hn]⟩
  | ptr v =>
    simp only [newValue, Prog.run, exec]
    cases hv : s.vars[v]? with
    | none => exact ⟨Or.inl rfl, by simp [Prog.run, valueSays, hv]⟩
    | some d =>
      simp only
      cases ht : d.ty with
      | none => exact ⟨Or.inl rfl, by simp [Prog.run, valueSays, hv, ht]⟩
      | some ty =>
        simp only
        cases hp : getPrimitiveType ty with
        | none => exact ⟨Or.inl rfl, by simp [Prog.run, valueSays, hv, ht, supported_none hp]⟩
        | some x =>
          exact ⟨Or.inl rfl, by simp [valueSays, hv, ht, supported_some hp], rfl, rfl, rfl, rfl, rfl⟩
  | invalid => exact ⟨Or.inl rfl, rfl⟩

theorem OnlyUnit.tree {s s' : State} {spec unit} (h : OnlyUnit s s' spec unit) :
    s'.tree = s.tree := by
  rcases h with rfl | ⟨i, d, _, _, _, rfl⟩ <;> rfl

theorem registerMetric_empty (fnTy d spec group unit desc) :
    (registerMetric fnTy d [] spec group unit desc).run w s = (s, .ok (.error .pathInUse)) := rfl

/-- the run of `registerMetric` in parts -/
theorem registerMetric_parts (fnTy : ℕ → GoTy) (d : ℕ) {p : List Str} (hp : p ≠ []) (spec group unit desc) :
    (registerMetric fnTy d p spec group unit desc).run w s =
      let r1 := (registerDirectory d p.dropLast).run w s
      match r1.2 with
      | .error e => (r1.1, .ok (.error e))
      | .ok current =>
        let r2 := (newValue fnTy spec group unit).run w r1.1
        match r2.2 with
        | .panic => (r2.1, .panic)
        | .ok (.error e) => (r2.1, .ok (.error e))
        | .ok (.ok v) =>
          ({ r2.1 with tree := (r2.1.tree.storeMetric current (p.getLast hp) desc v).1 },
            match (r2.1.tree.storeMetric current (p.getLast hp) desc v).2 with
            | .error e => .ok (.error e)
            | .ok _ => .ok (.ok ())) := by
  obtain ⟨h1, h2⟩ := pathDir_base hp
  unfold registerMetric
  rw [if_neg (by simpa [pathEmpty] using hp)]
  simp only [h1, h2]
  rw [run_bind]
  cases hr : ((registerDirectory d p.dropLast).run w s).2 with
  | error e => rfl
  | ok current =>
    simp only
    rw [run_bind]
    cases hv : ((newValue fnTy spec group unit).run w ((registerDirectory d p.dropLast).run w s).1).2 with
    | panic => rfl
    | ok x =>
      cases x with
      | error e => rfl
      | ok v =>
        simp only [Prog.run, exec]
        cases hs : (((newValue fnTy spec group unit).run w
          ((registerDirectory d p.dropLast).run w s).1).1.tree.storeMetric current (p.getLast hp) desc v).2 <;> rfl

theorem registerDirectory_exists (ht : IsTree s.tree) {d : ℕ} {p : List Str} {d2}
    (h : Reaches s.tree d p (.dir d2)) : (registerDirectory d p).run w s = (s, .ok d2) := by
  induction p generalizing d with
  | nil => cases h; rfl
  | cons name p ih =>
    cases h with
    | dir hc he hd hr =>
      simp only [registerDirectory, Prog.run, exec]
      rw [createDir_old ((getEntry_iff ht).mpr hc) he hd]
      exact ih hr

theorem dropLast_good {p : List Str} (h : ∀ x ∈ p, GoodName x) : ∀ x ∈ p.dropLast, GoodName x :=
  fun x hx => h x (List.dropLast_subset _ hx)

/-- `u` is a proper prefix of `p` iff it is a prefix of the directory part -/
theorem prefix_dropLast {p u : List Str} (hp : p ≠ []) : u <+: p.dropLast ↔ u <+: p ∧ u ≠ p := by
  constructor
  · rintro ⟨r, hr⟩
    refine ⟨⟨r ++ [p.getLast hp], ?_⟩, ?_⟩
    · rw [← List.append_assoc, hr, List.dropLast_append_getLast]
    · rintro rfl
      have := congrArg List.length hr
      simp at this
      have : 0 < u.length := List.length_pos_of_ne_nil hp
      omega
  · rintro ⟨⟨r, hr⟩, hne⟩
    have hr0 : r ≠ [] := by
      rintro rfl; rw [List.append_nil] at hr; exact hne hr
    refine ⟨r.dropLast, ?_⟩
    rw [← hr, List.dropLast_append_of_ne_nil hr0]

/-- the whole of `RegisterMetric`, run alone -/
theorem registerMetric_run (ht : IsTree s.tree) {d : ℕ} (hd : d < s.tree.dirs.length)
    {p : List Str} (hg : ∀ x ∈ p, GoodName x) (hp : p ≠ []) (spec : RegSpec) (group : Option ℕ)
    (unit : MUnit) (desc : Str) :
    let s1 := ((registerDirectory d p.dropLast).run w s).1
    let r := (registerMetric w.fnTy d p spec group unit desc).run w s
    IsTree r.1.tree ∧ Ext s.tree r.1.tree ∧
    (∀ d0 q n, Reaches s.tree d0 q n → Reaches r.1.tree d0 q n) ∧
    (-- a proper prefix is a metric
     ((∃ u m, u <+: p ∧ u ≠ p ∧ Reaches s.tree d u (.metric m)) ∧
        r = (s, .ok (.error .pathInUse))) ∨
     (-- the value is at fault
      (∀ u m, u <+: p → u ≠ p → ¬ Reaches s.tree d u (.metric m)) ∧
      ((valueSays w s1 unit spec = .panic ∧ r = (s1, .panic)) ∨
       (∃ e, valueSays w s1 unit spec = .ok (some e) ∧ r = (s1, .ok (.error e))) ∨
       (valueSays w s1 unit spec = .ok none ∧
        ((-- taken
          (∃ n, Reaches s.tree d p n) ∧ r.2 = .ok (.error .pathInUse) ∧ OnlyUnit s r.1 spec unit) ∨
         (-- success
          (∀ n, ¬ Reaches s.tree d p n) ∧ r.2 = .ok (.ok ()) ∧
          OnlyUnit { s with tree := r.1.tree } r.1 spec unit ∧
          ∃ m mo, Reaches r.1.tree d p (.metric m) ∧ r.1.tree.metrics[m]? = some mo ∧
            mo.description = desc ∧ StandsFor mo.value spec group unit ∧
            ((newValue w.fnTy spec group unit).run w s1).2 = .ok (.ok mo.value)))))) ∧
      (-- what is new
       ∀ d0 q n, d0 < s.tree.dirs.length → Reaches r.1.tree d0 q n → Reaches s.tree d0 q n ∨
        ∃ u, u ≠ [] ∧ u <+: p ∧ Reaches r.1.tree d u n ∧ (∀ n', ¬ Reaches s.tree d u n') ∧
          (u ≠ p → ∃ d', n = .dir d') ∧ (u = p → r.2 = .ok (.ok ())))) := by
  intro s1 r
  have hr0 := registerMetric_parts (w := w) (s := s) w.fnTy d hp spec group unit desc
  obtain ⟨i1, i2, i3, i4, i5, i6⟩ := registerDirectory_run (w := w) ht hd (dropLast_good hg)
  change s1 = _ at i1
  change IsTree s1.tree at i2
  change Ext s.tree s1.tree at i3
  change ∀ d0 q n, _ → Reaches s1.tree d0 q n at i4
  rcases i6 with ⟨u, m, hu1, hu2, hu3, hu4⟩ | ⟨d', h1, h2, h3⟩
  · have hs1 : s1 = s := by rw [i1]; change { s with tree := s1.tree } = s; rw [show s1.tree = s.tree from hu4]
    have hr : r = (s, .ok (.error .pathInUse)) := by
      show (registerMetric w.fnTy d p spec group unit desc).run w s = _
      rw [hr0]
      simp only [hu3]
      rw [show ((registerDirectory d p.dropLast).run w s).1 = s1 from rfl, hs1]
    have hsub : u <+: p ∧ u ≠ p := (prefix_dropLast hp).mp hu1
    rw [hr]
    refine ⟨ht, Ext.refl _, fun _ _ _ h => h, ?_⟩
    exact Or.inl ⟨⟨u, m, hsub.1, hsub.2, hu2⟩, rfl⟩
  · change Reaches s1.tree d p.dropLast (.dir d') at h2
    change ∀ d0 q n, _ → Reaches s1.tree d0 q n → _ at h3
    have hdl : d < s1.tree.dirs.length := lt_of_lt_of_le hd i3.dirs
    have hd' : d' < s1.tree.dirs.length := reaches_lt i2 h2 hdl
    have hnom : ∀ u m, u <+: p → u ≠ p → ¬ Reaches s.tree d u (.metric m) := by
      intro u m hu1 hu2 hr
      obtain ⟨z, hz⟩ := (prefix_dropLast hp).mpr ⟨hu1, hu2⟩
      rw [← hz] at h2
      have := reaches_metric_prefix i2 h2 (i4 _ _ _ hr)
      subst this
      rw [List.append_nil] at h2
      cases reaches_unique i2 h2 (i4 _ _ _ hr)
    obtain ⟨hn1, hn2⟩ := newValue_run (w := w) (s := s1) spec group unit
    have htr : ((newValue w.fnTy spec group unit).run w s1).1.tree = s1.tree := OnlyUnit.tree hn1
    have hs1u : s1 = { s with tree := s1.tree } := i1
    -- new paths after the directory part
    have hnew1 : ∀ d0 q n, d0 < s.tree.dirs.length → Reaches s1.tree d0 q n → Reaches s.tree d0 q n ∨
        ∃ u, u ≠ [] ∧ u <+: p ∧ Reaches s1.tree d u n ∧ (∀ n', ¬ Reaches s.tree d u n') ∧
          (u ≠ p ∧ ∃ d', n = .dir d') := by
      intro d0 q n h0 hr
      rcases h3 d0 q n h0 hr with h | ⟨u, hu0, hu1, hu2, hu3⟩
      · exact Or.inl h
      · obtain ⟨hu4, hu5⟩ := (prefix_dropLast hp).mp hu1
        refine Or.inr ⟨u, hu0, hu4, hu2, hu3, hu5, ?_⟩
        obtain ⟨z, hz⟩ := hu1
        cases n with
        | dir x => exact ⟨x, rfl⟩
        | metric m =>
          rw [← hz] at h2
          have := reaches_metric_prefix i2 h2 hu2
          subst this
          rw [List.append_nil] at h2
          cases reaches_unique i2 h2 hu2
    have hnewW : ∀ (x : Out (Except RegErr Unit)), ∀ d0 q n, d0 < s.tree.dirs.length → Reaches s1.tree d0 q n → Reaches s.tree d0 q n ∨
        ∃ u, u ≠ [] ∧ u <+: p ∧ Reaches s1.tree d u n ∧ (∀ n', ¬ Reaches s.tree d u n') ∧
          (u ≠ p → ∃ d', n = .dir d') ∧ (u = p → x = .ok (.ok ())) := by
      intro x d0 q n h0 hr
      rcases hnew1 d0 q n h0 hr with h | ⟨u, a, b, c, e, f, g⟩
      · exact Or.inl h
      · exact Or.inr ⟨u, a, b, c, e, fun _ => g, fun hh => absurd hh f⟩
    have hvs : ∀ {x}, valueSays w s1 unit spec ≠ .ok none → OnlyUnit s1 x spec unit → x = s1 := by
      intro x hv ho
      rcases ho with rfl | ⟨i, dd, rfl, hdd, hds, rfl⟩
      · rfl
      · exfalso; apply hv; simp [valueSays, hdd, hds]
    cases hv : ((newValue w.fnTy spec group unit).run w s1).2 with
    | panic =>
      rw [hv] at hn2
      have hx := hvs (by rw [hn2]; simp) hn1
      have hr : r = (s1, .panic) := by
        show (registerMetric w.fnTy d p spec group unit desc).run w s = _
        rw [hr0]
        simp only [h1]
        rw [show ((registerDirectory d p.dropLast).run w s).1 = s1 from rfl, hv, hx]
      rw [hr]
      exact ⟨i2, i3, i4, Or.inr ⟨⟨hnom, Or.inl ⟨hn2, rfl⟩⟩, hnewW _⟩⟩
    | ok x =>
      cases x with
      | error e =>
        rw [hv] at hn2
        have hx := hvs (by rw [hn2]; simp) hn1
        have hr : r = (s1, .ok (.error e)) := by
          show (registerMetric w.fnTy d p spec group unit desc).run w s = _
          rw [hr0]
          simp only [h1]
          rw [show ((registerDirectory d p.dropLast).run w s).1 = s1 from rfl, hv, hx]
        rw [hr]
        exact ⟨i2, i3, i4, Or.inr ⟨⟨hnom, Or.inr (Or.inl ⟨e, hn2, rfl⟩)⟩, hnewW _⟩⟩
      | ok v =>
        rw [hv] at hn2
        obtain ⟨hn3, hn4⟩ := hn2
        generalize hs2 : ((newValue w.fnTy spec group unit).run w s1).1 = s2 at *
        have hr : r = ({ s2 with tree := (s1.tree.storeMetric d' (p.getLast hp) desc v).1 },
            match (s1.tree.storeMetric d' (p.getLast hp) desc v).2 with
            | .error e => .ok (.error e)
            | .ok _ => .ok (.ok ())) := by
          show (registerMetric w.fnTy d p spec group unit desc).run w s = _
          rw [hr0]
          simp only [h1]
          rw [show ((registerDirectory d p.dropLast).run w s).1 = s1 from rfl, hv, hs2, htr]
        cases hge : s1.tree.getEntry d' (p.getLast hp) with
        | some e =>
          rw [storeMetric_old hge] at hr
          have hc := getEntry_some hge
          obtain ⟨en, hen, _⟩ := i2.child _ _ _ hc
          obtain ⟨n, hn⟩ : ∃ n, Holds en n := by
            cases hdd : en.dir with
            | some x => exact ⟨.dir x, hdd⟩
            | none =>
              obtain ⟨m, hm⟩ := entry_no_dir i2 hen hdd
              exact ⟨.metric m, hm⟩
          have hpn : Reaches s1.tree d p n := by
            rw [← List.dropLast_append_getLast hp]
            exact reaches_trans h2 ((reaches_one_iff i2).mpr ⟨e, en, hc, hen, hn⟩)
          -- it was there before
          have hold : Reaches s.tree d p n := by
            rcases hnew1 d p n hd hpn with h | ⟨u, hu0, hu1, hu2, hu3, hu4, hu5⟩
            · exact h
            · exfalso
              obtain ⟨x, rfl⟩ := hu5
              exact hu4 (reaches_path_unique i2 hu2 hpn hdl)
          have hs1s : s1 = s := by
            have := hold
            rw [← List.dropLast_append_getLast hp] at this
            obtain ⟨d2, a, _⟩ := reaches_snoc_iff.mp this
            show ((registerDirectory d p.dropLast).run w s).1 = s
            rw [registerDirectory_exists ht a]
          have hrs : r = (s2, .ok (.error .pathInUse)) := by
            rw [hr]
            simp only
            rw [← htr]
          have hs2t : s2.tree = s.tree := by rw [htr, hs1s]
          rw [hrs]
          simp only
          rw [hs2t]
          refine ⟨ht, Ext.refl _, fun _ _ _ h => h, Or.inr ⟨⟨hnom, Or.inr (Or.inr ⟨hn3, Or.inl
            ⟨⟨n, hold⟩, trivial, hs1s ▸ hn1⟩⟩)⟩, fun _ _ _ _ h => Or.inl h⟩⟩
        | none =>
          have hnew : NewEntry s1.tree ⟨p.getLast hp, some s1.tree.metrics.length, none, s1.tree.enclosing d'⟩
              [] [⟨desc, v, s1.tree.entries.length⟩] := Or.inr ⟨rfl, rfl, rfl, _, rfl, rfl⟩
          have hgl : GoodName (p.getLast hp) := hg _ (List.getLast_mem hp)
          have ht2 := isTree_storeMetric (desc := desc) (v := v) i2 hd' hgl
          rw [storeMetric_new hge] at hr ht2
          simp only at hr ht2
          generalize htt : s1.tree.link d' ⟨p.getLast hp, some s1.tree.metrics.length, none, s1.tree.enclosing d'⟩
              [] [⟨desc, v, s1.tree.entries.length⟩] = t2 at hr ht2
          have hmono : ∀ d0 q n, Reaches s1.tree d0 q n → Reaches t2 d0 q n := by
            intro d0 q n h
            rw [← htt]; exact link_mono i2 hd' _ _ _ h
          have hiff : ∀ {d0 q n}, d0 < s1.tree.dirs.length → (Reaches t2 d0 q n ↔ Reaches s1.tree d0 q n ∨
              ∃ a, Reaches s1.tree d0 a (.dir d') ∧ q = a ++ [p.getLast hp] ∧
                n = .metric s1.tree.metrics.length) := by
            intro d0 q n h0
            rw [← htt, reaches_link i2 hd' hnew h0]
            have : ∀ n, Holds ⟨p.getLast hp, some s1.tree.metrics.length, none, s1.tree.enclosing d'⟩ n ↔
                n = .metric s1.tree.metrics.length := by
              intro n
              cases n <;> simp [Holds, eq_comm]
            simp only [this]
          have hpm : Reaches t2 d p (.metric s1.tree.metrics.length) := by
            refine (hiff hdl).mpr (Or.inr ⟨_, h2, ?_, rfl⟩)
            rw [List.dropLast_append_getLast]
          have hno1 : ∀ n, ¬ Reaches s1.tree d p n := by
            intro n hn
            rw [← List.dropLast_append_getLast hp] at hn
            have := reaches_suffix i2 hn h2
            obtain ⟨e, en, hc, _⟩ := (reaches_one_iff i2).mp this
            exact getEntry_none_iff.mp hge e hc
          have hext : Ext s1.tree t2 := by rw [← htt]; exact ext_link _ _ _ _ _
          rw [hr]
          simp only
          refine ⟨ht2, i3.trans hext, fun d0 q n h => hmono _ _ _ (i4 _ _ _ h), Or.inr ⟨⟨hnom,
            Or.inr (Or.inr ⟨hn3, Or.inr ⟨fun n hn => hno1 n (i4 _ _ _ hn), trivial, ?_, ?_⟩⟩)⟩, ?_⟩⟩
          · rcases hn1 with h | ⟨i, dd, e1, e2, e3, e4⟩
            · rw [h]
              refine Or.inl ?_
              conv_lhs => rw [hs1u]
            · refine Or.inr ⟨i, dd, e1, ?_, e3, ?_⟩
              · rw [hs1u] at e2; exact e2
              · rw [e4]
                conv_lhs => rw [hs1u]
          · refine ⟨_, ⟨desc, v, s1.tree.entries.length⟩, hpm, ?_, rfl, hn4, rfl⟩
            rw [← htt, link_metrics]; simp
          · intro d0 q n h0 hr'
            rcases (hiff (lt_of_lt_of_le h0 i3.dirs)).mp hr' with h | ⟨a, ha1, ha2, ha3⟩
            · rcases hnew1 d0 q n h0 h with h | ⟨u, hu0, hu1, hu2, hu3, hu4, hu5⟩
              · exact Or.inl h
              · exact Or.inr ⟨u, hu0, hu1, hmono _ _ _ hu2, hu3, fun _ => hu5, fun hh => absurd hh hu4⟩
            · refine Or.inr ⟨p, hp, List.prefix_refl _, ha3 ▸ hpm, fun n' hn' => hno1 n' (i4 _ _ _ hn'),
                fun hh => absurd rfl hh, fun _ => trivial⟩

/-- `UnregisterPath`, run alone -/
theorem unregisterPath_run (ht : IsTree s.tree) (d : ℕ) (p : List Str) :
    ∃ t', ((unregisterPath d p).run w s).1 = { s with tree := t' } ∧ IsTree t' ∧ Ext s.tree t' ∧
      ((∃ d' hp, Reaches s.tree d p.dropLast (.dir d') ∧
          t' = s.tree.setContents d' (erase (s.tree.contents d') (p.getLast hp))) ∨
        (t' = s.tree ∧ (p = [] ∨ ∀ d', ¬ Reaches s.tree d p.dropLast (.dir d')))) := by
  by_cases hp : p = []
  · subst hp
    exact ⟨s.tree, rfl, ht, Ext.refl _, Or.inr ⟨rfl, Or.inl rfl⟩⟩
  · obtain ⟨h1, h2⟩ := pathDir_base hp
    unfold unregisterPath
    simp only [h1, h2]
    rw [run_bind, getDirectory_run ht]
    simp only
    cases hr : s.tree.resolve d p.dropLast with
    | none =>
      refine ⟨s.tree, rfl, ht, Ext.refl _, Or.inr ⟨rfl, Or.inr ?_⟩⟩
      intro d' h
      exact (resolve_none ht).mp hr _ h
    | some x =>
      have hr' := (resolve_iff ht).mp hr
      cases x with
      | metric m =>
        refine ⟨s.tree, rfl, ht, Ext.refl _, Or.inr ⟨rfl, Or.inr ?_⟩⟩
        intro d' h
        cases reaches_unique ht hr' h
      | dir d' =>
        exact ⟨_, rfl, isTree_removeEntry ht _ _, ext_setContents _ _ _, Or.inl ⟨d', hp, hr', rfl⟩⟩

end Tricorder
