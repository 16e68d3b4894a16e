import Verif.Proof.ReadRun
/-!
# Listings, with interference
-/

namespace Tricorder
open Go Spec Tree

variable {A α : Type} {w : World}

/-- `Tells` without the origin of a scalar's time -/
inductive PreTells (w : World) (S : State → Prop) (mv : MetricView) (x : Metric) : Prop where
  | dist {i d sn σ} : mv.value.valType = .dist → mv.value.dist = some i → S σ → σ.dists[i]? = some d →
      d.snapshot = some sn → x.value = .dist (some (shownDist sn)) → x.timeStamp = .time sn.timeStamp →
      x.groupId = d.groupId → PreTells w S mv x
  | list {i lv σ} : mv.value.valType = .list → mv.value.alist = some i → S σ → listView σ i = some lv →
      x.value = lv.val → x.timeStamp = .time lv.timeStamp → x.groupId = lv.groupId → x.subType = lv.subType →
      PreTells w S mv x
  | scalar {sc d r σ σ'} : mv.value.valType ≠ .dist → mv.value.valType ≠ .list → mv.value.src = some sc → S σ →
      current w σ sc = some d → valueToInterface d mv.value.valType mv.value.isPtr = some x.value →
      mv.value.region = some r → S σ' → σ'.regions[r]? = some x.groupId → PreTells w S mv x

theorem PreTells.mono {S S' : State → Prop} (h : ∀ σ, S σ → S' σ) {mv x}
    (ht : PreTells w S mv x) : PreTells w S' mv x := by
  cases ht with
  | dist a b c d e f g i => exact .dist a b (h _ c) d e f g i
  | list a b c d e f g i => exact .list a b (h _ c) d e f g i
  | scalar a b c d e f g i j => exact .scalar a b c (h _ d) e f g (h _ i) j

/-- the time stamp of a scalar is that of its group in the session -/
def Timed (s : Session) (mv : MetricView) (x : Metric) : Prop :=
  mv.value.valType ≠ .dist → mv.value.valType ≠ .list →
    ∃ r t, mv.value.region = some r ∧ s.lookup r = some t ∧ x.timeStamp = .time t

theorem Timed.ext {s s' : Session} (h : SessExt s s') {mv x} (ht : Timed s mv x) : Timed s' mv x := by
  intro h1 h2
  obtain ⟨r, t, a, b, c⟩ := ht h1 h2
  exact ⟨r, t, a, h r t b, c⟩

theorem initMetricIn_run {json : Bool} {mv : MetricView} {s s' : Session} {σ σ' h o}
    (hr : RunI w (initMetricIn json mv s) σ h σ' (s', o)) :
    SessExt s s' ∧ ∀ x, o = .ok x → ∃ y, encodeMetric json y = .ok x ∧ Describes y mv ∧
      PreTells w (fun τ => ∃ e ∈ h, e.pre = τ) mv y ∧ Timed s' mv y := by
  unfold initMetricIn at hr
  split at hr
  · rename_i hv
    obtain ⟨h1, s1, y, h2, rfl, r1, r2⟩ := RunI_bind hr
    cases (RunI_ret r2).1
    refine ⟨SessExt.refl _, ?_⟩
    intro x hx
    cases y with
    | panic => cases hx
    | ok y =>
      obtain ⟨a1, i, d, sn, a2, a3, a4, a5, a6, e, he, -, a7⟩ := distMetric_run r1
      exact ⟨y, hx, a1, .dist hv a2 ⟨e, by simp [he], rfl⟩ a7 a6 a3 a4 a5, fun h => absurd hv h⟩
  · rename_i hv
    split at hr
    · rename_i hv2
      obtain ⟨h1, s1, y, h2, rfl, r1, r2⟩ := RunI_bind hr
      cases (RunI_ret r2).1
      refine ⟨SessExt.refl _, ?_⟩
      intro x hx
      cases y with
      | panic => cases hx
      | ok y =>
        obtain ⟨a1, i, lv, a2, a3, a4, a5, a6, e, he, -, a7⟩ := listMetric_run hv2 r1
        exact ⟨y, hx, a1, .list hv2 a2 ⟨e, by simp [he], rfl⟩ a7 a3 a5 a6 a4, fun _ h => absurd hv2 h⟩
    · rename_i hv2
      obtain ⟨h1, s1, y, h2, rfl, r1, r2⟩ := RunI_bind hr
      obtain ⟨s'', o'⟩ := y
      cases (RunI_ret r2).1
      obtain ⟨a1, a2⟩ := scalarMetric_run r1
      refine ⟨a1, ?_⟩
      intro x hx
      cases o' with
      | panic => cases hx
      | ok y =>
        obtain ⟨b1, ⟨sc, d, b2, ⟨e, he, -, b3⟩, b4⟩, r, t, b5, b6, b7, e', he', -, b8⟩ := a2 y rfl
        exact ⟨y, hx, b1, .scalar hv hv2 b2 ⟨e, by simp [he], rfl⟩ b3 b4 b5 ⟨e', by simp [he'], rfl⟩ b8,
          fun _ _ => ⟨r, t, b5, b6, b7⟩⟩

theorem PreTells.tells {S : State → Prop} {mv x} (ht : PreTells w S mv x) {s : Session} (h : Timed s mv x)
    (hs : ∀ r t, s.lookup r = some t → ∃ σ, S σ ∧ t = w.lockTime σ r) : Tells w S mv x := by
  cases ht with
  | dist a b c d e f g i => exact .dist a b c d e f g i
  | list a b c d e f g i => exact .list a b c d e f g i
  | scalar a b c d e f g i j =>
    obtain ⟨r, t, h1, h2, h3⟩ := h a b
    rw [g] at h1
    cases h1
    obtain ⟨σ, h4, rfl⟩ := hs _ _ h2
    exact .scalar a b c d e f g i j h4 h3

/-- `x` is reported for metric `m` -/
def Reported (w : World) (json : Bool) (S : State → Prop) (s : Session) (m : ℕ) (x : Metric) : Prop :=
  ∃ mv y, (∃ σ, S σ ∧ metricView σ.tree m = some mv) ∧ encodeMetric json y = .ok x ∧ Describes y mv ∧
    PreTells w S mv y ∧ Timed s mv y ∧
    (mv.value.valType.isFloat = true → ∃ sc d σ, mv.value.src = some sc ∧ S σ ∧ current w σ sc = some d ∧ ¬ InfNaN d)

/-- metric `m` is left out because it is infinite or NaN -/
def LeftOut (w : World) (S : State → Prop) (m : ℕ) : Prop :=
  ∃ mv sc d σ σ', S σ ∧ metricView σ.tree m = some mv ∧ mv.value.valType.isFloat = true ∧
    mv.value.src = some sc ∧ S σ' ∧ current w σ' sc = some d ∧ InfNaN d

theorem Reported.mono {json} {S S' : State → Prop} (h : ∀ σ, S σ → S' σ) {s s' : Session} (hs : SessExt s s')
    {m x} (hr : Reported w json S s m x) : Reported w json S' s' m x := by
  obtain ⟨mv, y, ⟨σ, a, b⟩, c, d, e, f, g⟩ := hr
  refine ⟨mv, y, ⟨σ, h _ a, b⟩, c, d, e.mono h, f.ext hs, ?_⟩
  intro hf
  obtain ⟨sc, d, σ, a, b, c⟩ := g hf
  exact ⟨sc, d, σ, a, h _ b, c⟩

theorem LeftOut.mono {S S' : State → Prop} (h : ∀ σ, S σ → S' σ) {m} (hr : LeftOut w S m) : LeftOut w S' m := by
  obtain ⟨mv, sc, d, σ, σ', a, b, c, e, f, g⟩ := hr
  exact ⟨mv, sc, d, σ, σ', h _ a, b, c, e, h _ f, g⟩

/-- one metric of a listing -/
theorem collect_msg_run {json : Bool} {S : State → Prop} {T : Tree MValue} (hT : IsTree T)
    (hS : ∀ τ, S τ → IsTree τ.tree ∧ Ext τ.tree T) {m : ℕ} {s s' : Session} {a a' : List Metric} {σ σ' h st}
    (hr : RunI w (collect (msgColl json) m s a) σ h σ' (s', a', st)) (hh : ∀ e ∈ h, S e.pre) :
    SessExt s s' ∧
    ((a' = a ∧ st = .panic) ∨ (a' = a ∧ st = .ok ∧ LeftOut w S m) ∨
      ∃ x, a' = a ++ [x] ∧ st = .ok ∧ Reported w json S s' m x) := by
  obtain ⟨h1, s1, h2, rfl, r1, r2⟩ := RunI_op hr
  have hs1 : S s1 := hh ⟨true, .metric m, s1⟩ (by simp)
  cases hm : (exec w (.metric m) s1).2 with
  | none =>
    rw [hm] at r2
    cases (RunI_ret r2).1
    exact ⟨SessExt.refl _, Or.inl ⟨rfl, rfl⟩⟩
  | some mv =>
    rw [hm] at r2
    change metricView s1.tree m = some mv at hm
    obtain ⟨h3, s3, x, h4, rfl, r3, r4⟩ := RunI_bind r2
    obtain ⟨so, ox⟩ := x
    obtain ⟨s'', rfl, a1, a2⟩ := isInfNaN_run r3
    cases ox with
    | panic =>
      cases (RunI_ret r4).1
      exact ⟨a1, Or.inl ⟨rfl, rfl⟩⟩
    | ok b =>
      cases b with
      | true =>
        cases (RunI_ret r4).1
        refine ⟨a1, Or.inr (Or.inl ⟨rfl, rfl, ?_⟩)⟩
        rcases a2 true rfl with ⟨_, h⟩ | ⟨hf, sc, d, h5, ⟨e, he, -, h6⟩, h7⟩
        · cases h
        · exact ⟨mv, sc, d, s1, e.pre, hs1, hm, hf, h5, hh e (by simp [he]), h6, h7.mp rfl⟩
      | false =>
        change RunI w (msgColl json m s'' a) s3 h4 σ' (s', a', st) at r4
        obtain ⟨h5, s5, h6, rfl, r5, r6⟩ := RunI_op r4
        have hs5 : S s5 := hh ⟨true, .metric m, s5⟩ (by simp)
        cases hm2 : (exec w (.metric m) s5).2 with
        | none =>
          rw [hm2] at r6
          cases (RunI_ret r6).1
          exact ⟨a1, Or.inl ⟨rfl, rfl⟩⟩
        | some mv2 =>
          rw [hm2] at r6
          change metricView s5.tree m = some mv2 at hm2
          have : mv2 = mv := by
            have x1 := metricView_ext (hS s1 hs1).1 hT (hS s1 hs1).2 hm
            have x2 := metricView_ext (hS s5 hs5).1 hT (hS s5 hs5).2 hm2
            rw [x1] at x2
            exact (Option.some.inj x2).symm
          subst this
          obtain ⟨h7, s7, y, h8, rfl, r7, r8⟩ := RunI_bind r6
          obtain ⟨s9, o9⟩ := y
          obtain ⟨b1, b2⟩ := initMetricIn_run r7
          cases o9 with
          | panic =>
            cases (RunI_ret r8).1
            exact ⟨a1.trans b1, Or.inl ⟨rfl, rfl⟩⟩
          | ok x =>
            cases (RunI_ret r8).1
            refine ⟨a1.trans b1, Or.inr (Or.inr ⟨x, rfl, rfl, ?_⟩)⟩
            obtain ⟨y, c1, c2, c3, c4⟩ := b2 x rfl
            refine ⟨mv2, y, ⟨s1, hs1, hm⟩, c1, c2, ?_, c4, ?_⟩
            · refine c3.mono ?_
              rintro τ ⟨e, he, rfl⟩
              exact hh e (by simp [he])
            · intro hf
              rcases a2 false rfl with ⟨hf', _⟩ | ⟨_, sc, d, h5, ⟨e, he, -, h6⟩, h7⟩
              · rw [hf] at hf'; cases hf'
              · exact ⟨sc, d, e.pre, h5, hh e (by simp [he]), h6, fun hi => by simpa using h7.mpr hi⟩

/-- the metrics of a listing, one by one -/
theorem calls_msg {json : Bool} {S : State → Prop} {T : Tree MValue} (hT : IsTree T)
    (hS : ∀ τ, S τ → IsTree τ.tree ∧ Ext τ.tree T) {H : List Ev} (hh : ∀ e ∈ H, S e.pre)
    {V : List ℕ} {s s' : Session} {a a' : List Metric} {st}
    (hc : Calls w (msgColl json) H V s a s' a' st) :
    SessExt s s' ∧ (st = .ok ∨ st = .panic ∨ st = .timeout) ∧
    ∃ R : List (Option Metric), a' = a ++ R.filterMap id ∧
      List.Forall₂ (fun m o => match o with
        | some x => Reported w json S s' m x
        | none => st = .panic ∨ LeftOut w S m) V R := by
  induction hc with
  | done => exact ⟨SessExt.refl _, Or.inl rfl, [], by simp, .nil⟩
  | timeout => exact ⟨SessExt.refl _, Or.inr (Or.inr rfl), [], by simp, .nil⟩
  | more _ hr _ ih =>
    obtain ⟨a1, a2⟩ := collect_msg_run hT hS hr (fun e he => hh e (by simp [he]))
    obtain ⟨b1, b2, R, b3, b4⟩ := ih (fun e he => hh e (by simp [he]))
    refine ⟨a1.trans b1, b2, ?_⟩
    rcases a2 with ⟨_, h⟩ | ⟨rfl, _, h⟩ | ⟨x, rfl, _, h⟩
    · cases h
    · exact ⟨none :: R, by simpa using b3, .cons (Or.inr h) b4⟩
    · exact ⟨some x :: R, by simpa using b3, .cons (h.mono (fun _ h => h) b1) b4⟩
  | stop _ hr _ hn =>
    obtain ⟨a1, a2⟩ := collect_msg_run hT hS hr (fun e he => hh e (by simp [he]))
    rcases a2 with ⟨rfl, h⟩ | ⟨_, h, _⟩ | ⟨_, _, h, _⟩
    · subst h
      exact ⟨a1, Or.inr (Or.inl rfl), [none], by simp, .cons (Or.inl rfl) .nil⟩
    · exact absurd h hn
    · exact absurd h hn

/-! ### looking up with interference -/

theorem _root_.Tricorder.Spec.SeenDir.trans {S : State → Prop} {d p d' q m} (h1 : SeenDir S d p d') (h2 : Seen S d' q m) :
    Seen S d (p ++ q) m := by
  induction h1 with
  | here => exact h2
  | dir hs hr _ ih => exact .dir hs hr (ih h2)

theorem _root_.Tricorder.Spec.SeenDir.snoc {S : State → Prop} {d p d' name d'' σ} (h1 : SeenDir S d p d') (hs : S σ)
    (h2 : Reaches σ.tree d' [name] (.dir d'')) : SeenDir S d (p ++ [name]) d'' := by
  induction h1 with
  | here => exact .dir hs h2 (.here _)
  | dir hs hr _ ih => exact .dir hs hr (ih h2)

theorem getEntry_run {τ : State} (ht : IsTree τ.tree) {d name} :
    ((exec w (.getEntry d name) τ).2 = none ∧ ∀ n, ¬ Reaches τ.tree d [name] n) ∨
    ∃ e en, (exec w (.getEntry d name) τ).2 = some (e, en) ∧ Child τ.tree d name e ∧ τ.tree.entries[e]? = some en := by
  cases hg : τ.tree.getEntry d name with
  | none =>
    refine Or.inl ⟨by simp only [exec, hg]; rfl, ?_⟩
    intro n hn
    obtain ⟨e, en, hc, _⟩ := (reaches_one_iff ht).mp hn
    rw [(getEntry_iff ht).mpr hc] at hg
    cases hg
  | some e =>
    have hc := (getEntry_iff ht).mp hg
    obtain ⟨en, he, _⟩ := ht.child _ _ _ hc
    exact Or.inr ⟨e, en, by simp only [exec, hg, he]; rfl, hc, he⟩

theorem getDirectory_seen {S : State → Prop} {T : Tree MValue} (hT : IsTree T)
    (hS : ∀ τ, S τ → IsTree τ.tree ∧ Ext τ.tree T) {d : ℕ} {c : List Str} {σ σ' h r}
    (hr : RunI w (getDirectory d c) σ h σ' r) (hh : ∀ e ∈ h, S e.pre) :
    (∃ d', r = some d' ∧ SeenDir S d c d' ∧ ∀ q m, Stable S d (c ++ q) m → Stable S d' q m) ∨
    (r = none ∧ ∀ q m, q ≠ [] → ¬ Stable S d (c ++ q) m) := by
  induction c generalizing d σ h with
  | nil =>
    cases (RunI_ret hr).1
    exact Or.inl ⟨d, rfl, .here d, fun q m h => h⟩
  | cons name c ih =>
    obtain ⟨h1, τ, h2, rfl, r1, r2⟩ := RunI_op hr
    have hτ : S τ := hh ⟨true, .getEntry d name, τ⟩ (by simp)
    have ht := (hS τ hτ).1
    rcases getEntry_run (w := w) ht (d := d) (name := name) with ⟨hg, hno⟩ | ⟨e, en, hg, hc, he⟩
    · rw [hg] at r2
      cases (RunI_ret r2).1
      refine Or.inr ⟨rfl, ?_⟩
      intro q m hq hst
      have h3 : Reaches τ.tree d ([name] ++ (c ++ q)) (.metric m) := hst τ hτ
      obtain ⟨n, hn⟩ := reaches_prefix h3
      exact hno n hn
    · rw [hg] at r2
      simp only at r2
      cases hd : en.dir with
      | none =>
        rw [hd] at r2
        cases (RunI_ret r2).1
        refine Or.inr ⟨rfl, ?_⟩
        intro q m hq hst
        have h3 : Reaches τ.tree d ([name] ++ (c ++ q)) (.metric m) := hst τ hτ
        obtain ⟨d', hn, _⟩ := reaches_split h3 (by simp [hq])
        obtain ⟨e', en', hc', he', hh'⟩ := (reaches_one_iff ht).mp hn
        have := child_unique ht hc hc'
        subst this
        rw [he] at he'
        cases he'
        change en.dir = some d' at hh'
        rw [hd] at hh'
        cases hh'
      | some d' =>
        rw [hd] at r2
        have h3 : Reaches τ.tree d [name] (.dir d') := (reaches_one_iff ht).mpr ⟨e, en, hc, he, hd⟩
        rcases ih r2 (fun e he => hh e (by simp [he])) with ⟨d'', h4, h5, h6⟩ | ⟨h4, h5⟩
        · exact Or.inl ⟨d'', h4, .dir hτ h3 h5, fun q m hst => h6 q m (stable_sub hT hS hτ h3 hst)⟩
        · exact Or.inr ⟨h4, fun q m hq hst => h5 q m hq (stable_sub hT hS hτ h3 hst)⟩

theorem lookup_seen {S : State → Prop} {T : Tree MValue} (hT : IsTree T)
    (hS : ∀ τ, S τ → IsTree τ.tree ∧ Ext τ.tree T) {d : ℕ} {path : Str} {σ σ' h r}
    (hr : RunI w (lookupPath d path) σ h σ' r) (hh : ∀ e ∈ h, S e.pre) :
    (∃ d', r = (some d', none) ∧ SeenDir S d (newPathSpec path) d' ∧
      ∀ q m, Stable S d (newPathSpec path ++ q) m → Stable S d' q m) ∨
    (∃ m, r = (none, some m) ∧ Seen S d (newPathSpec path) m ∧
      ∀ q m', Stable S d (newPathSpec path ++ q) m' → q = [] ∧ m' = m) ∨
    (r = (none, none) ∧ ∀ q m, ¬ Stable S d (newPathSpec path ++ q) m) := by
  unfold lookupPath at hr
  generalize newPathSpec path = c at *
  unfold getDirectoryOrMetric at hr
  by_cases hc : c = []
  · subst hc
    cases (RunI_ret hr).1
    exact Or.inl ⟨d, rfl, .here d, fun q m h => h⟩
  · obtain ⟨h1, h2⟩ := pathDir_base hc
    simp only [h1, h2] at hr
    obtain ⟨h1, s1, x, h2, rfl, r1, r2⟩ := RunI_bind hr
    have hcc : ∀ q, c ++ q = c.dropLast ++ (c.getLast hc :: q) := by
      intro q
      conv_lhs => rw [← List.dropLast_append_getLast hc]
      simp
    rcases getDirectory_seen hT hS r1 (fun e he => hh e (by simp [he])) with ⟨d', rfl, h4, h5⟩ | ⟨rfl, h4⟩
    · simp only at r2
      obtain ⟨h6, τ, h7, rfl, r3, r4⟩ := RunI_op r2
      have hτ : S τ := hh ⟨true, .getEntry d' (c.getLast hc), τ⟩ (by simp)
      have ht := (hS τ hτ).1
      rcases getEntry_run (w := w) ht (d := d') (name := c.getLast hc) with ⟨hg, hno⟩ | ⟨e, en, hg, hch, he⟩
      · rw [hg] at r4
        cases (RunI_ret r4).1
        refine Or.inr (Or.inr ⟨rfl, ?_⟩)
        intro q m hst
        rw [hcc] at hst
        have h8 : Reaches τ.tree d' ([c.getLast hc] ++ q) (.metric m) := h5 _ _ hst τ hτ
        obtain ⟨n, hn⟩ := reaches_prefix h8
        exact hno n hn
      · rw [hg] at r4
        have hres := (RunI_ret r4).1
        rcases ht.entry e en he with ⟨m, mo, a1, a2, _⟩ | ⟨x, a1, a2, _⟩
        · rw [a1, a2] at hres
          have h8 : Reaches τ.tree d' [c.getLast hc] (.metric m) := .metric hch he a1
          refine Or.inr (Or.inl ⟨m, hres.symm, ?_, ?_⟩)
          · have := h4.trans (.metric hτ h8)
            rwa [List.dropLast_append_getLast] at this
          · intro q m' hst
            rw [hcc] at hst
            have h9 : Reaches τ.tree d' ([c.getLast hc] ++ q) (.metric m') := h5 _ _ hst τ hτ
            have hq := reaches_metric_prefix ht h9 h8
            subst hq
            rw [List.append_nil] at h9
            cases reaches_unique ht h9 h8
            exact ⟨rfl, rfl⟩
        · rw [a1, a2] at hres
          have h8 : Reaches τ.tree d' [c.getLast hc] (.dir x) := (reaches_one_iff ht).mpr ⟨e, en, hch, he, a2⟩
          refine Or.inl ⟨x, hres.symm, ?_, ?_⟩
          · have := h4.snoc hτ h8
            rwa [List.dropLast_append_getLast] at this
          · intro q m hst
            rw [hcc] at hst
            exact stable_sub hT hS hτ h8 (h5 _ _ hst)
    · cases (RunI_ret r2).1
      refine Or.inr (Or.inr ⟨rfl, ?_⟩)
      intro q m hst
      rw [hcc] at hst
      exact h4 _ _ (by simp) hst

end Tricorder
