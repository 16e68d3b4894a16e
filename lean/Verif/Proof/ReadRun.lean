import Verif.Proof.Visit2
/-!
# Reading one metric, with interference
-/

namespace Tricorder
open Go Spec Tree

variable {A α : Type} {w : World}

/-- the session only grows -/
def SessExt (s s' : Session) : Prop := ∀ (r : ℕ) (t : Time), s.lookup r = some t → s'.lookup r = some t

theorem SessExt.refl (s : Session) : SessExt s s := fun _ _ h => h

theorem SessExt.trans {a b c : Session} (h1 : SessExt a b) (h2 : SessExt b c) : SessExt a c :=
  fun r t h => h2 r t (h1 r t h)

theorem visit_run {s s' : Session} {r : ℕ} {t : Time} {σ σ' h}
    (hr : RunI w (visit s r) σ h σ' (s', t)) : SessExt s s' ∧ s'.lookup r = some t := by
  unfold visit at hr
  cases hl : s.lookup r with
  | some t0 =>
    rw [hl] at hr
    cases (RunI_ret hr).1
    exact ⟨SessExt.refl _, hl⟩
  | none =>
    rw [hl] at hr
    obtain ⟨h1, s1, h2, rfl, r1, r2⟩ := RunI_op hr
    change RunI w (.ret ((r, w.lockTime s1 r) :: s, w.lockTime s1 r)) _ h2 σ' (s', t) at r2
    cases (RunI_ret r2).1
    refine ⟨?_, by simp⟩
    intro r' t' h'
    rw [List.lookup_cons]
    have : r' ≠ r := by rintro rfl; rw [hl] at h'; cases h'
    rw [beq_eq_false_iff_ne.mpr this]
    exact h'

theorem evalSrc_run {src : Option Src} {σ σ' h hd} (hr : RunI w (evalSrc src) σ h σ' (.ok hd)) :
    ∃ sc, src = some sc ∧ ((∃ v, sc = .var v ∧ hd = .var v) ∨
      ∃ d, hd = .val d ∧ ∃ e ∈ h, e.own = true ∧ current w e.pre sc = some d) := by
  cases src with
  | none => cases (RunI_ret hr).1
  | some sc =>
    refine ⟨sc, rfl, ?_⟩
    cases sc with
    | var v => cases (RunI_ret hr).1; exact Or.inl ⟨v, rfl, rfl⟩
    | fn f =>
      obtain ⟨h1, s1, h2, rfl, r1, r2⟩ := RunI_op hr
      have h3 := (RunI_ret r2).1
      cases hd' : w.fn s1 f with
      | none => change called (w.fn s1 f) = _ at h3; rw [hd'] at h3; cases h3
      | some d =>
        change called (w.fn s1 f) = _ at h3
        rw [hd'] at h3; cases h3
        exact Or.inr ⟨d, rfl, ⟨true, .callFn f, s1⟩, by simp, rfl, hd'⟩
    | flagGet g =>
      obtain ⟨h1, s1, h2, rfl, r1, r2⟩ := RunI_op hr
      have h3 := (RunI_ret r2).1
      cases hd' : w.flagGet s1 g with
      | none => change called (w.flagGet s1 g) = _ at h3; rw [hd'] at h3; cases h3
      | some d =>
        change called (w.flagGet s1 g) = _ at h3
        rw [hd'] at h3; cases h3
        exact Or.inr ⟨d, rfl, ⟨true, .callFlagGet g, s1⟩, by simp, rfl, hd'⟩
    | flagString g =>
      obtain ⟨h1, s1, h2, rfl, r1, r2⟩ := RunI_op hr
      have h3 := (RunI_ret r2).1
      cases hd' : w.flagString s1 g with
      | none => change called ((w.flagString s1 g).map _) = _ at h3; rw [hd'] at h3; cases h3
      | some d =>
        change called ((w.flagString s1 g).map _) = _ at h3
        rw [hd'] at h3; cases h3
        refine Or.inr ⟨_, rfl, ⟨true, .callFlagString g, s1⟩, by simp, rfl, ?_⟩
        show (w.flagString s1 g).map _ = _
        rw [hd']; rfl

theorem deref_run {hd : Handle} {σ σ' h d} (hr : RunI w (deref hd) σ h σ' (some d)) :
    hd = .val d ∨ ∃ v, hd = .var v ∧ ∃ e ∈ h, e.own = true ∧ e.pre.vars[v]? = some d := by
  cases hd with
  | val d' => cases (RunI_ret hr).1; exact Or.inl rfl
  | var v =>
    obtain ⟨h1, s1, h2, rfl, r1, r2⟩ := RunI_op hr
    refine Or.inr ⟨v, rfl, ⟨true, .readVar v, s1⟩, by simp, rfl, (RunI_ret r2).1⟩

theorem evalIn_run {v : MValue} {s s' : Session} {σ σ' h o}
    (hr : RunI w (evalIn v s) σ h σ' (s', o)) :
    SessExt s s' ∧ (∀ r, v.region = some r → ∃ t, s'.lookup r = some t) ∧
      ∀ hd, o = .ok hd → ∃ sc, v.src = some sc ∧ ((∃ x, sc = .var x ∧ hd = .var x) ∨
        ∃ d, hd = .val d ∧ ∃ e ∈ h, e.own = true ∧ current w e.pre sc = some d) := by
  unfold evalIn at hr
  cases hreg : v.region with
  | none =>
    rw [hreg] at hr
    obtain ⟨h1, s1, x, h2, rfl, r1, r2⟩ := RunI_bind hr
    cases (RunI_ret r2).1
    refine ⟨SessExt.refl _, fun r h => (nomatch h), ?_⟩
    rintro hd rfl
    obtain ⟨sc, h3, h4⟩ := evalSrc_run r1
    refine ⟨sc, h3, ?_⟩
    rcases h4 with h4 | ⟨d, h5, e, he, h6⟩
    · exact Or.inl h4
    · exact Or.inr ⟨d, h5, e, List.mem_append_left _ he, h6⟩
  | some r =>
    rw [hreg] at hr
    obtain ⟨h1, s1, x, h2, rfl, r1, r2⟩ := RunI_bind hr
    obtain ⟨sx, t⟩ := x
    obtain ⟨h3, s3, y, h4, rfl, r3, r4⟩ := RunI_bind r2
    cases (RunI_ret r4).1
    obtain ⟨h5, h6⟩ := visit_run r1
    refine ⟨h5, fun r' h => by cases h; exact ⟨t, h6⟩, ?_⟩
    rintro hd rfl
    obtain ⟨sc, h3, h4⟩ := evalSrc_run r3
    refine ⟨sc, h3, ?_⟩
    rcases h4 with h4 | ⟨d, h5, e, he, h6⟩
    · exact Or.inl h4
    · exact Or.inr ⟨d, h5, e, by simp [he], h6⟩

/-- reading a value with a session -/
theorem readAs_run {v : MValue} {s : Session} {conv : Dyn → Option α} {σ σ' h so o}
    (hr : RunI w (readAs v (some s) conv) σ h σ' (so, o)) :
    ∃ s', so = some s' ∧ SessExt s s' ∧ (∀ r, v.region = some r → ∃ t, s'.lookup r = some t) ∧
      ∀ a, o = .ok a → ∃ sc d, v.src = some sc ∧
        (∃ e ∈ h, e.own = true ∧ current w e.pre sc = some d) ∧ conv d = some a := by
  unfold readAs at hr
  obtain ⟨h1, s1, x, h2, rfl, r1, r2⟩ := RunI_bind hr
  unfold evaluate at r1
  obtain ⟨h3, s3, y, h4, rfl, r3, r4⟩ := RunI_bind r1
  obtain ⟨sy, oy⟩ := y
  have hx := (RunI_ret r4).1
  subst hx
  obtain ⟨a1, a2, a3⟩ := evalIn_run r3
  cases oy with
  | panic =>
    cases (RunI_ret r2).1
    exact ⟨sy, rfl, a1, a2, fun a h => (nomatch h)⟩
  | ok hd =>
    obtain ⟨h5, s5, d, h6, rfl, r5, r6⟩ := RunI_bind r2
    cases hc : d.bind conv with
    | none =>
      simp only [hc] at r6
      cases (RunI_ret r6).1
      exact ⟨sy, rfl, a1, a2, fun a h => (nomatch h)⟩
    | some a =>
      simp only [hc] at r6
      cases (RunI_ret r6).1
      refine ⟨sy, rfl, a1, a2, ?_⟩
      rintro a' h
      cases h
      obtain ⟨sc, b1, b2⟩ := a3 hd rfl
      cases d with
      | none => cases hc
      | some d =>
        rcases b2 with ⟨x, rfl, rfl⟩ | ⟨d', rfl, e, he, hown, hcur⟩
        · rcases deref_run r5 with h | ⟨v', h, e, he, hown, hcur⟩
          · cases h
          · cases h
            exact ⟨_, d, b1, ⟨e, by simp [he], hown, hcur⟩, hc⟩
        · rcases deref_run r5 with h | ⟨v', h, _⟩
          · cases h
            exact ⟨_, d, b1, ⟨e, by simp [he], hown, hcur⟩, hc⟩
          · cases h

theorem float_infNaN {d : Dyn} {x : Fl} (h : d.float = some x) :
    (x.isNaN || x.isInf) = true ↔ InfNaN d := by
  cases d with
  | scalar n b => cases b <;> simp [Dyn.float] at h <;> subst h <;> simp [InfNaN, or_comm]
  | _ => simp [Dyn.float] at h

theorem isInfNaN_run {v : MValue} {s : Session} {σ σ' h so o}
    (hr : RunI w (isInfNaN v (some s)) σ h σ' (so, o)) :
    ∃ s', so = some s' ∧ SessExt s s' ∧ ∀ b, o = .ok b →
      (v.valType.isFloat = false ∧ b = false) ∨
      (v.valType.isFloat = true ∧ ∃ sc d, v.src = some sc ∧
        (∃ e ∈ h, e.own = true ∧ current w e.pre sc = some d) ∧ (b = true ↔ InfNaN d)) := by
  unfold isInfNaN at hr
  split at hr
  · rename_i hf
    obtain ⟨s', h1, h2, -, h4⟩ := readAs_run hr
    refine ⟨s', h1, h2, ?_⟩
    intro b hb
    obtain ⟨sc, d, h5, h6, h7⟩ := h4 b hb
    refine Or.inr ⟨hf, sc, d, h5, h6, ?_⟩
    cases hx : d.float with
    | none => rw [hx] at h7; cases h7
    | some x =>
      rw [hx] at h7
      cases h7
      exact float_infNaN hx
  · rename_i hf
    cases (RunI_ret hr).1
    refine ⟨s, rfl, SessExt.refl _, ?_⟩
    intro b hb
    cases hb
    exact Or.inl ⟨by simpa using hf, rfl⟩

/-- the value reported comes from one reading of the source -/
theorem asInterface_run {v : MValue} {s : Session} {σ σ' h so o}
    (hr : RunI w (asInterface v (some s)) σ h σ' (so, o)) :
    ∃ s', so = some s' ∧ SessExt s s' ∧ ∀ x, o = .ok x → ∃ sc d, v.src = some sc ∧
        (∃ e ∈ h, e.own = true ∧ current w e.pre sc = some d) ∧
        valueToInterface d v.valType v.isPtr = some x := by
  unfold asInterface at hr
  cases hsrc : v.src with
  | none =>
    rw [hsrc] at hr
    cases (RunI_ret hr).1
    exact ⟨s, rfl, SessExt.refl _, fun x h => (nomatch h)⟩
  | some sc =>
    rw [hsrc] at hr
    obtain ⟨s', h1, h2, -, h4⟩ := readAs_run hr
    rw [hsrc] at h4
    exact ⟨s', h1, h2, h4⟩

theorem blank_describes (mv : MetricView) (sub : Ty) (v : Val) (t : TS) (g : ℕ)
    (h : mv.value.valType ≠ .list → sub = .unknown) :
    Describes { blankMetric mv sub with value := v, timeStamp := t, groupId := g } mv := by
  refine ⟨rfl, rfl, rfl, rfl, ?_, h⟩
  show (if mv.value.valType = .list then sub.bits else mv.value.valType.bits) =
    (if mv.value.valType = .list then sub else mv.value.valType).bits
  split <;> rfl

theorem scalarMetric_run {mv : MetricView} {s s' : Session} {σ σ' h o}
    (hr : RunI w (scalarMetric mv s) σ h σ' (s', o)) :
    SessExt s s' ∧ ∀ x, o = .ok x → Describes x mv ∧
      (∃ sc d, mv.value.src = some sc ∧
        (∃ e ∈ h, e.own = true ∧ current w e.pre sc = some d) ∧
        valueToInterface d mv.value.valType mv.value.isPtr = some x.value) ∧
      ∃ r t, mv.value.region = some r ∧ s'.lookup r = some t ∧ x.timeStamp = .time t ∧
        ∃ e ∈ h, e.own = true ∧ e.pre.regions[r]? = some x.groupId := by
  unfold scalarMetric at hr
  obtain ⟨h1, s1, y, h2, rfl, r1, r2⟩ := RunI_bind hr
  obtain ⟨so, oy⟩ := y
  obtain ⟨s'', rfl, a1, a2⟩ := asInterface_run r1
  cases oy with
  | panic =>
    cases (RunI_ret r2).1
    exact ⟨a1, fun x h => (nomatch h)⟩
  | ok val =>
    obtain ⟨sc, d, b1, ⟨e, he, b2⟩, b3⟩ := a2 val rfl
    simp only at r2
    cases hreg : mv.value.region with
    | none =>
      rw [hreg] at r2
      cases (RunI_ret r2).1
      exact ⟨a1, fun x h => (nomatch h)⟩
    | some r =>
      rw [hreg] at r2
      obtain ⟨h3, s3, h4, rfl, r3, r4⟩ := RunI_op r2
      cases hgid : (exec w (.regionId r) s3).2 with
      | none =>
        rw [hgid] at r4
        cases (RunI_ret r4).1
        exact ⟨a1, fun x h => (nomatch h)⟩
      | some gid =>
        rw [hgid] at r4
        obtain ⟨h5, s5, z, h6, rfl, r5, r6⟩ := RunI_bind r4
        obtain ⟨sz, t⟩ := z
        obtain ⟨c1, c2⟩ := visit_run r5
        cases (RunI_ret r6).1
        refine ⟨a1.trans c1, ?_⟩
        rintro x hx
        cases hx
        refine ⟨blank_describes mv _ _ _ _ (fun _ => rfl), ⟨sc, d, b1, ⟨e, by simp [he], b2⟩, b3⟩, r, t, rfl, c2, rfl,
          ⟨true, .regionId r, s3⟩, by simp, rfl, hgid⟩

theorem distMetric_run {mv : MetricView} {σ σ' h x}
    (hr : RunI w (distMetric mv) σ h σ' (.ok x)) :
    Describes x mv ∧ ∃ i d sn, mv.value.dist = some i ∧ x.value = .dist (some (shownDist sn)) ∧
      x.timeStamp = .time sn.timeStamp ∧ x.groupId = d.groupId ∧ d.snapshot = some sn ∧
      ∃ e ∈ h, e.own = true ∧ e.pre.dists[i]? = some d := by
  unfold distMetric at hr
  cases hi : mv.value.dist with
  | none => rw [hi] at hr; cases (RunI_ret hr).1
  | some i =>
    rw [hi] at hr
    obtain ⟨h1, s1, h2, rfl, r1, r2⟩ := RunI_op hr
    cases hv : (exec w (.snapshot i) s1).2 with
    | none => rw [hv] at r2; cases (RunI_ret r2).1
    | some v =>
      rw [hv] at r2
      cases (RunI_ret r2).1
      change (match s1.dists[i]? with
        | none => none
        | some d => d.snapshot.map fun x => (⟨x, d.groupId⟩ : DistView)) = some v at hv
      cases hd : s1.dists[i]? with
      | none => rw [hd] at hv; cases hv
      | some d =>
        rw [hd] at hv
        cases hsn : d.snapshot with
        | none => simp only [hsn] at hv; cases hv
        | some sn =>
          simp only [hsn, Option.map_some, Option.some.injEq] at hv
          subst hv
          exact ⟨blank_describes mv _ _ _ _ (fun _ => rfl), i, d, sn, rfl, rfl, rfl, rfl, hsn, ⟨true, .snapshot i, s1⟩, by simp, rfl, hd⟩

theorem listMetric_run {mv : MetricView} (hl : mv.value.valType = .list) {σ σ' h x}
    (hr : RunI w (listMetric mv) σ h σ' (.ok x)) :
    Describes x mv ∧ ∃ i lv, mv.value.alist = some i ∧ x.value = lv.val ∧ x.subType = lv.subType ∧
      x.timeStamp = .time lv.timeStamp ∧ x.groupId = lv.groupId ∧
      ∃ e ∈ h, e.own = true ∧ listView e.pre i = some lv := by
  unfold listMetric at hr
  cases hi : mv.value.alist with
  | none => rw [hi] at hr; cases (RunI_ret hr).1
  | some i =>
    rw [hi] at hr
    obtain ⟨h1, s1, h2, rfl, r1, r2⟩ := RunI_op hr
    cases hv : (exec w (.getList i) s1).2 with
    | none => rw [hv] at r2; cases (RunI_ret r2).1
    | some lv =>
      rw [hv] at r2
      cases (RunI_ret r2).1
      exact ⟨blank_describes mv _ _ _ _ (fun h => absurd hl h), i, lv, rfl, rfl, rfl, rfl, rfl, ⟨true, .getList i, s1⟩, by simp, rfl, hv⟩

end Tricorder
