import Verif.Spec.PageWhole
import Verif.Proof.ListRun2
import Verif.Proof.Whole4
import Verif.Proof.Text
import Verif.Proof.Reads
/-!
# The text page, with interference
-/

namespace Tricorder.Whole
open Go Spec Tree

variable {A W α : Type} {w : World} {fm : Fmts} {wr : Writer W}

theorem TextTells.mono {S S' : State → Prop} (h : ∀ σ, S σ → S' σ) {mv cs} (ht : TextTells w fm S mv cs) :
    TextTells w fm S' mv cs := by
  cases ht with
  | dist a b c d e f => exact .dist a b (h _ c) d e f
  | list a b c d e f => exact .list a b (h _ c) d e f
  | scalar a b c d e f => exact .scalar a b (h _ c) d e f

theorem renderAll_forall {f : Dyn → Option Str} {ds : List Dyn} {xs : List Str} (h : renderAll f ds = some xs) :
    List.Forall₂ (fun d x => f d = some x) ds xs := by
  induction ds generalizing xs with
  | nil => cases h; exact .nil
  | cons d ds ih =>
    unfold renderAll at h
    split at h
    · cases h
    · rename_i x hx
      obtain ⟨ys, hy, rfl⟩ := Option.map_eq_some_iff.mp h
      exact .cons hx (ih hy)

theorem readAs_any {v : MValue} {s : Option Session} {conv : Dyn → Option α} {σ σ' h so a}
    (hr : RunI w (readAs v s conv) σ h σ' (so, .ok a)) :
    ∃ sc d, v.src = some sc ∧ (∃ e ∈ h, e.own = true ∧ current w e.pre sc = some d) ∧ conv d = some a := by
  cases s with
  | some s =>
    obtain ⟨s', -, -, -, h4⟩ := readAs_run hr
    exact h4 a rfl
  | none =>
    unfold readAs at hr
    obtain ⟨h1, s1, x, h2, rfl, r1, r2⟩ := RunI_bind hr
    unfold evaluate at r1
    obtain ⟨h3, s3, y, h4, rfl, r3, r4⟩ := RunI_bind r1
    have hx := (RunI_ret r4).1
    subst hx
    unfold evalAlone at r3
    obtain ⟨h5, s5, z, h6, rfl, r5, r6⟩ := RunI_bind r3
    obtain ⟨h7, s7, u, h8, rfl, r7, r8⟩ := RunI_bind r6
    have hz := (RunI_ret r8).1
    subst hz
    obtain ⟨sz, oz⟩ := z
    obtain ⟨-, -, a3⟩ := evalIn_run r5
    cases oz with
    | panic => cases (RunI_ret r2).1
    | ok hd =>
      obtain ⟨h9, s9, d, h10, rfl, r9, r10⟩ := RunI_bind r2
      cases hc : d.bind conv with
      | none =>
        simp only [hc] at r10
        cases (RunI_ret r10).1
      | some a' =>
        simp only [hc] at r10
        cases (RunI_ret r10).1
        obtain ⟨sc, b1, b2⟩ := a3 hd rfl
        cases d with
        | none => cases hc
        | some d =>
          rcases b2 with ⟨x, rfl, rfl⟩ | ⟨d', rfl, e, he, hown, hcur⟩
          · rcases deref_run r9 with h | ⟨v', h, e, he, hown, hcur⟩
            · cases h
            · cases h
              exact ⟨_, d, b1, ⟨e, by simp [he], hown, hcur⟩, hc⟩
          · rcases deref_run r9 with h | ⟨v', h, _⟩
            · cases h
              exact ⟨_, d, b1, ⟨e, by simp [he], hown, hcur⟩, hc⟩
            · cases h

/-- one metric -/
theorem textEmit_tells {mv : MetricView} {s s' : Option Session} {a a' : W} {σ σ' h}
    (hr : RunI w (textEmitMetric fm wr mv s a) σ h σ' (s', a', .ok)) :
    ∃ cs, TextTells w fm (fun τ => ∃ e ∈ h, e.pre = τ) mv cs ∧ wr.all a cs = (a', .ok) := by
  unfold textEmitMetric at hr
  split at hr
  · rename_i hv
    cases hi : mv.value.dist with
    | none => rw [hi] at hr; cases (RunI_ret hr).1
    | some i =>
      rw [hi] at hr
      obtain ⟨h1, s1, h2, rfl, r1, r2⟩ := RunI_op hr
      cases hx : (exec w (.snapshot i) s1).2 with
      | none => rw [hx] at r2; cases (RunI_ret r2).1
      | some v =>
        rw [hx] at r2
        have he := (RunI_ret r2).1
        simp only [Prod.mk.injEq] at he
        change (match s1.dists[i]? with
          | none => none
          | some d => d.snapshot.map fun x => (⟨x, d.groupId⟩ : DistView)) = some v at hx
        cases hd : s1.dists[i]? with
        | none => rw [hd] at hx; cases hx
        | some d =>
          rw [hd] at hx
          cases hsn : d.snapshot with
          | none => simp only [hsn] at hx; cases hx
          | some sn =>
            simp only [hsn, Option.map_some, Option.some.injEq] at hx
            subst hx
            exact ⟨_, .dist hv hi ⟨⟨true, .snapshot i, s1⟩, by simp, rfl⟩ hd hsn rfl, he.2⟩
  · rename_i hv
    split at hr
    · rename_i hv2
      cases hi : mv.value.alist with
      | none => rw [hi] at hr; cases (RunI_ret hr).1
      | some i =>
        rw [hi] at hr
        obtain ⟨h1, s1, h2, rfl, r1, r2⟩ := RunI_op hr
        cases hx : (exec w (.getList i) s1).2 with
        | none => rw [hx] at r2; cases (RunI_ret r2).1
        | some lv =>
          rw [hx] at r2
          simp only at r2
          cases hren : renderAll (fun d => valueToTextString fm d lv.subType mv.value.unit false) (elemsOf lv.val) with
          | none => rw [hren] at r2; cases (RunI_ret r2).1
          | some xs =>
            rw [hren] at r2
            have he := (RunI_ret r2).1
            simp only [Prod.mk.injEq] at he
            exact ⟨_, .list hv2 hi ⟨⟨true, .getList i, s1⟩, by simp, rfl⟩ hx (renderAll_forall hren) rfl,
              by rw [show lit "|" = [124] from rfl, ← joinByte_eq]; exact he.2⟩
    · rename_i hv2
      obtain ⟨h1, s1, x, h2, rfl, r1, r2⟩ := RunI_bind hr
      obtain ⟨so, ox⟩ := x
      cases ox with
      | panic => cases (RunI_ret r2).1
      | ok x =>
        have he := (RunI_ret r2).1
        simp only [Prod.mk.injEq] at he
        unfold asTextString at r1
        cases hsrc : mv.value.src with
        | none => rw [hsrc] at r1; cases (RunI_ret r1).1
        | some sc0 =>
          rw [hsrc] at r1
          obtain ⟨sc, d, b1, ⟨e, he1, -, b2⟩, b3⟩ := readAs_any r1
          exact ⟨_, .scalar ⟨hv, hv2⟩ b1 ⟨e, by simp [he1], rfl⟩ b2 b3 rfl, he.2⟩

/-- metric `m` on the page -/
def TextShown (w : World) (fm : Fmts) (S : State → Prop) (m : ℕ) (cs : List Str) : Prop :=
  ∃ mv ds, (∃ σ, S σ ∧ metricView σ.tree m = some mv) ∧ cs = (mv.path ++ [32]) :: ds ∧ TextTells w fm S mv ds ∧
    (mv.value.valType.isFloat = true → ∃ sc d σ, mv.value.src = some sc ∧ S σ ∧ current w σ sc = some d ∧ ¬ InfNaN d)

theorem collect_text_run {S : State → Prop} {T : Tree MValue} (hT : IsTree T)
    (hS : ∀ τ, S τ → IsTree τ.tree ∧ Ext τ.tree T) {m : ℕ} {s s' : Session} {a a' : W} {σ σ' h}
    (hr : RunI w (collect (textColl fm wr) m s a) σ h σ' (s', a', .ok)) (hh : ∀ e ∈ h, S e.pre) :
    (a' = a ∧ LeftOut w S m) ∨ ∃ cs, TextShown w fm S m cs ∧ wr.all a cs = (a', .ok) := by
  obtain ⟨h1, s1, h2, rfl, r1, r2⟩ := RunI_op hr
  have hs1 : S s1 := hh ⟨true, .metric m, s1⟩ (by simp)
  cases hm : (exec w (.metric m) s1).2 with
  | none =>
    rw [hm] at r2
    cases (RunI_ret r2).1
  | some mv =>
    rw [hm] at r2
    change metricView s1.tree m = some mv at hm
    obtain ⟨h3, s3, x, h4, rfl, r3, r4⟩ := RunI_bind r2
    obtain ⟨so, ox⟩ := x
    obtain ⟨s'', rfl, a1, a2⟩ := isInfNaN_run r3
    cases ox with
    | panic => cases (RunI_ret r4).1
    | ok b =>
      cases b with
      | true =>
        cases (RunI_ret r4).1
        refine Or.inl ⟨rfl, ?_⟩
        rcases a2 true rfl with ⟨_, h⟩ | ⟨hf, sc, d, h5, ⟨e, he, -, h6⟩, h7⟩
        · cases h
        · exact ⟨mv, sc, d, s1, e.pre, hs1, hm, hf, h5, hh e (by simp [he]), h6, h7.mp rfl⟩
      | false =>
        change RunI w (textColl fm wr m s'' a) s3 h4 σ' (s', a', .ok) at r4
        obtain ⟨h5, s5, h6, rfl, r5, r6⟩ := RunI_op r4
        have hs5 : S s5 := hh ⟨true, .metric m, s5⟩ (by simp)
        cases hm2 : (exec w (.metric m) s5).2 with
        | none =>
          rw [hm2] at r6
          cases (RunI_ret r6).1
        | some mv2 =>
          rw [hm2] at r6
          change metricView s5.tree m = some mv2 at hm2
          have : mv2 = mv := by
            have x1 := metricView_ext (hS s1 hs1).1 hT (hS s1 hs1).2 hm
            have x2 := metricView_ext (hS s5 hs5).1 hT (hS s5 hs5).2 hm2
            rw [x1] at x2
            exact (Option.some.inj x2).symm
          subst this
          simp only at r6
          cases hw : wr.write a (mv2.path ++ [32]) with
          | mk a1 oe =>
            rw [hw] at r6
            cases oe with
            | some e => cases (RunI_ret r6).1
            | none =>
              obtain ⟨h7, s7, y, h8, rfl, r7, r8⟩ := RunI_bind r6
              have hy := (RunI_ret r8).1
              obtain ⟨sy, ay, sty⟩ := y
              simp only [Prod.mk.injEq] at hy
              obtain ⟨-, rfl, rfl⟩ := hy
              obtain ⟨cs, c1, c2⟩ := textEmit_tells r7
              refine Or.inr ⟨(mv2.path ++ [32]) :: cs, ⟨mv2, cs, ⟨s1, hs1, hm⟩, rfl, ?_, ?_⟩, ?_⟩
              · refine c1.mono ?_
                rintro τ ⟨e, he, rfl⟩
                exact hh e (by simp [he])
              · intro hf
                rcases a2 false rfl with ⟨hf', _⟩ | ⟨_, sc, d, h5, ⟨e, he, -, h6⟩, h7⟩
                · rw [hf] at hf'; cases hf'
                · exact ⟨sc, d, e.pre, h5, hh e (by simp [he]), h6, fun hi => by simpa using h7.mpr hi⟩
              · simp only [Writer.all, hw, c2]

theorem all_ok_app {x x' x'' : W} {a b : List Str} (ha : wr.all x a = (x', .ok)) (hb : wr.all x' b = (x'', .ok)) :
    wr.all x (a ++ b) = (x'', .ok) := by
  rw [all_append, ha]
  exact hb

/-- the metrics of a page, one by one -/
theorem calls_text {S : State → Prop} {T : Tree MValue} (hT : IsTree T)
    (hS : ∀ τ, S τ → IsTree τ.tree ∧ Ext τ.tree T) {H : List Ev} (hh : ∀ e ∈ H, S e.pre)
    {V : List ℕ} {s s' : Session} {a a' : W} {st} (hc : Calls w (textColl fm wr) H V s a s' a' st) (hst : st = .ok) :
    ∃ R : List (Option (List Str)), wr.all a (R.filterMap id).flatten = (a', .ok) ∧
      List.Forall₂ (fun m o => match o with
        | some x => TextShown w fm S m x
        | none => LeftOut w S m) V R := by
  induction hc with
  | done => exact ⟨[], rfl, .nil⟩
  | timeout => cases hst
  | more _ hr _ ih =>
    obtain ⟨R, b3, b4⟩ := ih (fun e he => hh e (by simp [he])) hst
    rcases collect_text_run hT hS hr (fun e he => hh e (by simp [he])) with ⟨rfl, h⟩ | ⟨cs, h1, h2⟩
    · exact ⟨none :: R, by simpa using b3, .cons h b4⟩
    · exact ⟨some cs :: R, by simpa using all_ok_app h2 b3, .cons h1 b4⟩
  | stop _ _ _ hn => exact absurd hst hn


theorem seenDir_code {S S' : State → Prop} (h : ∀ τ, S τ → ∃ τ' j, S' τ' ∧ τ = code j τ') {d d' : ℕ} {p : List Str}
    (hs : SeenDir S d p d') : SeenDir S' d p d' := by
  induction hs with
  | here => exact .here _
  | dir h1 h2 _ ih =>
    obtain ⟨τ, j, h3, rfl⟩ := h _ h1
    exact .dir h3 h2 ih

theorem TextTells.code {S S' : State → Prop} {T : ℕ → Time} (h : ∀ τ, S τ → ∃ τ' j, S' τ' ∧ τ = code j τ') {mv cs}
    (ht : TextTells (timed w T) fm S mv cs) : TextTells w fm S' mv cs := by
  cases ht with
  | dist a b c d e f =>
    obtain ⟨τ, j, h3, rfl⟩ := h _ c
    exact .dist a b h3 d e f
  | list a b c d e f =>
    obtain ⟨τ, j, h3, rfl⟩ := h _ c
    exact .list a b h3 d e f
  | scalar a b c d e f =>
    obtain ⟨τ, j, h3, rfl⟩ := h _ c
    rw [current_code] at d
    exact .scalar a b h3 d e f

/-- the text page -/
theorem textEndpoint_run {s s' : State} (hs : Reachable w s) {fuel path h} {a a' : W}
    (hr : RunI w (textEndpoint fm wr fuel path a) s h s' (a', .ok)) :
    let S := fun τ => τ ∈ statesOf h s'
    (∃ d, SeenDir S 0 (newPathSpec path) d ∧ ∃ U : List ((List Str × ℕ) × List Str), wr.all a (U.flatMap Prod.snd) = (a', .ok) ∧
      U.Pairwise (fun x y => x.1.1 < y.1.1) ∧
      (∀ u ∈ U, newPathSpec path <+: u.1.1 ∧ Seen S 0 u.1.1 u.1.2 ∧ TextShown w fm S u.1.2 u.2 ∧
        ∀ σ mv, S σ → metricView σ.tree u.1.2 = some mv → mv.path = 47 :: List.intercalate [47] u.1.1) ∧
      ∀ p m, newPathSpec path <+: p → Stable S 0 p m → (∃ x, ((p, m), x) ∈ U) ∨ LeftOut w S m) ∨
    (∃ m mv cs, Seen S 0 (newPathSpec path) m ∧ (∃ σ, S σ ∧ metricView σ.tree m = some mv) ∧ TextTells w fm S mv cs ∧
      wr.all a cs = (a', .ok) ∧ ∀ p m', newPathSpec path <+: p → Stable S 0 p m' → p = newPathSpec path ∧ m' = m) ∨
    (a' = (wr.write a (lit "*Path does not exist.*")).1 ∧ ∀ p m, newPathSpec path <+: p → ¬ Stable S 0 p m) := by
  intro S
  have hre := (RunI_reads (textEndpoint_reads ..) hr hs).1
  obtain ⟨hT, hS⟩ := states_tree hr hre
  have hh : ∀ e ∈ h, S e.pre := fun e he => List.mem_append_left _ (List.mem_map.mpr ⟨e, he, rfl⟩)
  obtain ⟨h1, s1, x, h2, rfl, r1, r2⟩ := RunI_bind hr
  have hh1 : ∀ e ∈ h1, S e.pre := fun e he => hh e (by simp [he])
  have hh2 : ∀ e ∈ h2, S e.pre := fun e he => hh e (by simp [he])
  rcases lookup_seen hT hS r1 hh1 with ⟨d, rfl, a1, a2⟩ | ⟨m, rfl, a1, a2⟩ | ⟨rfl, a1⟩
  · obtain ⟨se, h3, h4, σ1, rfl, r3, hb⟩ := withSession_run r2
    have hh3 : ∀ e ∈ h3, S e.pre := fun e he => hh2 e (by simp [he])
    obtain ⟨V, hV⟩ := traverse_visit hT hS r3 hh3
    obtain ⟨R, hR, hall⟩ := calls_text hT hS hh3 hV.calls rfl
    have hmap : (V.map fun x => (newPathSpec path ++ x.1, x.2)).map Prod.snd = V.map Prod.snd := by
      rw [List.map_map]; rfl
    rw [← hmap] at hall
    obtain ⟨U, u1, u2, u3, u4⟩ := forall₂_filterMap (forall₂_of_map hall)
    refine Or.inl ⟨d, a1, U, ?_, ?_, ?_, ?_⟩
    · rw [List.flatMap_def, u1]; exact hR
    · have : (V.map fun x => (newPathSpec path ++ x.1, x.2)).Pairwise (fun x y => x.1 < y.1) := by
        rw [List.pairwise_map]
        exact hV.sorted.imp prefix_lt
      have := this.sublist u2
      rwa [List.pairwise_map] at this
    · intro u hu
      have hv := u2.subset (List.mem_map.mpr ⟨u, hu, rfl⟩)
      obtain ⟨y, hy, e⟩ := List.mem_map.mp hv
      have hseen : Seen S 0 u.1.1 u.1.2 := by rw [← e]; exact a1.trans (hV.seen y hy)
      refine ⟨by rw [← e]; exact List.prefix_append _ _, hseen, u3 u hu, ?_⟩
      intro σ mv' hσ hm'
      obtain ⟨mv, hm, hp⟩ := trail_view hT (seen_trail hS hseen)
      have := metricView_ext (hS σ hσ).1 hT (hS σ hσ).2 hm'
      rw [hm] at this
      cases this
      exact hp
    · rintro p m ⟨q, rfl⟩ hst
      rcases hV.complete q m (a2 q m hst) with h5 | ⟨h5, -⟩
      · exact u4 _ (List.mem_map.mpr ⟨(q, m), h5, rfl⟩)
      · exact absurd rfl h5
  · obtain ⟨h3, s3, h4, rfl, r3, r4⟩ := RunI_op r2
    have hs3 : S s3 := hh2 ⟨true, .metric m, s3⟩ (by simp)
    cases hm : (exec w (.metric m) s3).2 with
    | none =>
      rw [hm] at r4
      cases (RunI_ret r4).1
    | some mv =>
      rw [hm] at r4
      change metricView s3.tree m = some mv at hm
      obtain ⟨h7, s7, y, h8, rfl, r7, r8⟩ := RunI_bind r4
      have hy := (RunI_ret r8).1
      obtain ⟨sy, ay, sty⟩ := y
      simp only [Prod.mk.injEq] at hy
      obtain ⟨rfl, rfl⟩ := hy
      obtain ⟨cs, c1, c2⟩ := textEmit_tells r7
      refine Or.inr (Or.inl ⟨m, mv, cs, a1, ⟨s3, hs3, hm⟩, c1.mono ?_, c2, ?_⟩)
      · rintro τ ⟨e, he, rfl⟩
        exact hh2 e (by simp [he])
      · rintro p m' ⟨q, rfl⟩ hst
        obtain ⟨rfl, rfl⟩ := a2 q m' hst
        exact ⟨by simp, rfl⟩
  · have := (RunI_ret r2).1
    simp only [Prod.mk.injEq] at this
    refine Or.inr (Or.inr ⟨this.1.symm, ?_⟩)
    rintro p m ⟨q, rfl⟩ hst
    exact a1 q m hst

end Tricorder.Whole
