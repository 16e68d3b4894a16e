import Verif.Spec.HtmlOrder
import Verif.Proof.PageWhole2
import Verif.Proof.Order
/-!
# The order in which an HTML page is read: proofs
-/

namespace Tricorder.Whole
open Go _root_.Spec Tricorder.Spec Tree

variable {A W : Type} {w : World} {fm : Fmts} {wr : Writer W}

/-- the states of some steps of the history -/
def InEvs (E : List Ev) (τ : State) : Prop := ∃ e ∈ E, e.pre = τ

theorem InEvs.mono {E E' : List Ev} (h : ∀ e ∈ E, e ∈ E') : ∀ τ, InEvs E τ → InEvs E' τ := by
  rintro τ ⟨e, he, rfl⟩
  exact ⟨e, h e he, rfl⟩

theorem HtmlLead.mono {S S' : State → Prop} (h : ∀ σ, S σ → S' σ) {mv cs} (ht : HtmlLead S mv cs) : HtmlLead S' mv cs := by
  cases ht with
  | dist a b => exact .dist a b
  | noList a b c => exact .noList a b c
  | list a b c d e => exact .list a b (h _ c) d e
  | scalar a b => exact .scalar a b

theorem HtmlRow.mono {S S' : State → Prop} (h : ∀ σ, S σ → S' σ) {q name nd cs} (ht : HtmlRow w fm S q name nd cs) :
    HtmlRow w fm S' q name nd cs := by
  cases nd with
  | dir d => exact ht
  | metric m =>
    obtain ⟨mv, ⟨σ, hσ, hm⟩, h2, h3⟩ := ht
    exact ⟨mv, ⟨σ, h _ hσ, hm⟩, h2, h3.mono h⟩

theorem HtmlLast.mono {S S' : State → Prop} (h : ∀ σ, S σ → S' σ) {q name nd cs} (ht : HtmlLast w fm S q name nd cs) :
    HtmlLast w fm S' q name nd cs := by
  rcases ht with ht | ht | ⟨m, mv, h1, ⟨σ, hσ, hm⟩, h3, h4⟩
  · exact .inl ht
  · exact .inr (.inl (ht.mono h))
  · exact .inr (.inr ⟨m, mv, h1, ⟨σ, h _ hσ, hm⟩, h3, h4.mono h⟩)

theorem HtmlLead.code {S S' : State → Prop} (h : ∀ τ, S τ → ∃ τ' j, S' τ' ∧ τ = code j τ') {mv cs} (ht : HtmlLead S mv cs) :
    HtmlLead S' mv cs := by
  cases ht with
  | dist a b => exact .dist a b
  | noList a b c => exact .noList a b c
  | list a b c d e =>
    obtain ⟨τ', j', h6, rfl⟩ := h _ c
    exact .list a b h6 d e
  | scalar a b => exact .scalar a b

theorem HtmlLast.code {S S' : State → Prop} {T : ℕ → Time} (h : ∀ τ, S τ → ∃ τ' j, S' τ' ∧ τ = code j τ') {q name nd cs}
    (ht : HtmlLast (timed w T) fm S q name nd cs) : HtmlLast w fm S' q name nd cs := by
  rcases ht with ht | ht | ⟨m, mv, h1, ⟨σ, hσ, hm⟩, h3, h4⟩
  · exact .inl ht
  · exact .inr (.inl (ht.code h))
  · obtain ⟨τ, j, h5, rfl⟩ := h _ hσ
    exact .inr (.inr ⟨m, mv, h1, ⟨τ, h5, hm⟩, h3, h4.code h⟩)

theorem all_then {x x' : W} {a b : List Str} {r : W × Status} (ha : wr.all x a = (x', .ok)) (hb : wr.all x' b = r) :
    wr.all x (a ++ b) = r := by
  rw [all_append, ha]
  exact hb

theorem writing_any {x x' : W} {cs : List Str} {s s' : Session} {k : W → Prog (Session × W × Status)} {σ h σ' st}
    (hr : RunI w (writing wr x cs s k) σ h σ' (s', x', st)) :
    (∃ x1, wr.all x cs = (x1, .ok) ∧ RunI w (k x1) σ h σ' (s', x', st)) ∨ (wr.all x cs = (x', st) ∧ st ≠ .ok) := by
  unfold writing at hr
  split at hr
  · rename_i x1 e
    exact .inl ⟨x1, e, hr⟩
  · rename_i x1 st hne e
    have := (RunI_ret hr).1
    simp only [Prod.mk.injEq] at this
    obtain ⟨-, rfl, rfl⟩ := this
    exact .inr ⟨e, hne⟩

theorem htmlMetric_any {mv : MetricView} {s s' : Session} {a a' : W} {st : Status} {σ σ' h}
    (hr : RunI w (htmlMetric fm wr mv s a) σ h σ' (s', a', st)) :
    (∃ cs, HtmlTells w fm (InEvs h) mv cs ∧ wr.all a cs = (a', st)) ∨
    (st ≠ .ok ∧ ∃ cs, (cs = [] ∨ HtmlLead (InEvs h) mv cs) ∧ (wr.all a cs).1 = a') := by
  unfold htmlMetric at hr
  split at hr
  · rename_i hv
    rcases writing_any hr with ⟨a1, hw, hr⟩ | ⟨hw, hn⟩
    swap
    · exact .inr ⟨hn, _, .inr (.dist hv rfl), by simp only [PageItem.html]; exact congrArg Prod.fst hw⟩
    have hlead : st ≠ .ok → a1 = a' → st ≠ .ok ∧ ∃ cs, (cs = [] ∨ HtmlLead (InEvs h) mv cs) ∧ (wr.all a cs).1 = a' := by
      rintro hn rfl
      exact ⟨hn, _, .inr (.dist hv rfl), by simp only [PageItem.html]; exact congrArg Prod.fst hw⟩
    cases hi : mv.value.dist with
    | none =>
      rw [hi] at hr
      have := (RunI_ret hr).1
      simp only [Prod.mk.injEq] at this
      exact .inr (hlead (by rw [← this.2.2]; simp) this.2.1)
    | some i =>
      rw [hi] at hr
      obtain ⟨h1, s1, h2, rfl, r1, r2⟩ := RunI_op hr
      cases hx : (exec w (.snapshot i) s1).2 with
      | none =>
        rw [hx] at r2
        have := (RunI_ret r2).1
        simp only [Prod.mk.injEq] at this
        exact .inr (hlead (by rw [← this.2.2]; simp) this.2.1)
      | some v =>
        rw [hx] at r2
        have he := (RunI_ret r2).1
        simp only [Prod.mk.injEq] at he
        change (match s1.dists[i]? with
          | none => none
          | some d => d.snapshot.map fun x => (⟨x, d.groupId⟩ : DistView)) = some v at hx
        cases hd : s1.dists[i]? with
        | none => rw [hd] at hx; cases hx
        | some d =>
          rw [hd] at hx
          cases hsn : d.snapshot with
          | none => simp only [hsn] at hx; cases hx
          | some sn =>
            simp only [hsn, Option.map_some, Option.some.injEq] at hx
            subst hx
            refine .inl ⟨_, .dist hv hi ⟨⟨true, .snapshot i, s1⟩, by simp, rfl⟩ hd hsn rfl, ?_⟩
            have := all_then hw he.2
            simpa [PageItem.html] using this
  · rename_i hv
    split at hr
    · rename_i hv2
      cases hi : mv.value.alist with
      | none =>
        rw [hi] at hr
        have := (RunI_ret hr).1
        simp only [Prod.mk.injEq] at this
        obtain ⟨-, e1, rfl⟩ := this
        exact .inr ⟨by simp, _, .inr (.noList hv2 hi rfl), by rw [← e1]; rfl⟩
      | some i =>
        rw [hi] at hr
        obtain ⟨h1, s1, h2, rfl, r1, r2⟩ := RunI_op hr
        cases hx : (exec w (.getList i) s1).2 with
        | none =>
          rw [hx] at r2
          have := (RunI_ret r2).1
          simp only [Prod.mk.injEq] at this
          obtain ⟨-, rfl, rfl⟩ := this
          exact .inr ⟨by simp, [], .inl rfl, rfl⟩
        | some lv =>
          rw [hx] at r2
          have hin : InEvs (h1 ++ ⟨true, .getList i, s1⟩ :: h2) s1 := ⟨⟨true, .getList i, s1⟩, by simp, rfl⟩
          rcases writing_any r2 with ⟨a1, hw, r2⟩ | ⟨hw, hn⟩
          swap
          · exact .inr ⟨hn, _, .inr (.list hv2 hi hin hx rfl), by
              simp only [PageItem.html]; exact congrArg Prod.fst hw⟩
          have hlead : st ≠ .ok → a1 = a' → st ≠ .ok ∧
              ∃ cs, (cs = [] ∨ HtmlLead (InEvs (h1 ++ ⟨true, .getList i, s1⟩ :: h2)) mv cs) ∧ (wr.all a cs).1 = a' := by
            rintro hn rfl
            exact ⟨hn, _, .inr (.list hv2 hi hin hx rfl), by simp only [PageItem.html]; exact congrArg Prod.fst hw⟩
          obtain ⟨h3, s3, h4, rfl, r3, r4⟩ := RunI_op r2
          cases hy : (exec w (.getList i) s3).2 with
          | none =>
            rw [hy] at r4
            have := (RunI_ret r4).1
            simp only [Prod.mk.injEq] at this
            exact .inr (hlead (by rw [← this.2.2]; simp) this.2.1)
          | some lv' =>
            rw [hy] at r4
            simp only at r4
            cases hren : renderAll (fun d => valueToHtmlString fm d lv'.subType mv.value.unit false) (elemsOf lv'.val) with
            | none =>
              rw [hren] at r4
              have := (RunI_ret r4).1
              simp only [Prod.mk.injEq] at this
              exact .inr (hlead (by rw [← this.2.2]; simp) this.2.1)
            | some xs =>
              rw [hren] at r4
              have he := (RunI_ret r4).1
              simp only [Prod.mk.injEq] at he
              refine .inl ⟨_, .list hv2 hi hin hx ⟨⟨true, .getList i, s3⟩, by simp, rfl⟩ hy
                (renderAll_forall hren) rfl, ?_⟩
              have := all_then hw he.2
              simpa [PageItem.html] using this
    · rename_i hv2
      rcases writing_any hr with ⟨a1, hw, hr⟩ | ⟨hw, hn⟩
      swap
      · exact .inr ⟨hn, _, .inr (.scalar ⟨hv, hv2⟩ rfl), by simp only [PageItem.html]; exact congrArg Prod.fst hw⟩
      obtain ⟨h1, s1, x, h2, rfl, r1, r2⟩ := RunI_bind hr
      obtain ⟨so, ox⟩ := x
      cases ox with
      | panic =>
        have := (RunI_ret r2).1
        simp only [Prod.mk.injEq] at this
        obtain ⟨-, rfl, rfl⟩ := this
        exact .inr ⟨by simp, _, .inr (.scalar ⟨hv, hv2⟩ rfl), by simp only [PageItem.html]; exact congrArg Prod.fst hw⟩
      | ok x =>
        have he := (RunI_ret r2).1
        simp only [Prod.mk.injEq] at he
        unfold asHtmlString at r1
        cases hsrc : mv.value.src with
        | none => rw [hsrc] at r1; cases (RunI_ret r1).1
        | some sc0 =>
          rw [hsrc] at r1
          obtain ⟨sc, d, b1, ⟨e, he1, -, b2⟩, b3⟩ := readAs_any r1
          refine .inl ⟨_, .scalar ⟨hv, hv2⟩ b1 ⟨e, by simp [he1], rfl⟩ b2 b3 rfl, ?_⟩
          have := all_then hw he.2
          simpa [PageItem.html] using this

theorem htmlEntry_any {S : State → Prop} {T : Tree MValue} (hT : IsTree T)
    (hS : ∀ τ, S τ → IsTree τ.tree ∧ Ext τ.tree T) {τ : State} (hτ : S τ) {d : ℕ} {q : List Str} (hd : SeenDir S 0 q d)
    {e : ℕ} {en : Entry} (hc : Child τ.tree d en.name e) (he : τ.tree.entries[e]? = some en) {s s' : Session} {a a' : W}
    {st : Status} {σ σ' h} (hx : Ext τ.tree σ.tree) (hr : RunI w (htmlEntry fm wr en s a) σ h σ' (s', a', st))
    (hh : ∀ e ∈ h, S e.pre) : h ≠ [] ∧
    ((∃ cs, HtmlRow w fm (InEvs h) q en.name (holds en) cs ∧ wr.all a cs = (a', st)) ∨
    (st ≠ .ok ∧ ∃ cs, HtmlLast w fm (InEvs h) q en.name (holds en) cs ∧ (wr.all a cs).1 = a')) := by
  have ht := (hS τ hτ).1
  rcases ht.entry e en he with ⟨m, mo, a1, a2, _⟩ | ⟨d', a1, a2, _⟩
  · unfold htmlEntry at hr
    rw [a1, a2] at hr
    obtain ⟨h1, s1, h2, rfl, r1, r2⟩ := RunI_op hr
    refine ⟨by simp, ?_⟩
    have hs1 : S s1 := hh ⟨true, .metric m, s1⟩ (by simp)
    have hin : InEvs (h1 ++ ⟨true, .metric m, s1⟩ :: h2) s1 := ⟨⟨true, .metric m, s1⟩, by simp, rfl⟩
    have hsub := InEvs.mono (E := h2) (E' := h1 ++ ⟨true, .metric m, s1⟩ :: h2) (by simp +contextual)
    cases hm : (exec w (.metric m) s1).2 with
    | none =>
      rw [hm] at r2
      have := (RunI_ret r2).1
      simp only [Prod.mk.injEq] at this
      obtain ⟨-, rfl, rfl⟩ := this
      exact .inr ⟨by simp, [], .inl rfl, rfl⟩
    | some mv =>
      rw [hm] at r2
      have hpath : mv.path = lit "/" ++ List.intercalate (lit "/") (q ++ [en.name]) := by
        have hseen : Seen S 0 (q ++ [en.name]) m := hd.trans (.metric hτ (.metric hc he a1))
        obtain ⟨mv', hm', hp⟩ := trail_view hT (seen_trail hS hseen)
        have := metricView_ext (hS s1 hs1).1 hT (hS s1 hs1).2 hm
        rw [hm'] at this
        cases this
        exact hp
      have hho : holds en = .metric m := by unfold holds; rw [a1, a2]
      rw [hho]
      rcases htmlMetric_any r2 with ⟨cs, c1, c2⟩ | ⟨hn, cs, c1, c2⟩
      · exact .inl ⟨cs, ⟨mv, ⟨s1, hin, hm⟩, hpath, c1.mono hsub⟩, c2⟩
      · refine .inr ⟨hn, cs, ?_, c2⟩
        rcases c1 with rfl | c1
        · exact .inl rfl
        · exact .inr (.inr ⟨m, mv, rfl, ⟨s1, hin, hm⟩, hpath, c1.mono hsub⟩)
  · unfold htmlEntry at hr
    rw [a2] at hr
    obtain ⟨h1, s1, h2, rfl, r1, r2⟩ := RunI_op hr
    refine ⟨by simp, ?_⟩
    have hs1 : S s1 := hh ⟨true, .dirAbsPath d', s1⟩ (by simp)
    cases hm : (exec w (.dirAbsPath d') s1).2 with
    | none =>
      rw [hm] at r2
      have := (RunI_ret r2).1
      simp only [Prod.mk.injEq] at this
      obtain ⟨-, rfl, rfl⟩ := this
      exact .inr ⟨by simp, [], .inl rfl, rfl⟩
    | some p =>
      rw [hm] at r2
      have hy := (RunI_ret r2).1
      simp only [Prod.mk.injEq] at hy
      refine .inl ⟨_, ?_, hy.2⟩
      have h3 : Reaches τ.tree d [en.name] (.dir d') := (reaches_one_iff ht).mpr ⟨e, en, hc, he, a2⟩
      have hlt : d' < s1.tree.dirs.length := by
        have := (entry_dir ht he a2).2.2.1
        have h4 := (hx.trans (RunI_ext r1).2).dirs
        omega
      have := seenDir_absPath hT hS (hd.snoc hτ h3) hs1 hlt hm
      unfold holds
      rw [a2, this]
      rfl

theorem htmlEntries_any {S : State → Prop} {T : Tree MValue} (hT : IsTree T)
    (hS : ∀ τ, S τ → IsTree τ.tree ∧ Ext τ.tree T) {τ : State} (hτ : S τ) {d : ℕ} {q : List Str} (hd : SeenDir S 0 q d)
    {l : List (ℕ × Entry)} (hl : ∀ x ∈ l, Child τ.tree d x.2.name x.1 ∧ τ.tree.entries[x.1]? = some x.2) {s s' : Session} {a a' : W}
    {st : Status} {σ σ' h} (hx : Ext τ.tree σ.tree) (hr : RunI w (htmlEntries fm wr l s a) σ h σ' (s', a', st))
    (hh : ∀ e ∈ h, S e.pre) :
    ∃ (U : List ((Str × Node) × List Str)) (Es : List (List Ev)) (a2 : W), wr.all a (U.flatMap Prod.snd) = (a2, .ok) ∧
      List.Forall₂ (fun u E => E ≠ [] ∧ HtmlRow w fm (InEvs E) q u.1.1 u.1.2 u.2) U Es ∧ Es.flatten.Sublist h ∧
      ((st = .ok ∧ a2 = a' ∧ U.map Prod.fst = l.map fun x => (x.2.name, holds x.2)) ∨
       (st ≠ .ok ∧ ∃ y cs, U.map Prod.fst ++ [y] <+: l.map (fun x => (x.2.name, holds x.2)) ∧
         HtmlLast w fm (InEvs h) q y.1 y.2 cs ∧ (wr.all a2 cs).1 = a')) := by
  induction l generalizing s a σ h with
  | nil =>
    have := (RunI_ret hr).1
    simp only [Prod.mk.injEq] at this
    obtain ⟨-, rfl, rfl⟩ := this
    exact ⟨[], [], a, rfl, .nil, by simp, .inl ⟨rfl, rfl, rfl⟩⟩
  | cons x l ih =>
    obtain ⟨e, en⟩ := x
    unfold htmlEntries at hr
    obtain ⟨h1, s1, r, h2, rfl, r1, r2⟩ := RunI_bind hr
    obtain ⟨s2, a2, st2⟩ := r
    obtain ⟨hc, he⟩ := hl _ List.mem_cons_self
    obtain ⟨hne, hrow⟩ := htmlEntry_any hT hS hτ hd hc he hx r1 (fun e he => hh e (List.mem_append_left _ he))
    have hbad : st2 ≠ .ok → a2 = a' → st2 = st →
        ∃ (U : List ((Str × Node) × List Str)) (Es : List (List Ev)) (a2 : W), wr.all a (U.flatMap Prod.snd) = (a2, .ok) ∧
        List.Forall₂ (fun u E => E ≠ [] ∧ HtmlRow w fm (InEvs E) q u.1.1 u.1.2 u.2) U Es ∧ Es.flatten.Sublist (h1 ++ h2) ∧
        ((st = .ok ∧ a2 = a' ∧ U.map Prod.fst = ((e, en) :: l).map fun x => (x.2.name, holds x.2)) ∨
         (st ≠ .ok ∧ ∃ y cs, U.map Prod.fst ++ [y] <+: ((e, en) :: l).map (fun x => (x.2.name, holds x.2)) ∧
           HtmlLast w fm (InEvs (h1 ++ h2)) q y.1 y.2 cs ∧ (wr.all a2 cs).1 = a')) := by
      rintro hn rfl rfl
      have hsub := InEvs.mono (E := h1) (E' := h1 ++ h2) (by simp +contextual)
      refine ⟨[], [], a, rfl, .nil, by simp, .inr ⟨hn, (en.name, holds en), ?_⟩⟩
      rcases hrow with ⟨cs, k1, k2⟩ | ⟨-, cs, k1, k2⟩
      · exact ⟨cs, by simp, .inr (.inl (k1.mono hsub)), by rw [k2]⟩
      · exact ⟨cs, by simp, k1.mono hsub, k2⟩
    cases st2 with
    | err er =>
      have := (RunI_ret r2).1
      simp only [Prod.mk.injEq] at this
      exact hbad (by simp) this.2.1 this.2.2
    | panic =>
      have := (RunI_ret r2).1
      simp only [Prod.mk.injEq] at this
      exact hbad (by simp) this.2.1 this.2.2
    | timeout =>
      have := (RunI_ret r2).1
      simp only [Prod.mk.injEq] at this
      exact hbad (by simp) this.2.1 this.2.2
    | ok =>
      rcases hrow with ⟨cs, k1, k2⟩ | ⟨hn, -⟩
      swap
      · exact absurd rfl hn
      obtain ⟨U, Es, a3, u1, u2, u3, u4⟩ := ih (fun x hx => hl x (List.mem_cons_of_mem _ hx)) (hx.trans (RunI_ext r1).2) r2
        (fun e he => hh e (List.mem_append_right _ he))
      refine ⟨((en.name, holds en), cs) :: U, h1 :: Es, a3, ?_, .cons ⟨hne, k1⟩ u2, ?_, ?_⟩
      · rw [List.flatMap_cons]
        exact all_ok_app k2 u1
      · rw [List.flatten_cons]
        exact List.Sublist.append (.refl h1) u3
      · rcases u4 with ⟨g1, g2, g3⟩ | ⟨g1, y, cs', g2, g3, g4⟩
        · exact .inl ⟨g1, g2, by simp [g3]⟩
        · refine .inr ⟨g1, y, cs', by simpa using g2, g3.mono (InEvs.mono (by simp +contextual)), g4⟩

theorem htmlEnd_any {s s' : Session} {a a' : W} {st st' : Status} {σ h σ'} (hr : RunI w (htmlEnd wr (s, a, st)) σ h σ' (s', a', st')) :
    (st = .ok ∧ wr.all a [pageFoot] = (a', st')) ∨ (st ≠ .ok ∧ a = a' ∧ st = st') := by
  cases st with
  | ok =>
    have := (RunI_ret hr).1
    simp only [Prod.mk.injEq] at this
    exact .inl ⟨rfl, this.2⟩
  | err e => have := (RunI_ret hr).1; simp only [Prod.mk.injEq] at this; exact .inr ⟨by simp, this.2⟩
  | panic => have := (RunI_ret hr).1; simp only [Prod.mk.injEq] at this; exact .inr ⟨by simp, this.2⟩
  | timeout => have := (RunI_ret hr).1; simp only [Prod.mk.injEq] at this; exact .inr ⟨by simp, this.2⟩

/-- parts of a sorted list of moments -/
theorem intervals {X : Type} {P : X → ℕ → Prop} {Es : List (List X)} (hne : ∀ E ∈ Es, E ≠ []) {ks : List ℕ}
    (h1 : ks.Pairwise (· ≤ ·)) (h2 : List.Forall₂ P Es.flatten ks) :
    ∃ xs : List (ℕ × ℕ), xs.Pairwise (fun x y => x.2 ≤ y.1) ∧ (∀ x ∈ xs, x.1 ∈ ks) ∧
      List.Forall₂ (fun E x => x.1 ≤ x.2 ∧ x.2 ∈ ks ∧ ∀ e ∈ E, ∃ k, x.1 ≤ k ∧ k ≤ x.2 ∧ P e k) Es xs := by
  induction Es generalizing ks with
  | nil => exact ⟨[], .nil, by simp, .nil⟩
  | cons E Es ih =>
    rw [List.flatten_cons] at h2
    obtain ⟨k1, k2, f1, f2, rfl⟩ := forall₂_cut h2
    obtain ⟨g1, g2, g3⟩ := List.pairwise_append.mp h1
    obtain ⟨xs, x1, x2, x3⟩ := ih (fun E hE => hne E (List.mem_cons_of_mem _ hE)) g2 f2
    have hk : k1 ≠ [] := by
      rintro rfl
      cases f1
      exact hne [] List.mem_cons_self rfl
    have hlast : ∀ k ∈ k1, k1.head hk ≤ k ∧ k ≤ k1.getLast hk := by
      intro k hk'
      constructor
      · obtain ⟨z, t, rfl⟩ := List.exists_cons_of_ne_nil hk
        rcases List.mem_cons.mp hk' with rfl | h
        · exact le_refl _
        · exact (List.pairwise_cons.mp g1).1 k h
      · rw [← List.dropLast_append_getLast hk] at g1 hk'
        rcases List.mem_append.mp hk' with h | h
        · exact (List.pairwise_append.mp g1).2.2 k h _ (List.mem_singleton.mpr rfl)
        · rw [List.mem_singleton.mp h]
    refine ⟨(k1.head hk, k1.getLast hk) :: xs, List.pairwise_cons.mpr ⟨fun y hy => ?_, x1⟩, ?_, .cons ⟨?_, ?_, ?_⟩ ?_⟩
    · exact g3 _ (List.getLast_mem hk) _ (x2 y hy)
    · intro x hx
      rcases List.mem_cons.mp hx with rfl | hx
      · exact List.mem_append_left _ (List.head_mem hk)
      · exact List.mem_append_right _ (x2 x hx)
    · exact (hlast _ (List.head_mem hk)).2
    · exact List.mem_append_left _ (List.getLast_mem hk)
    · intro e he
      obtain ⟨k, hk1, hk2⟩ := forall₂_left f1 e he
      exact ⟨k, (hlast k hk1).1, (hlast k hk1).2, hk2⟩
    · exact x3.imp fun E x h => ⟨h.1, List.mem_append_right _ h.2.1, h.2.2⟩

theorem image_parts {c k : ℕ} {b : List (Item A)} {Es : List (List Ev)} (hne : ∀ E ∈ Es, E ≠ [])
    (h : Es.flatten.Sublist (image c k b)) :
    ∃ xs : List (ℕ × ℕ), xs.Pairwise (fun x y => x.2 ≤ y.1) ∧
      List.Forall₂ (fun E x => x.1 ≤ x.2 ∧ x.2 < b.length ∧ ∀ τ, InEvs E τ → ∃ τ' j, MomentsIn b x τ' ∧ τ = code j τ') Es xs := by
  obtain ⟨ks, h1, h2⟩ := image_order h
  obtain ⟨xs, x1, -, x3⟩ := intervals hne h1 h2
  refine ⟨xs, x1, x3.imp ?_⟩
  rintro E x ⟨g1, g2, g3⟩
  refine ⟨g1, ?_, ?_⟩
  · obtain ⟨e, -, it, j, k1, -⟩ := forall₂_left (R := fun k e => _) h2.flip _ g2
    exact (List.getElem?_eq_some_iff.mp k1).1
  · rintro τ ⟨e, he, rfl⟩
    obtain ⟨k, k1, k2, it, j, k3, k4⟩ := g3 e he
    exact ⟨it.pre, j, ⟨k, it, k1, k2, k3, rfl⟩, k4⟩

/-- the HTML page, whatever its status -/
theorem htmlEndpoint_items {s s' : State} (hs : Reachable w s) {path h} {a a' : W} {st : Status}
    (hr : RunI w (htmlEndpoint fm wr path a) s h s' (a', st)) :
    let S := fun τ => τ ∈ statesOf h s'
    (∃ d, SeenDir S 0 (newPathSpec path) d ∧ ((wr.all a [pageHead] = (a', st) ∧ st ≠ .ok) ∨
      ∃ (e0 : Ev) (R : List (Str × Node)) (U : List ((Str × Node) × List Str)) (Es : List (List Ev)) (a2 : W),
        Entries e0.pre.tree d R ∧ wr.all a (pageHead :: U.flatMap Prod.snd) = (a2, .ok) ∧
        List.Forall₂ (fun u E => E ≠ [] ∧ HtmlRow w fm (InEvs E) (newPathSpec path) u.1.1 u.1.2 u.2) U Es ∧
        ([e0] :: Es).flatten.Sublist h ∧ ((U.map Prod.fst = R ∧ wr.all a2 [pageFoot] = (a', st)) ∨
          (st ≠ .ok ∧ ∃ y cs, U.map Prod.fst ++ [y] <+: R ∧ HtmlLast w fm S (newPathSpec path) y.1 y.2 cs ∧
            (wr.all a2 cs).1 = a')))) ∨
    (∃ m, Seen S 0 (newPathSpec path) m ∧ ((wr.all a [pageHead] = (a', st) ∧ st ≠ .ok) ∨
      (∃ mv cs, (∃ σ, S σ ∧ metricView σ.tree m = some mv) ∧ HtmlTells w fm S mv cs ∧
        wr.all a (pageHead :: cs ++ [pageFoot]) = (a', st)) ∨
      (st ≠ .ok ∧ ∃ cs, (cs = [] ∨ ∃ mv, (∃ σ, S σ ∧ metricView σ.tree m = some mv) ∧ HtmlLead S mv cs) ∧
        (wr.all a (pageHead :: cs)).1 = a'))) ∨
    a' = (wr.write a (lit "Path does not exist.")).1 := by
  intro S
  have hre := (RunI_reads (htmlEndpoint_reads ..) hr hs).1
  obtain ⟨hT, hS⟩ := states_tree hr hre
  have hh : ∀ e ∈ h, S e.pre := fun e he => List.mem_append_left _ (List.mem_map.mpr ⟨e, he, rfl⟩)
  obtain ⟨h1, s1, x, h2, rfl, r1, r2⟩ := RunI_bind hr
  have hh1 : ∀ e ∈ h1, S e.pre := fun e he => hh e (by simp [he])
  have hh2 : ∀ e ∈ h2, S e.pre := fun e he => hh e (by simp [he])
  rcases lookup_seen hT hS r1 hh1 with ⟨d, rfl, a1, a2⟩ | ⟨m, rfl, a1, a2⟩ | ⟨rfl, a1⟩
  · obtain ⟨se, h3, h4, σ1, rfl, r3, hb⟩ := withSession_run r2
    have hh3 : ∀ e ∈ h3, S e.pre := fun e he => hh2 e (by simp [he])
    refine .inl ⟨d, a1, ?_⟩
    rcases writing_any r3 with ⟨y, hw, r3⟩ | hw
    swap
    · exact .inl hw
    obtain ⟨h5, τ, h6, rfl, r4, r5⟩ := RunI_op r3
    have hτ : S τ := hh3 ⟨true, .list d, τ⟩ (by simp)
    have ht := (hS τ hτ).1
    obtain ⟨h7, s7, z, h8, rfl, r7, r8⟩ := RunI_bind r5
    obtain ⟨sz, az, stz⟩ := z
    obtain ⟨U, Es, x2, u1, u2, u3, u4⟩ := htmlEntries_any hT hS hτ a1 (fun x hx => list_mem ht hx) (exec_ext _ _) r7
      (fun e he => hh3 e (by simp [he]))
    refine .inr ⟨⟨true, .list d, τ⟩, (sortEntries (exec w (.list d) τ).2).map fun x => (x.2.name, holds x.2), U, Es, x2, ⟨?_, ?_⟩, all_then (b := U.flatMap Prod.snd) hw u1, u2, ?_, ?_⟩
    · rw [List.pairwise_map]
      exact sortEntries_sorted _ (list_names (w := w) (d := d) ht)
    · intro name nd
      rw [List.mem_map]
      constructor
      · rintro ⟨x, hx, e⟩
        cases e
        obtain ⟨k1, k2⟩ := list_mem ht hx
        exact holds_reaches ht k1 k2
      · intro hre
        obtain ⟨e, en, hc, he, hh'⟩ := (reaches_one_iff ht).mp hre
        have hn := (child_entry ht hc he).1
        refine ⟨(e, en), list_complete hc he, ?_⟩
        subst hn
        rw [reaches_unique ht hre (holds_reaches ht hc he)]
    · rw [List.flatten_cons, List.singleton_append]
      refine List.Sublist.trans ?_ (List.sublist_append_right h1 _)
      refine List.Sublist.trans ?_ (List.sublist_append_left _ h4)
      refine List.Sublist.trans ?_ (List.sublist_append_right h5 _)
      exact (u3.trans (List.sublist_append_left _ _)).cons_cons _
    · rcases htmlEnd_any r8 with ⟨rfl, hf⟩ | ⟨hn, rfl, rfl⟩
      · rcases u4 with ⟨-, rfl, g⟩ | ⟨hn, -⟩
        · exact .inl ⟨g, hf⟩
        · exact absurd rfl hn
      · rcases u4 with ⟨h, -⟩ | ⟨-, y, cs, g1, g2, g3⟩
        · exact absurd h hn
        · refine .inr ⟨hn, y, cs, g1, g2.mono ?_, g3⟩
          rintro τ ⟨e, he, rfl⟩
          exact hh3 e (by simp [he])
  · obtain ⟨se, h3', h4', σ1, rfl, r3, hb⟩ := withSession_run r2
    have hh3 : ∀ e ∈ h3', S e.pre := fun e he => hh2 e (by simp [he])
    refine .inr (.inl ⟨m, a1, ?_⟩)
    rcases writing_any r3 with ⟨y, hw, r3⟩ | hw
    swap
    · exact .inl hw
    obtain ⟨h5, s3, h6, rfl, r4, r5⟩ := RunI_op r3
    have hs3 : S s3 := hh3 ⟨true, .metric m, s3⟩ (by simp)
    cases hm : (exec w (.metric m) s3).2 with
    | none =>
      rw [hm] at r5
      have := (RunI_ret r5).1
      simp only [Prod.mk.injEq] at this
      obtain ⟨-, rfl, rfl⟩ := this
      exact .inr (.inr ⟨by simp, [], .inl rfl, by rw [hw]⟩)
    | some mv =>
      rw [hm] at r5
      obtain ⟨h7, s7, z, h8, rfl, r7, r8⟩ := RunI_bind r5
      obtain ⟨sz, az, stz⟩ := z
      have hin : ∀ τ, InEvs h7 τ → S τ := by
        rintro τ ⟨e, he, rfl⟩
        exact hh3 e (by simp [he])
      rcases htmlMetric_any r7 with ⟨cs, c1, c2⟩ | ⟨hn, cs, c1, c2⟩
      · refine .inr (.inl ⟨mv, cs, ⟨s3, hs3, hm⟩, c1.mono hin, ?_⟩)
        have h9 := all_then (b := cs) hw c2
        rcases htmlEnd_any r8 with ⟨rfl, hf⟩ | ⟨hn, rfl, rfl⟩
        · exact all_then h9 hf
        · change wr.all a ((pageHead :: cs) ++ [pageFoot]) = _
          rw [all_append, show pageHead :: cs = [pageHead] ++ cs from rfl, h9]
          cases stz with
          | ok => exact absurd rfl hn
          | err e => rfl
          | panic => rfl
          | timeout => rfl
      · rcases htmlEnd_any r8 with ⟨rfl, hf⟩ | ⟨-, rfl, rfl⟩
        · exact absurd rfl hn
        · refine .inr (.inr ⟨hn, cs, ?_, ?_⟩)
          · exact c1.imp (fun h => h) fun h => ⟨mv, ⟨s3, hs3, hm⟩, h.mono hin⟩
          · have := all_then (b := cs) (r := wr.all y cs) hw rfl
            change (wr.all a ([pageHead] ++ cs)).1 = _
            rw [this, c2]
  · have := (RunI_ret r2).1
    simp only [Prod.mk.injEq] at this
    exact .inr (.inr this.1.symm)

end Tricorder.Whole
