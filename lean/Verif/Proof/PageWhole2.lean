import Verif.Proof.PageWhole
/-!
# The HTML page, with interference
-/

namespace Tricorder.Whole
open Go Spec Tree

variable {A W α : Type} {w : World} {fm : Fmts} {wr : Writer W}

theorem HtmlTells.mono {S S' : State → Prop} (h : ∀ σ, S σ → S' σ) {mv cs} (ht : HtmlTells w fm S mv cs) :
    HtmlTells w fm S' mv cs := by
  cases ht with
  | dist a b c d e f => exact .dist a b (h _ c) d e f
  | list a b c d e f g i => exact .list a b (h _ c) d (h _ e) f g i
  | scalar a b c d e f => exact .scalar a b (h _ c) d e f

theorem HtmlTells.code {S S' : State → Prop} {T : ℕ → Time} (h : ∀ τ, S τ → ∃ τ' j, S' τ' ∧ τ = code j τ') {mv cs}
    (ht : HtmlTells (timed w T) fm S mv cs) : HtmlTells w fm S' mv cs := by
  cases ht with
  | dist a b c d e f =>
    obtain ⟨τ, j, h3, rfl⟩ := h _ c
    exact .dist a b h3 d e f
  | list a b c d e f g i =>
    obtain ⟨τ, j, h3, rfl⟩ := h _ c
    obtain ⟨τ', j', h4, rfl⟩ := h _ e
    exact .list a b h3 d h4 f g i
  | scalar a b c d e f =>
    obtain ⟨τ, j, h3, rfl⟩ := h _ c
    rw [current_code] at d
    exact .scalar a b h3 d e f

theorem HtmlRow.code {S S' : State → Prop} {T : ℕ → Time} (h : ∀ τ, S τ → ∃ τ' j, S' τ' ∧ τ = code j τ') {q name nd cs}
    (ht : HtmlRow (timed w T) fm S q name nd cs) : HtmlRow w fm S' q name nd cs := by
  cases nd with
  | dir d => exact ht
  | metric m =>
    obtain ⟨mv, ⟨σ, hσ, hm⟩, h2, h3⟩ := ht
    obtain ⟨τ, j, h4, rfl⟩ := h _ hσ
    exact ⟨mv, ⟨τ, h4, hm⟩, h2, h3.code h⟩

theorem writing_ok {x x' : W} {cs : List Str} {s s' : Session} {k : W → Prog (Session × W × Status)} {σ h σ'}
    (hr : RunI w (writing wr x cs s k) σ h σ' (s', x', .ok)) :
    ∃ x1, wr.all x cs = (x1, .ok) ∧ RunI w (k x1) σ h σ' (s', x', .ok) := by
  unfold writing at hr
  split at hr
  · rename_i x1 e
    exact ⟨x1, e, hr⟩
  · rename_i x1 st hne e
    have := (RunI_ret hr).1
    simp only [Prod.mk.injEq] at this
    exact absurd this.2.2 hne

theorem htmlMetric_tells {mv : MetricView} {s s' : Session} {a a' : W} {σ σ' h}
    (hr : RunI w (htmlMetric fm wr mv s a) σ h σ' (s', a', .ok)) :
    ∃ cs, HtmlTells w fm (fun τ => ∃ e ∈ h, e.pre = τ) mv cs ∧ wr.all a cs = (a', .ok) := by
  unfold htmlMetric at hr
  split at hr
  · rename_i hv
    obtain ⟨a1, hw, hr⟩ := writing_ok hr
    cases hi : mv.value.dist with
    | none => rw [hi] at hr; cases (RunI_ret hr).1
    | some i =>
      rw [hi] at hr
      obtain ⟨h1, s1, h2, rfl, r1, r2⟩ := RunI_op hr
      cases hx : (exec w (.snapshot i) s1).2 with
      | none => rw [hx] at r2; cases (RunI_ret r2).1
      | some v =>
        rw [hx] at r2
        have he := (RunI_ret r2).1
        simp only [Prod.mk.injEq] at he
        change (match s1.dists[i]? with
          | none => none
          | some d => d.snapshot.map fun x => (⟨x, d.groupId⟩ : DistView)) = some v at hx
        cases hd : s1.dists[i]? with
        | none => rw [hd] at hx; cases hx
        | some d =>
          rw [hd] at hx
          cases hsn : d.snapshot with
          | none => simp only [hsn] at hx; cases hx
          | some sn =>
            simp only [hsn, Option.map_some, Option.some.injEq] at hx
            subst hx
            refine ⟨_, .dist hv hi ⟨⟨true, .snapshot i, s1⟩, by simp, rfl⟩ hd hsn rfl, ?_⟩
            have := all_ok_app hw he.2
            simpa [PageItem.html] using this
  · rename_i hv
    split at hr
    · rename_i hv2
      cases hi : mv.value.alist with
      | none => rw [hi] at hr; cases (RunI_ret hr).1
      | some i =>
        rw [hi] at hr
        obtain ⟨h1, s1, h2, rfl, r1, r2⟩ := RunI_op hr
        cases hx : (exec w (.getList i) s1).2 with
        | none => rw [hx] at r2; cases (RunI_ret r2).1
        | some lv =>
          rw [hx] at r2
          obtain ⟨a1, hw, r2⟩ := writing_ok r2
          obtain ⟨h3, s3, h4, rfl, r3, r4⟩ := RunI_op r2
          cases hy : (exec w (.getList i) s3).2 with
          | none => rw [hy] at r4; cases (RunI_ret r4).1
          | some lv' =>
            rw [hy] at r4
            simp only at r4
            cases hren : renderAll (fun d => valueToHtmlString fm d lv'.subType mv.value.unit false) (elemsOf lv'.val) with
            | none => rw [hren] at r4; cases (RunI_ret r4).1
            | some xs =>
              rw [hren] at r4
              have he := (RunI_ret r4).1
              simp only [Prod.mk.injEq] at he
              refine ⟨_, .list hv2 hi ⟨⟨true, .getList i, s1⟩, by simp, rfl⟩ hx ⟨⟨true, .getList i, s3⟩, by simp, rfl⟩ hy
                (renderAll_forall hren) rfl, ?_⟩
              have := all_ok_app hw he.2
              simpa [PageItem.html] using this
    · rename_i hv2
      obtain ⟨a1, hw, hr⟩ := writing_ok hr
      obtain ⟨h1, s1, x, h2, rfl, r1, r2⟩ := RunI_bind hr
      obtain ⟨so, ox⟩ := x
      cases ox with
      | panic => cases (RunI_ret r2).1
      | ok x =>
        have he := (RunI_ret r2).1
        simp only [Prod.mk.injEq] at he
        unfold asHtmlString at r1
        cases hsrc : mv.value.src with
        | none => rw [hsrc] at r1; cases (RunI_ret r1).1
        | some sc0 =>
          rw [hsrc] at r1
          obtain ⟨sc, d, b1, ⟨e, he1, -, b2⟩, b3⟩ := readAs_any r1
          refine ⟨_, .scalar ⟨hv, hv2⟩ b1 ⟨e, by simp [he1], rfl⟩ b2 b3 rfl, ?_⟩
          have := all_ok_app hw he.2
          simpa [PageItem.html] using this

theorem seenDir_pathUp {S : State → Prop} {T : Tree MValue} (hT : IsTree T)
    (hS : ∀ τ, S τ → IsTree τ.tree ∧ Ext τ.tree T) {d p d'} (h : SeenDir S d p d') {fuel names c}
    (hn : T.pathUp none fuel (T.enclosing d) = some (names, c)) :
    T.pathUp none (fuel + p.length) (T.enclosing d') = some (p.reverse ++ names, c) := by
  induction h generalizing fuel names with
  | here => simpa using hn
  | @dir d name d1 p d2 σ hs hr _ ih =>
    obtain ⟨e, en, hc, he, hh⟩ := (reaches_one_iff (hS _ hs).1).mp hr
    have hl := (linked_of_child (hS _ hs).1 hc he).ext (hS _ hs).2
    have := pathUp_step hl.1 (fuel := fuel) (names := names) (c := c) (by rw [hl.2.2.1]; exact hn)
    rw [hl.2.1, ← (entry_dir hT hl.1 hh).2.2.2] at this
    have := ih this
    rw [List.length_cons, List.reverse_cons, List.append_assoc, show fuel + (p.length + 1) = fuel + 1 + p.length by omega]
    exact this

theorem seenDir_absPath {S : State → Prop} {T : Tree MValue} (hT : IsTree T)
    (hS : ∀ τ, S τ → IsTree τ.tree ∧ Ext τ.tree T) {p d'} (h : SeenDir S 0 p d') {τ : State} (hτ : S τ)
    (hd : d' < τ.tree.dirs.length) {x : Str} (hx : τ.tree.dirAbsPath d' = some x) : x = 47 :: List.intercalate [47] p := by
  have h1 := seenDir_pathUp hT hS h (pathUp_root hT)
  unfold dirAbsPath absPath pathFrom at hx
  rw [(hS τ hτ).1.root] at hx
  cases hu : τ.tree.pathUp none (τ.tree.entries.length + 1) (τ.tree.enclosing d') with
  | none => rw [hu] at hx; cases hx
  | some y =>
    rw [hu] at hx
    have h2 := pathUp_ext (hS τ hτ).2 hu
    rw [← (hS τ hτ).2.encl _ hd] at h2
    have := pathUp_det h1 h2
    subst this
    simp [pathString, joinByte_eq] at hx
    exact hx.symm

/-- what an entry holds -/
def holds (en : Entry) : Node :=
  match en.dir, en.metric with
  | some d, _ => .dir d
  | none, some m => .metric m
  | none, none => .dir 0

theorem holds_reaches {t : Tree MValue} (ht : IsTree t) {d e : ℕ} {en : Entry} (hc : Child t d en.name e)
    (he : t.entries[e]? = some en) : Reaches t d [en.name] (holds en) := by
  rcases ht.entry e en he with ⟨m, mo, a1, a2, _⟩ | ⟨x, a1, a2, _⟩
  · unfold holds
    rw [a1, a2]
    exact .metric hc he a1
  · unfold holds
    rw [a2]
    exact (reaches_one_iff ht).mpr ⟨e, en, hc, he, a2⟩

theorem htmlEntry_row {S : State → Prop} {T : Tree MValue} (hT : IsTree T)
    (hS : ∀ τ, S τ → IsTree τ.tree ∧ Ext τ.tree T) {τ : State} (hτ : S τ) {d : ℕ} {q : List Str} (hd : SeenDir S 0 q d)
    {e : ℕ} {en : Entry} (hc : Child τ.tree d en.name e) (he : τ.tree.entries[e]? = some en) {s s' : Session} {a a' : W} {σ σ' h}
    (hx : Ext τ.tree σ.tree) (hr : RunI w (htmlEntry fm wr en s a) σ h σ' (s', a', .ok)) (hh : ∀ e ∈ h, S e.pre) :
    ∃ cs, HtmlRow w fm S q en.name (holds en) cs ∧ wr.all a cs = (a', .ok) := by
  have ht := (hS τ hτ).1
  rcases ht.entry e en he with ⟨m, mo, a1, a2, _⟩ | ⟨d', a1, a2, _⟩
  · unfold htmlEntry at hr
    rw [a1, a2] at hr
    obtain ⟨h1, s1, h2, rfl, r1, r2⟩ := RunI_op hr
    have hs1 : S s1 := hh ⟨true, .metric m, s1⟩ (by simp)
    cases hm : (exec w (.metric m) s1).2 with
    | none => rw [hm] at r2; cases (RunI_ret r2).1
    | some mv =>
      rw [hm] at r2
      obtain ⟨cs, c1, c2⟩ := htmlMetric_tells r2
      refine ⟨cs, ?_, c2⟩
      unfold holds
      rw [a1, a2]
      refine ⟨mv, ⟨s1, hs1, hm⟩, ?_, c1.mono ?_⟩
      · have hseen : Seen S 0 (q ++ [en.name]) m := hd.trans (.metric hτ (.metric hc he a1))
        obtain ⟨mv', hm', hp⟩ := trail_view hT (seen_trail hS hseen)
        have := metricView_ext (hS s1 hs1).1 hT (hS s1 hs1).2 hm
        rw [hm'] at this
        cases this
        exact hp
      · rintro τ ⟨e, he, rfl⟩
        exact hh e (by simp [he])
  · unfold htmlEntry at hr
    rw [a2] at hr
    obtain ⟨h1, s1, h2, rfl, r1, r2⟩ := RunI_op hr
    have hs1 : S s1 := hh ⟨true, .dirAbsPath d', s1⟩ (by simp)
    cases hm : (exec w (.dirAbsPath d') s1).2 with
    | none => rw [hm] at r2; cases (RunI_ret r2).1
    | some p =>
      rw [hm] at r2
      have hy := (RunI_ret r2).1
      simp only [Prod.mk.injEq] at hy
      refine ⟨_, ?_, hy.2⟩
      have h3 : Reaches τ.tree d [en.name] (.dir d') := (reaches_one_iff ht).mpr ⟨e, en, hc, he, a2⟩
      have hlt : d' < s1.tree.dirs.length := by
        have := (entry_dir ht he a2).2.2.1
        have h4 := (hx.trans (RunI_ext r1).2).dirs
        omega
      have := seenDir_absPath hT hS (hd.snoc hτ h3) hs1 hlt hm
      unfold holds
      rw [a2, this]
      rfl

theorem htmlEntries_rows {S : State → Prop} {T : Tree MValue} (hT : IsTree T)
    (hS : ∀ τ, S τ → IsTree τ.tree ∧ Ext τ.tree T) {τ : State} (hτ : S τ) {d : ℕ} {q : List Str} (hd : SeenDir S 0 q d)
    {l : List (ℕ × Entry)} (hl : ∀ x ∈ l, Child τ.tree d x.2.name x.1 ∧ τ.tree.entries[x.1]? = some x.2) {s s' : Session} {a a' : W}
    {σ σ' h} (hx : Ext τ.tree σ.tree) (hr : RunI w (htmlEntries fm wr l s a) σ h σ' (s', a', .ok)) (hh : ∀ e ∈ h, S e.pre) :
    ∃ U : List ((Str × Node) × List Str), wr.all a (U.flatMap Prod.snd) = (a', .ok) ∧
      U.map Prod.fst = l.map (fun x => (x.2.name, holds x.2)) ∧ ∀ u ∈ U, HtmlRow w fm S q u.1.1 u.1.2 u.2 := by
  induction l generalizing s a σ h with
  | nil =>
    have := (RunI_ret hr).1
    simp only [Prod.mk.injEq] at this
    obtain ⟨-, rfl, -⟩ := this
    exact ⟨[], rfl, rfl, by simp⟩
  | cons x l ih =>
    obtain ⟨e, en⟩ := x
    unfold htmlEntries at hr
    obtain ⟨h1, s1, r, h2, rfl, r1, r2⟩ := RunI_bind hr
    obtain ⟨s2, a2, st2⟩ := r
    obtain ⟨hc, he⟩ := hl _ List.mem_cons_self
    cases st2 with
    | err er => cases (RunI_ret r2).1
    | panic => cases (RunI_ret r2).1
    | timeout => cases (RunI_ret r2).1
    | ok =>
      obtain ⟨cs, k1, k2⟩ := htmlEntry_row hT hS hτ hd hc he hx r1 (fun e he => hh e (List.mem_append_left _ he))
      obtain ⟨U, u1, u2, u3⟩ := ih (fun x hx => hl x (List.mem_cons_of_mem _ hx)) (hx.trans (RunI_ext r1).2) r2
        (fun e he => hh e (List.mem_append_right _ he))
      refine ⟨((en.name, holds en), cs) :: U, ?_, by simp [u2], ?_⟩
      · rw [List.flatMap_cons]
        exact all_ok_app k2 u1
      · intro u hu
        rcases List.mem_cons.mp hu with rfl | hu
        · exact k1
        · exact u3 u hu

theorem htmlEnd_ok {s s' : Session} {a a' : W} {st : Status} {σ h σ'} (hr : RunI w (htmlEnd wr (s, a, st)) σ h σ' (s', a', .ok)) :
    st = .ok ∧ wr.all a [pageFoot] = (a', .ok) := by
  cases st with
  | ok =>
    have := (RunI_ret hr).1
    simp only [Prod.mk.injEq] at this
    exact ⟨rfl, this.2⟩
  | err e => cases (RunI_ret hr).1
  | panic => cases (RunI_ret hr).1
  | timeout => cases (RunI_ret hr).1

/-- the HTML page -/
theorem htmlEndpoint_run {s s' : State} (hs : Reachable w s) {path h} {a a' : W}
    (hr : RunI w (htmlEndpoint fm wr path a) s h s' (a', .ok)) :
    let S := fun τ => τ ∈ statesOf h s'
    (∃ d, SeenDir S 0 (newPathSpec path) d ∧ (∀ p m, Stable S 0 (newPathSpec path ++ p) m → Stable S d p m) ∧
      ∃ σ, S σ ∧ ∃ U : List ((Str × Node) × List Str),
      wr.all a (pageHead :: U.flatMap Prod.snd ++ [pageFoot]) = (a', .ok) ∧ U.Pairwise (fun x y => x.1.1 < y.1.1) ∧
      (∀ name nd, (∃ cs, ((name, nd), cs) ∈ U) ↔ Reaches σ.tree d [name] nd) ∧
      ∀ u ∈ U, HtmlRow w fm S (newPathSpec path) u.1.1 u.1.2 u.2) ∨
    (∃ m mv cs, Seen S 0 (newPathSpec path) m ∧ (∃ σ, S σ ∧ metricView σ.tree m = some mv) ∧ HtmlTells w fm S mv cs ∧
      wr.all a (pageHead :: cs ++ [pageFoot]) = (a', .ok) ∧
      ∀ p m', newPathSpec path <+: p → Stable S 0 p m' → p = newPathSpec path ∧ m' = m) ∨
    (a' = (wr.write a (lit "Path does not exist.")).1 ∧ ∀ p m, newPathSpec path <+: p → ¬ Stable S 0 p m) := by
  intro S
  have hre := (RunI_reads (htmlEndpoint_reads ..) hr hs).1
  obtain ⟨hT, hS⟩ := states_tree hr hre
  have hh : ∀ e ∈ h, S e.pre := fun e he => List.mem_append_left _ (List.mem_map.mpr ⟨e, he, rfl⟩)
  obtain ⟨h1, s1, x, h2, rfl, r1, r2⟩ := RunI_bind hr
  have hh1 : ∀ e ∈ h1, S e.pre := fun e he => hh e (by simp [he])
  have hh2 : ∀ e ∈ h2, S e.pre := fun e he => hh e (by simp [he])
  rcases lookup_seen hT hS r1 hh1 with ⟨d, rfl, a1, a2⟩ | ⟨m, rfl, a1, a2⟩ | ⟨rfl, a1⟩
  · obtain ⟨se, h3, h4, σ1, rfl, r3, hb⟩ := withSession_run r2
    have hh3 : ∀ e ∈ h3, S e.pre := fun e he => hh2 e (by simp [he])
    obtain ⟨y, hw, r3⟩ := writing_ok r3
    obtain ⟨h5, τ, h6, rfl, r4, r5⟩ := RunI_op r3
    have hτ : S τ := hh3 ⟨true, .list d, τ⟩ (by simp)
    have ht := (hS τ hτ).1
    obtain ⟨h7, s7, z, h8, rfl, r7, r8⟩ := RunI_bind r5
    obtain ⟨sz, az, stz⟩ := z
    obtain ⟨rfl, hfoot⟩ := htmlEnd_ok r8
    obtain ⟨U, u1, u2, u3⟩ := htmlEntries_rows hT hS hτ a1 (fun x hx => list_mem ht hx) (exec_ext _ _) r7
      (fun e he => hh3 e (by simp [he]))
    refine .inl ⟨d, a1, a2, τ, hτ, U, ?_, ?_, ?_, u3⟩
    · have := all_ok_app (all_ok_app hw u1) hfoot
      simpa using this
    · have h9 := sortEntries_sorted _ (list_names (w := w) (d := d) ht)
      have : (U.map Prod.fst).Pairwise (fun x y => x.1 < y.1) := by
        rw [u2, List.pairwise_map]
        exact h9
      rwa [List.pairwise_map] at this
    · intro name nd
      have hU : (∃ cs, ((name, nd), cs) ∈ U) ↔ (name, nd) ∈ U.map Prod.fst := by simp
      rw [hU, u2, List.mem_map]
      constructor
      · rintro ⟨x, hx, e⟩
        cases e
        obtain ⟨k1, k2⟩ := list_mem ht hx
        exact holds_reaches ht k1 k2
      · intro hre
        obtain ⟨e, en, hc, he, hh'⟩ := (reaches_one_iff ht).mp hre
        have hn := (child_entry ht hc he).1
        refine ⟨(e, en), list_complete hc he, ?_⟩
        subst hn
        rw [reaches_unique ht hre (holds_reaches ht hc he)]
  · obtain ⟨se, h3', h4', σ1, rfl, r3, hb⟩ := withSession_run r2
    have hh3 : ∀ e ∈ h3', S e.pre := fun e he => hh2 e (by simp [he])
    obtain ⟨y, hw, r3⟩ := writing_ok r3
    obtain ⟨h5, s3, h6, rfl, r4, r5⟩ := RunI_op r3
    have hs3 : S s3 := hh3 ⟨true, .metric m, s3⟩ (by simp)
    cases hm : (exec w (.metric m) s3).2 with
    | none =>
      rw [hm] at r5
      cases (RunI_ret r5).1
    | some mv =>
      rw [hm] at r5
      obtain ⟨h7, s7, z, h8, rfl, r7, r8⟩ := RunI_bind r5
      obtain ⟨sz, az, stz⟩ := z
      obtain ⟨rfl, hfoot⟩ := htmlEnd_ok r8
      obtain ⟨cs, c1, c2⟩ := htmlMetric_tells r7
      refine Or.inr (Or.inl ⟨m, mv, cs, a1, ⟨s3, hs3, hm⟩, c1.mono ?_, ?_, ?_⟩)
      · rintro τ ⟨e, he, rfl⟩
        exact hh3 e (by simp [he])
      · have := all_ok_app (all_ok_app hw c2) hfoot
        simpa using this
      · rintro p m' ⟨q, rfl⟩ hst
        obtain ⟨rfl, rfl⟩ := a2 q m' hst
        exact ⟨by simp, rfl⟩
  · have := (RunI_ret r2).1
    simp only [Prod.mk.injEq] at this
    refine Or.inr (Or.inr ⟨this.1.symm, ?_⟩)
    rintro p m ⟨q, rfl⟩ hst
    exact a1 q m hst

end Tricorder.Whole
