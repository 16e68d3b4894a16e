import Verif.Proof.ReadNow
import Verif.Proof.Path
/-!
# The canonical order
-/

namespace Tricorder
open Go Spec Tree

variable {A α : Type} {w : World} {s : State}

theorem pathLe_total (a b : List Str) : a ≤ b ∨ b ≤ a := List.le_total a b

/-- two strictly sorted lists with the same elements are equal -/
theorem strict_unique {L L' : List (List Str × ℕ)} (h1 : L.Pairwise fun x y => x.1 < y.1)
    (h2 : L'.Pairwise fun x y => x.1 < y.1) (h : ∀ x, x ∈ L ↔ x ∈ L') : L = L' := by
  have nd : ∀ {L : List (List Str × ℕ)}, (L.Pairwise fun x y => x.1 < y.1) → L.Nodup := by
    intro L hL
    refine hL.imp ?_
    rintro a b hab rfl
    exact List.lt_irrefl _ hab
  refine List.Perm.eq_of_pairwise (le := fun x y => x.1 < y.1) ?_ h1 h2
    ((List.perm_ext_iff_of_nodup (nd h1) (nd h2)).mpr h)
  intro a b _ _ h4 h5
  exact absurd (List.lt_trans h4 h5) (List.lt_irrefl _)

theorem canonical_unique {t : Tree MValue} {c L L'} (h : Canonical t c L) (h' : Canonical t c L') : L = L' :=
  strict_unique h.sorted h'.sorted fun x => (h.complete x.1 x.2).trans (h'.complete x.1 x.2).symm

theorem path_of_metric {t : Tree MValue} (ht : IsTree t) {p q m} (h1 : Reaches t 0 p (.metric m))
    (h2 : Reaches t 0 q (.metric m)) : p = q := by
  obtain ⟨mo, a1, a2⟩ := absPath_metric ht h1
  obtain ⟨mo', b1, b2⟩ := absPath_metric ht h2
  rw [a1] at b1
  cases b1
  rw [a2] at b2
  exact Option.some.inj b2

open Classical in
theorem canonical_exists {t : Tree MValue} (ht : IsTree t) (c : List Str) : ∃ L, Canonical t c L := by
  let P : ℕ → Prop := fun m => ∃ p, c <+: p ∧ Reaches t 0 p (.metric m)
  let f : ℕ → Option (List Str × ℕ) := fun m => if h : P m then some (h.choose, m) else none
  let L0 := (List.range t.metrics.length).filterMap f
  have mem0 : ∀ p m, (p, m) ∈ L0 ↔ c <+: p ∧ Reaches t 0 p (.metric m) := by
    intro p m
    constructor
    · intro hm
      obtain ⟨m', h1, h2⟩ := List.mem_filterMap.mp hm
      by_cases hp : P m'
      · have : f m' = some (hp.choose, m') := dif_pos hp
        rw [this] at h2
        cases h2
        exact hp.choose_spec
      · have : f m' = none := dif_neg hp
        rw [this] at h2
        cases h2
    · rintro ⟨h1, h2⟩
      have hp : P m := ⟨p, h1, h2⟩
      refine List.mem_filterMap.mpr ⟨m, ?_, ?_⟩
      · obtain ⟨mo, a1, -⟩ := absPath_metric ht h2
        exact List.mem_range.mpr (List.getElem?_eq_some_iff.mp a1).1
      · have : f m = some (hp.choose, m) := dif_pos hp
        rw [this, path_of_metric ht hp.choose_spec.2 h2]
  have nd0 : L0.Nodup := by
    refine List.Nodup.filterMap ?_ List.nodup_range
    intro a a' b h1 h2
    have x : ∀ {a}, b ∈ f a → b.2 = a := by
      intro a h
      by_cases hp : P a
      · have : f a = some (hp.choose, a) := dif_pos hp
        rw [this] at h; cases h; rfl
      · have : f a = none := dif_neg hp
        rw [this] at h; cases h
    exact (x h1).symm.trans (x h2)
  let le : List Str × ℕ → List Str × ℕ → Bool := fun x y => decide (x.1 ≤ y.1)
  refine ⟨L0.mergeSort le, fun p m => (List.mem_mergeSort).trans (mem0 p m), ?_⟩
  have h1 : (L0.mergeSort le).Pairwise fun x y => le x y = true := by
    refine List.pairwise_mergeSort ?_ ?_ _
    · intro a b c h1 h2
      exact decide_eq_true (List.le_trans (of_decide_eq_true h1) (of_decide_eq_true h2))
    · intro a b
      rcases pathLe_total a.1 b.1 with h | h
      · simp [le, h]
      · simp [le, h]
  have h2 : (L0.mergeSort le).Nodup := (List.mergeSort_perm _ _).nodup_iff.mpr nd0
  refine (h1.and h2).imp_of_mem ?_
  rintro ⟨p, m⟩ ⟨q, m'⟩ hx hy ⟨h3, h4⟩
  have h5 : p ≤ q := of_decide_eq_true h3
  have h6 := (mem0 p m).mp (List.mem_mergeSort.mp hx)
  have h7 := (mem0 q m').mp (List.mem_mergeSort.mp hy)
  by_contra h8
  have h9 : p = q := List.le_antisymm h5 (List.not_lt.mp h8)
  subst h9
  cases reaches_unique ht h6.2 h7.2
  exact h4 rfl

/-- a strictly sorted sublist whose missing elements are all larger is a prefix -/
theorem prefix_of_sorted {L V : List (List Str × ℕ)} (hL : L.Pairwise fun x y => x.1 < y.1)
    (hV : V.Pairwise fun x y => x.1 < y.1) (hsub : ∀ x ∈ V, x ∈ L)
    (hrest : ∀ x ∈ L, x ∈ V ∨ ∀ y ∈ V, y.1 < x.1) : V <+: L := by
  induction L generalizing V with
  | nil =>
    cases V with
    | nil => exact List.nil_prefix
    | cons v V => exact absurd (hsub v List.mem_cons_self) List.not_mem_nil
  | cons x L ih =>
    cases V with
    | nil => exact List.nil_prefix
    | cons v V =>
      have hxv : x = v := by
        rcases List.mem_cons.mp (hsub v List.mem_cons_self) with h | h
        · exact h.symm
        · have h1 : x.1 < v.1 := List.rel_of_pairwise_cons hL h
          rcases hrest x List.mem_cons_self with h2 | h2
          · rcases List.mem_cons.mp h2 with h3 | h3
            · rw [h3] at h1; exact absurd h1 (List.lt_irrefl _)
            · have := List.rel_of_pairwise_cons hV h3
              exact absurd (List.lt_trans h1 this) (List.lt_irrefl _)
          · exact absurd (List.lt_trans h1 (h2 v List.mem_cons_self)) (List.lt_irrefl _)
      subst hxv
      rw [List.cons_prefix_cons]
      refine ⟨rfl, ih hL.of_cons hV.of_cons ?_ ?_⟩
      · intro y hy
        rcases List.mem_cons.mp (hsub y (List.mem_cons_of_mem _ hy)) with h | h
        · have := List.rel_of_pairwise_cons hV hy
          rw [h] at this
          exact absurd this (List.lt_irrefl _)
        · exact h
      · intro y hy
        rcases hrest y (List.mem_cons_of_mem _ hy) with h | h
        · rcases List.mem_cons.mp h with h | h
          · have := List.rel_of_pairwise_cons hL hy
            rw [h] at this
            exact absurd this (List.lt_irrefl _)
          · exact Or.inl h
        · exact Or.inr fun z hz => h z (List.mem_cons_of_mem _ hz)

/-- with only one state, seen means present -/
theorem seen_now {S : State → Prop} (hS : ∀ τ, S τ → τ = s) {d p m} (h : Seen S d p m) :
    Reaches s.tree d p (.metric m) := by
  induction h with
  | metric hs hr => rw [hS _ hs] at hr; exact hr
  | dir hs hr _ ih => rw [hS _ hs] at hr; exact reaches_trans hr ih

/-- what a listing visits when nothing else happens -/
theorem listing_now (hs : Reachable w s) {coll : Coll A} {S : State → Prop} (hS : ∀ τ, S τ → τ = s)
    {H c a a' st V L} (hl : Listing w coll S H c a a' st V) (hL : Canonical s.tree c L) :
    V <+: L ∧ (st = .ok → V = L) := by
  have hsub : ∀ x ∈ V, x ∈ L := by
    intro x hx
    obtain ⟨h1, h2⟩ := hl.seen x hx
    exact (hL.complete x.1 x.2).mpr ⟨h1, seen_now hS h2⟩
  have hst : ∀ x ∈ L, Stable S 0 x.1 x.2 := by
    intro x hx τ hτ
    rw [hS τ hτ]
    exact ((hL.complete x.1 x.2).mp hx).2
  constructor
  · refine prefix_of_sorted hL.sorted hl.sorted hsub ?_
    intro x hx
    rcases hl.complete x.1 x.2 ((hL.complete x.1 x.2).mp hx).1 (hst x hx) with h | ⟨-, h⟩
    · exact Or.inl h
    · exact Or.inr h
  · intro hok
    refine strict_unique hl.sorted hL.sorted fun x => ⟨hsub x, fun hx => ?_⟩
    rcases hl.complete x.1 x.2 ((hL.complete x.1 x.2).mp hx).1 (hst x hx) with h | ⟨h, -⟩
    · exact h
    · exact absurd hok h

/-- `nowItem` in terms of the specification -/
theorem nowItem_spec (ht : IsTree s.tree) {m mv} (hm : metricView s.tree m = some mv) (json : Bool) :
    (nowItem w s json m = .ok none ↔ IsInfNaN w s m) ∧
    (nowItem w s json m = .panic ↔ NotFloat w s m ∨
      (¬ IsInfNaN w s m ∧ encodeOut json (outOf (nowMetric w s mv)) = .panic)) ∧
    (∀ x, nowItem w s json m = .ok (some x) → encodeOut json (outOf (nowMetric w s mv)) = .ok x) := by
  have hI : IsInfNaN w s m ↔ nowInfNaN w s mv.value = .ok true := by
    unfold nowInfNaN nowDyn
    constructor
    · rintro ⟨mv', sc, d, h1, h2, h3, h4, h5⟩
      rw [hm] at h1
      cases h1
      rw [if_pos h2, h3]
      simp only [Option.bind_some, h4]
      cases d with
      | scalar n v => cases v <;> first | exact h5.elim | (rcases h5 with h5 | h5 <;> simp [Dyn.float, outOf, h5])
      | timePtr => exact h5.elim
      | other => exact h5.elim
      | invalid => exact h5.elim
    · intro h
      split at h
      · rename_i hf
        cases hs : mv.value.src with
        | none => rw [hs] at h; cases h
        | some sc =>
          rw [hs] at h
          simp only [Option.bind_some] at h
          cases hc : current w s sc with
          | none => rw [hc] at h; cases h
          | some d =>
            rw [hc] at h
            refine ⟨mv, sc, d, hm, hf, hs, hc, ?_⟩
            cases d with
            | scalar n v =>
              cases v <;> first | (cases h; done) | (simp [Dyn.float, outOf] at h; exact h.symm)
            | timePtr => cases h
            | other => cases h
            | invalid => cases h
      · cases h
  have hN : NotFloat w s m ↔ nowInfNaN w s mv.value = .panic := by
    unfold nowInfNaN nowDyn
    constructor
    · rintro ⟨mv', h1, h2, h3⟩
      rw [hm] at h1
      cases h1
      rw [if_pos h2]
      cases hs : mv.value.src with
      | none => rfl
      | some sc =>
        simp only [Option.bind_some]
        cases hc : current w s sc with
        | none => rfl
        | some d =>
          cases d with
          | scalar n v =>
            cases v <;> first | rfl | (rename_i x; exact absurd ⟨sc, n, x, hs, by simp [hc]⟩ h3)
          | timePtr => rfl
          | other => rfl
          | invalid => rfl
    · intro h
      split at h
      · rename_i hf
        refine ⟨mv, hm, hf, ?_⟩
        rintro ⟨sc, n, x, h1, h2⟩
        rw [h1] at h
        simp only [Option.bind_some] at h
        rcases h2 with h2 | h2 <;> rw [h2] at h <;> cases h
      · cases h
  rw [hI, hN]
  unfold nowItem
  rw [hm]
  simp only
  cases hi : nowInfNaN w s mv.value with
  | panic => simp
  | ok b =>
    cases b with
    | true => simp
    | false =>
      cases encodeOut json (outOf (nowMetric w s mv)) with
      | panic => simp
      | ok x => simp

/-- `GetMetric` alone -/
theorem getMetricMsg_now (hs : Reachable w s) (json : Bool) {path : Str} {c : List Str} (hc : c = newPathSpec path) :
    (∀ m, Reaches s.tree 0 c (.metric m) → ∃ mv, metricView s.tree m = some mv ∧
      (getMetricMsg json path).run w s = (s, some (encodeOut json (outOf (nowMetric w s mv))))) ∧
    ((∀ m, ¬ Reaches s.tree 0 c (.metric m)) → (getMetricMsg json path).run w s = (s, none)) := by
  have ht := reachable_isTree hs
  have hl : (lookupPath 0 path).run w s = (s, match s.tree.resolve 0 c with
      | some (.dir d') => (some d', none)
      | some (.metric m) => (none, some m)
      | none => (none, none)) := by
    unfold lookupPath
    rw [getDirectoryOrMetric_run ht, ← hc]
    rfl
  have hg : (getMetric 0 path).run w s = (s, match s.tree.resolve 0 c with
      | some (.metric m) => some m
      | _ => none) := by
    unfold getMetric
    rw [run_bind, hl]
    cases hr : s.tree.resolve 0 c with
    | none => rfl
    | some n => cases n <;> rfl
  constructor
  · intro m hm
    obtain ⟨mo, h1, -⟩ := absPath_metric ht hm
    obtain ⟨mv, h2, -, -⟩ := metricView_some ht h1
    refine ⟨mv, h2, ?_⟩
    unfold getMetricMsg
    rw [run_bind, hg, (resolve_iff ht).mpr hm]
    simp only [Prog.run]
    have h3 : (exec w (.metric m) s).1 = s := rfl
    have h4 : (exec w (.metric m) s).2 = some mv := h2
    rw [h3, h4]
    simp only
    rw [run_bind, initMetricAlone_now]
    rfl
  · intro hno
    unfold getMetricMsg
    rw [run_bind, hg]
    cases hr : s.tree.resolve 0 c with
    | none => rfl
    | some n =>
      cases n with
      | dir d => rfl
      | metric m => exact absurd ((resolve_iff ht).mp hr) (hno m)

end Tricorder
