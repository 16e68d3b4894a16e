import Verif.Proof.ListRun
import Verif.Proof.Track
/-!
# Listings as a whole
-/

namespace Tricorder
open Go Spec Tree

variable {A α : Type} {w : World}

theorem withSession_run {body : Session → Prog (Session × A × Status)} {σ σ' h} {r : A × Status}
    (hr : RunI w (withSession body) σ h σ' r) :
    ∃ s' h1 h2 σ1, h = h1 ++ h2 ∧ RunI w (body []) σ h1 σ1 (s', r.1, r.2) ∧ Between h2 := by
  obtain ⟨h1, s1, x, h2, rfl, r1, r2⟩ := RunI_bind hr
  obtain ⟨h3, s3, y, h4, rfl, r3, r4⟩ := RunI_bind r2
  have hb := (close_between r3).append (others_between rfl r4)
  cases (RunI_ret r4).1
  exact ⟨x.1, h1, h3 ++ h4, s1, rfl, r1, hb⟩

/-- states of a run, for runs from reachable states -/
theorem states_tree {p : Prog α} {s s' : State} {h : List Ev} {a : α} (hr : RunI w p s h s' a)
    (hre : ∀ τ ∈ statesOf h s', Reachable w τ) :
    IsTree s'.tree ∧ ∀ τ, τ ∈ statesOf h s' → IsTree τ.tree ∧ Ext τ.tree s'.tree := by
  have h1 := RunI_ext_final hr
  have hmem : s' ∈ statesOf h s' := by simp [statesOf]
  refine ⟨reachable_isTree (hre s' hmem), ?_⟩
  intro τ hτ
  refine ⟨reachable_isTree (hre τ hτ), ?_⟩
  rcases List.mem_append.mp hτ with hm | hm
  · obtain ⟨e, he, rfl⟩ := List.mem_map.mp hm
    exact h1 e he
  · rw [List.mem_singleton.mp hm]; exact Ext.refl _

theorem seen_trail {S : State → Prop} {T : Tree MValue}
    (hS : ∀ τ, S τ → IsTree τ.tree ∧ Ext τ.tree T) {d p m} (h : Seen S d p m) : Trail T d p m := by
  induction h with
  | metric hs hr =>
    obtain ⟨e, en, hc, he, hh⟩ := (reaches_one_iff (hS _ hs).1).mp hr
    exact .metric ((linked_of_child (hS _ hs).1 hc he).ext (hS _ hs).2) hh
  | dir hs hr _ ih =>
    obtain ⟨e, en, hc, he, hh⟩ := (reaches_one_iff (hS _ hs).1).mp hr
    exact .dir ((linked_of_child (hS _ hs).1 hc he).ext (hS _ hs).2) hh ih

theorem prefix_lt {c p q : List Str} (h : p < q) : c ++ p < c ++ q := by
  induction c with
  | nil => exact h
  | cons a c ih => exact cons_lt_same ih

/-- what a listing of `path` visits -/
structure Listing (w : World) (coll : Coll A) (S : State → Prop) (H : List Ev) (c : List Str)
    (a : A) (a' : A) (st : Status) (V : List (List Str × ℕ)) : Prop where
  calls : ∃ s', Calls w coll H (V.map Prod.snd) [] a s' a' st
  sorted : V.Pairwise fun x y => x.1 < y.1
  seen : ∀ x ∈ V, c <+: x.1 ∧ Seen S 0 x.1 x.2
  complete : ∀ p m, c <+: p → Stable S 0 p m → (p, m) ∈ V ∨ (st ≠ .ok ∧ ∀ x ∈ V, x.1 < p)

theorem seenDir_trail {S : State → Prop} {T : Tree MValue}
    (hS : ∀ τ, S τ → IsTree τ.tree ∧ Ext τ.tree T) {d p d'} (h : SeenDir S d p d') (hd : d < T.dirs.length)
    (hT : IsTree T) : d' < T.dirs.length := by
  induction h with
  | here => exact hd
  | dir hs hr _ ih =>
    refine ih ?_
    obtain ⟨e, en, hc, he, hh⟩ := (reaches_one_iff (hS _ hs).1).mp hr
    have := (linked_of_child (hS _ hs).1 hc he).ext (hS _ hs).2
    exact (entry_dir hT this.1 hh).2.2.1

theorem byPath_listing {S : State → Prop} {T : Tree MValue} (hT : IsTree T)
    (hS : ∀ τ, S τ → IsTree τ.tree ∧ Ext τ.tree T) {coll : Coll A} {fuel : ℕ} {path : Str} {a a' : A} {st}
    {σ σ' h} (hr : RunI w (getAllMetricsByPath coll fuel 0 path a) σ h σ' (a', st)) (hh : ∀ e ∈ h, S e.pre) :
    (∃ V, Listing w coll S h (newPathSpec path) a a' st V) ∧
    (NoTimeout w coll → 0 < T.dirs.length → T.entries.length < fuel → st ≠ .timeout) := by
  obtain ⟨h1, s1, x, h2, rfl, r1, r2⟩ := RunI_bind hr
  have hh1 : ∀ e ∈ h1, S e.pre := fun e he => hh e (by simp [he])
  have hh2 : ∀ e ∈ h2, S e.pre := fun e he => hh e (by simp [he])
  have hb1 := lookup_between r1
  rcases lookup_seen hT hS r1 hh1 with ⟨d, rfl, a1, a2⟩ | ⟨m, rfl, a1, a2⟩ | ⟨rfl, a1⟩
  · obtain ⟨s', h3, h4, σ1, rfl, r3, hb⟩ := withSession_run r2
    have hh3 : ∀ e ∈ h3, S e.pre := fun e he => hh2 e (by simp [he])
    obtain ⟨V, hV⟩ := traverse_visit hT hS r3 hh3
    constructor
    · refine ⟨V.map fun x => (newPathSpec path ++ x.1, x.2), ⟨s', ?_⟩, ?_, ?_, ?_⟩
      · have : (V.map fun x => (newPathSpec path ++ x.1, x.2)).map Prod.snd = V.map Prod.snd := by
          rw [List.map_map]; rfl
        rw [this]
        exact (hV.calls.after hb).before hb1
      · rw [List.pairwise_map]
        exact hV.sorted.imp prefix_lt
      · intro x hx
        obtain ⟨y, hy, rfl⟩ := List.mem_map.mp hx
        exact ⟨List.prefix_append _ _, a1.trans (hV.seen y hy)⟩
      · rintro p m ⟨q, rfl⟩ hst
        rcases hV.complete q m (a2 q m hst) with h5 | ⟨h5, h6⟩
        · exact Or.inl (List.mem_map.mpr ⟨(q, m), h5, rfl⟩)
        · refine Or.inr ⟨h5, ?_⟩
          intro x hx
          obtain ⟨y, hy, rfl⟩ := List.mem_map.mp hx
          exact prefix_lt (h6 y hy)
    · intro hn h0 hf
      exact traverse_total hT hS hn (seenDir_trail hS a1 h0 hT) (by omega) r3 hh3
  · obtain ⟨s', h3, h4, σ1, rfl, r3, hb⟩ := withSession_run r2
    have hh3 : ∀ e ∈ h3, S e.pre := fun e he => hh2 e (by simp [he])
    constructor
    · refine ⟨[(newPathSpec path, m)], ⟨s', ?_⟩, by simp, ?_, ?_⟩
      · exact ((calls_one r3).after hb).before hb1
      · intro x hx
        rw [List.mem_singleton.mp hx]
        exact ⟨List.prefix_refl _, a1⟩
      · rintro p m' ⟨q, rfl⟩ hst
        obtain ⟨rfl, rfl⟩ := a2 q m' hst
        exact Or.inl (by simp)
    · intro hn _ _
      exact collect_no_timeout hn r3
  · have hb := others_between rfl r2
    cases (RunI_ret r2).1
    refine ⟨⟨[], ⟨[], .done (hb1.append hb)⟩, by simp, by simp, ?_⟩, by simp⟩
    rintro p m ⟨q, rfl⟩ hst
    exact absurd hst (a1 q m)

theorem msgColl_no_timeout (json : Bool) : NoTimeout w (msgColl json) := by
  intro m s a σ h σ' r hr
  obtain ⟨h1, s1, h2, rfl, r1, r2⟩ := RunI_op hr
  cases hm : (exec w (.metric m) s1).2 with
  | none => rw [hm] at r2; rw [← (RunI_ret r2).1]; simp
  | some mv =>
    rw [hm] at r2
    obtain ⟨h3, s3, ⟨so, ox⟩, h4, rfl, r3, r4⟩ := RunI_bind r2
    cases ox with
    | panic => rw [← (RunI_ret r4).1]; simp
    | ok x => rw [← (RunI_ret r4).1]; simp

theorem convertToJson_keeps {x y : Metric} (h : x.convertToJson = some y) :
    y.path = x.path ∧ y.description = x.description ∧ y.groupId = x.groupId := by
  unfold Metric.convertToJson at h
  split at h
  · cases h
  · cases h; exact ⟨rfl, rfl, rfl⟩

theorem encode_keeps {json} {x y : Metric} (h : encodeMetric json y = .ok x) :
    x.path = y.path ∧ x.description = y.description ∧ x.groupId = y.groupId := by
  unfold encodeMetric at h
  split at h
  · split at h
    · cases h
    · rename_i m' hm
      cases h
      exact convertToJson_keeps hm
  · cases h; exact ⟨rfl, rfl, rfl⟩

theorem forall₂_filterMap {X Y : Type} {R : X → Option Y → Prop} {V : List X} {L : List (Option Y)}
    (h : List.Forall₂ R V L) :
    ∃ U : List (X × Y), U.map Prod.snd = L.filterMap id ∧ (U.map Prod.fst).Sublist V ∧
      (∀ u ∈ U, R u.1 (some u.2)) ∧ ∀ v ∈ V, (∃ y, (v, y) ∈ U) ∨ R v none := by
  induction h with
  | nil => exact ⟨[], rfl, .refl _, by simp, by simp⟩
  | @cons v o V L hr _ ih =>
    obtain ⟨U, h1, h2, h3, h4⟩ := ih
    cases o with
    | none =>
      refine ⟨U, by simpa using h1, h2.cons v, h3, ?_⟩
      intro v' hv'
      rcases List.mem_cons.mp hv' with rfl | hv'
      · exact Or.inr hr
      · exact h4 v' hv'
    | some y =>
      refine ⟨(v, y) :: U, by simpa using h1, by simpa using h2.cons₂ v, ?_, ?_⟩
      · intro u hu
        rcases List.mem_cons.mp hu with rfl | hu
        · exact hr
        · exact h3 u hu
      · intro v' hv'
        rcases List.mem_cons.mp hv' with rfl | hv'
        · exact Or.inl ⟨y, by simp⟩
        · rcases h4 v' hv' with ⟨y', hy⟩ | h
          · exact Or.inl ⟨y', by simp [hy]⟩
          · exact Or.inr h

theorem forall₂_of_map {X Y Z : Type} {R : Y → Z → Prop} {f : X → Y} {V : List X} {L : List Z}
    (h : List.Forall₂ R (V.map f) L) : List.Forall₂ (fun x z => R (f x) z) V L := by
  induction V generalizing L with
  | nil => cases h; exact .nil
  | cons x V ih =>
    cases h with
    | cons hr h => exact .cons hr (ih h)

/-- the metrics of a listing, with interference.  Each element of `U` is a path, a metric and what is reported
about it. -/
theorem listMetrics_run {s s' : State} (hs : Reachable w s) {json fuel path h ms st}
    (hr : RunI w (listMetrics json fuel path) s h s' (ms, st)) :
    (∃ (U : List ((List Str × ℕ) × Metric)) (sess : Session), ms = U.map Prod.snd ∧
      U.Pairwise (fun x y => x.1.1 < y.1.1) ∧
      (∀ u ∈ U, newPathSpec path <+: u.1.1 ∧ Seen (fun τ => τ ∈ statesOf h s') 0 u.1.1 u.1.2 ∧
        u.2.path = 47 :: List.intercalate [47] u.1.1 ∧
        Reported w json (fun τ => τ ∈ statesOf h s') sess u.1.2 u.2) ∧
      (∀ p m, newPathSpec path <+: p → Stable (fun τ => τ ∈ statesOf h s') 0 p m →
        (∃ x, ((p, m), x) ∈ U) ∨ LeftOut w (fun τ => τ ∈ statesOf h s') m ∨ st ≠ .ok) ∧
      ∀ r t, sess.lookup r = some t → ∃ e ∈ h, e.own = true ∧ e.cmd = .rlock r ∧ t = w.lockTime e.pre r) ∧
    (st = .ok ∨ st = .panic ∨ st = .timeout) ∧
    (s'.tree.entries.length < fuel → st ≠ .timeout) := by
  have hre := (RunI_reads (listMetrics_reads _ _ _) hr hs).1
  obtain ⟨hT, hS⟩ := states_tree hr hre
  have hh : ∀ e ∈ h, (fun τ => τ ∈ statesOf h s') e.pre := fun e he =>
    List.mem_append_left _ (List.mem_map.mpr ⟨e, he, rfl⟩)
  obtain ⟨⟨V, ⟨sess, hc⟩, hsort, hseen, hcomp⟩, htime⟩ := byPath_listing hT hS hr hh
  obtain ⟨-, hst, R, hR, hall⟩ := calls_msg hT hS hh hc
  obtain ⟨U, u1, u2, u3, u4⟩ := forall₂_filterMap (forall₂_of_map hall)
  refine ⟨⟨U, sess, ?_, ?_, ?_, ?_, ?_⟩, hst, fun hf => htime (msgColl_no_timeout json) hT.rootIn hf⟩
  · rw [u1]; simpa using hR
  · have := hsort.sublist u2
    rwa [List.pairwise_map] at this
  · intro u hu
    have hv := u2.subset (List.mem_map.mpr ⟨u, hu, rfl⟩)
    obtain ⟨v1, v2⟩ := hseen _ hv
    have h3 : Reported w json (fun τ => τ ∈ statesOf h s') sess u.1.2 u.2 := u3 u hu
    refine ⟨v1, v2, ?_, h3⟩
    obtain ⟨mv, hm, hp⟩ := trail_view hT (seen_trail hS v2)
    obtain ⟨mv', y, ⟨σ, hσ, hm'⟩, he, hd, -⟩ := h3
    have := metricView_ext (hS σ hσ).1 hT (hS σ hσ).2 hm'
    rw [hm] at this
    cases this
    rw [(encode_keeps he).1, hd.1, hp]
  · intro p m hp hstab
    rcases hcomp p m hp hstab with hv | ⟨hv, -⟩
    · rcases u4 _ hv with h5 | h5
      · exact Or.inl h5
      · have h6 : st = .panic ∨ LeftOut w (fun τ => τ ∈ statesOf h s') m := h5
        rcases h6 with h6 | h6
        · exact Or.inr (Or.inr (by rw [h6]; simp))
        · exact Or.inr (Or.inl h6)
    · exact Or.inr (Or.inr hv)
  · intro r t hl
    rcases calls_from (msgColl_track json) hc (lookup_mem hl) with h5 | h5
    · cases h5
    · exact h5

end Tricorder
