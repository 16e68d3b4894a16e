import Verif.Proof.Detached
import Verif.Model.Read
import Verif.Spec.Listing
import Mathlib.Data.List.Sort
import Mathlib.Order.Lex
/-!
# Traversals with interference
-/

namespace Tricorder
open Go Spec Tree

variable {V : Type}

/-! ### order of names -/

theorem strLt_iff {a b : Str} : strLt a b = true ↔ a < b := by
  induction a generalizing b with
  | nil => cases b <;> simp [strLt]
  | cons x a ih =>
    cases b with
    | nil => simp [strLt]
    | cons y b =>
      rw [strLt, List.cons_lt_cons_iff]
      split
      · simp [*]
      · split
        · rename_i h1 h2
          simp only [Bool.false_eq_true, false_iff, not_or, not_and]
          refine ⟨h1, ?_⟩
          rintro rfl
          exact absurd h2 h1
        · rename_i h1 h2
          have : x = y := by
            exact UInt8.le_antisymm (UInt8.not_lt.mp h2) (UInt8.not_lt.mp h1)
          subst this
          simp [ih]

theorem nameLe_iff {a b : ℕ × Entry} : nameLe a b = true ↔ a.2.name ≤ b.2.name := by
  unfold nameLe
  rw [Bool.not_eq_true', ← Bool.not_eq_true, strLt_iff]
  exact List.not_lt

theorem str_lt_of_le_of_ne {a b : Str} (h : a ≤ b) (hn : a ≠ b) : a < b := by
  by_contra hc
  exact hn (List.le_antisymm h (List.not_lt.mp hc))

theorem sortEntries_perm (l : List (ℕ × Entry)) : (sortEntries l).Perm l := List.perm_insertionSort _ _

theorem sortEntries_sorted (l : List (ℕ × Entry)) (hn : (l.map fun x => x.2.name).Nodup) :
    (sortEntries l).Pairwise fun x y => x.2.name < y.2.name := by
  have h1 : (sortEntries l).Pairwise fun x y => nameLe x y = true := by
    have i1 : IsTrans (ℕ × Entry) fun a b => nameLe a b = true := ⟨fun a b c => by
      rw [nameLe_iff, nameLe_iff, nameLe_iff]
      exact fun h1 h2 => List.le_trans h1 h2⟩
    have i2 : Std.Total fun a b : ℕ × Entry => nameLe a b = true := ⟨fun a b => by
      rw [nameLe_iff, nameLe_iff]
      exact List.le_total _ _⟩
    exact List.pairwise_insertionSort _ l
  have h2 : ((sortEntries l).map fun x => x.2.name).Nodup :=
    (((sortEntries_perm l).map _).nodup_iff).mpr hn
  rw [List.Nodup, List.pairwise_map] at h2
  refine (h1.and h2).imp ?_
  rintro a b ⟨h3, h4⟩
  exact str_lt_of_le_of_ne (nameLe_iff.mp h3) h4

/-- sorting does not depend on the order of the input or on the algorithm -/
theorem sort_unique {l l' : List (ℕ × Entry)} (hn : (l.map fun x => x.2.name).Nodup) (hp : l'.Perm l)
    (hs : l'.Pairwise fun x y => x.2.name ≤ y.2.name) : l' = sortEntries l := by
  have h2 : (l'.map fun x => x.2.name).Nodup := ((hp.map _).nodup_iff).mpr hn
  rw [List.Nodup, List.pairwise_map] at h2
  have h3 : l'.Pairwise fun x y => x.2.name < y.2.name :=
    (hs.and h2).imp fun {a b} h => str_lt_of_le_of_ne h.1 h.2
  refine List.Perm.eq_of_pairwise (le := fun x y => x.2.name < y.2.name) ?_ h3 (sortEntries_sorted l hn)
    (hp.trans (sortEntries_perm l).symm)
  intro a b _ _ h4 h5
  exact absurd (List.lt_trans h4 h5) (List.lt_irrefl _)

/-! ### links that never change -/

/-- entry `e` says that it is `name` in directory `d` -/
def Linked (t : Tree V) (d : ℕ) (name : Str) (e : ℕ) (en : Entry) : Prop :=
  t.entries[e]? = some en ∧ en.name = name ∧ en.parent = t.enclosing d ∧ d < t.dirs.length

/-- like `Reaches`, by what the entries say -/
inductive Trail (t : Tree V) : ℕ → List Str → ℕ → Prop where
  | metric {d name e en m} : Linked t d name e en → en.metric = some m → Trail t d [name] m
  | dir {d name e en d' p m} : Linked t d name e en → en.dir = some d' →
      Trail t d' p m → Trail t d (name :: p) m

theorem linked_of_child {t : Tree V} (ht : IsTree t) {d name e en} (h : Child t d name e)
    (he : t.entries[e]? = some en) : Linked t d name e en :=
  ⟨he, (child_entry ht h he).1, (child_entry ht h he).2, child_lt ht h⟩

theorem Linked.ext {t t' : Tree V} (hx : Ext t t') {d name e en} (h : Linked t d name e en) :
    Linked t' d name e en :=
  ⟨hx.entries _ _ h.1, h.2.1, by rw [hx.encl _ h.2.2.2]; exact h.2.2.1, lt_of_lt_of_le h.2.2.2 hx.dirs⟩

theorem Trail.ext {t t' : Tree V} (hx : Ext t t') {d p m} (h : Trail t d p m) : Trail t' d p m := by
  induction h with
  | metric hl hm => exact .metric (hl.ext hx) hm
  | dir hl hd _ ih => exact .dir (hl.ext hx) hd ih

theorem trail_of_reaches {t : Tree V} (ht : IsTree t) {d p m} (h : Reaches t d p (.metric m)) :
    Trail t d p m := by
  generalize hn : Node.metric m = n at h
  induction h with
  | here => cases hn
  | metric hc he hm => cases hn; exact .metric (linked_of_child ht hc he) hm
  | dir hc he hd _ ih => exact .dir (linked_of_child ht hc he) hd (ih hn)

theorem trail_ne_nil {t : Tree V} {d p m} (h : Trail t d p m) : p ≠ [] := by
  cases h <;> simp

/-- the starting point is determined by the metric and the path -/
theorem trail_start {t : Tree V} (ht : IsTree t) {d1 d2 p m} (h1 : Trail t d1 p m) (h2 : Trail t d2 p m) :
    d1 = d2 := by
  induction h1 generalizing d2 with
  | metric hl hm =>
    cases h2 with
    | metric hl2 hm2 =>
      obtain ⟨-, mo, a1, a2⟩ := entry_metric ht hl.1 hm
      obtain ⟨-, mo', b1, b2⟩ := entry_metric ht hl2.1 hm2
      rw [a1] at b1
      cases b1
      rw [← a2] at hl
      rw [← b2] at hl2
      have := hl.1.symm.trans hl2.1
      cases this
      exact enclosing_inj ht hl.2.2.2 hl2.2.2.2 (hl.2.2.1.symm.trans hl2.2.2.1)
    | dir _ _ h => exact absurd rfl (trail_ne_nil h)
  | dir hl hd hr ih =>
    cases h2 with
    | metric => exact absurd rfl (trail_ne_nil hr)
    | dir hl2 hd2 hr2 =>
      have := ih hr2
      subst this
      have a := (entry_dir ht hl.1 hd).2.2.2
      have b := (entry_dir ht hl2.1 hd2).2.2.2
      rw [a] at b
      cases b
      have := hl.1.symm.trans hl2.1
      cases this
      exact enclosing_inj ht hl.2.2.2 hl2.2.2.2 (hl.2.2.1.symm.trans hl2.2.2.1)

theorem trail_pathUp {t : Tree V} (ht : IsTree t) {d p m} (h : Trail t d p m) {fuel names c}
    (hn : t.pathUp none fuel (t.enclosing d) = some (names, c)) :
    ∃ mo, t.metrics[m]? = some mo ∧
      t.pathUp none (fuel + p.length) (some mo.enclosing) = some (p.reverse ++ names, c) := by
  induction h generalizing fuel names with
  | metric hl hm =>
    obtain ⟨-, mo, a1, a2⟩ := entry_metric ht hl.1 hm
    refine ⟨mo, a1, ?_⟩
    rw [a2]
    have := pathUp_step hl.1 (fuel := fuel) (names := names) (c := c) (by rw [hl.2.2.1]; exact hn)
    rw [hl.2.1] at this
    simpa using this
  | @dir d name e en d' p m hl hd hr ih =>
    have := pathUp_step hl.1 (fuel := fuel) (names := names) (c := c) (by rw [hl.2.2.1]; exact hn)
    rw [hl.2.1, ← (entry_dir ht hl.1 hd).2.2.2] at this
    obtain ⟨mo, h1, h2⟩ := ih this
    refine ⟨mo, h1, ?_⟩
    rw [List.length_cons, List.reverse_cons, List.append_assoc, show fuel + (p.length + 1) = fuel + 1 + p.length by omega]
    exact h2

theorem trail_view {t : Tree MValue} (ht : IsTree t) {p m} (h : Trail t 0 p m) :
    ∃ mv, metricView t m = some mv ∧ mv.path = 47 :: List.intercalate [47] p := by
  obtain ⟨mo, h1, h2⟩ := trail_pathUp ht h (pathUp_root ht)
  obtain ⟨en, he, -⟩ := ht.metrics m mo h1
  obtain ⟨x, hx⟩ := pathUp_full ht none (cur := some mo.enclosing) (by
    intro e he'; cases he'; exact ⟨en, he⟩)
  have := pathUp_det h2 hx
  subst this
  refine ⟨⟨47 :: List.intercalate [47] p, mo.description, mo.value⟩, ?_, rfl⟩
  have : t.metricAbsPath m = some (47 :: List.intercalate [47] p) := by
    unfold metricAbsPath absPath pathFrom
    simp only [h1]
    rw [ht.root, hx]
    simp [pathString, joinByte_eq]
  simp only [metricView, h1, this]

theorem pathUp_ext {t t' : Tree V} (hx : Ext t t') {fuel cur x} (h : t.pathUp none fuel cur = some x) :
    t'.pathUp none fuel cur = some x := by
  induction fuel generalizing cur x with
  | zero => simp [pathUp] at h
  | succ n ih =>
    unfold pathUp at h
    unfold pathUp
    split at h
    · rename_i hc; rw [if_pos hc]; exact h
    · rename_i hc
      rw [if_neg hc]
      cases cur with
      | none => exact h
      | some e =>
        simp only at h ⊢
        cases he : t.entries[e]? with
        | none => rw [he] at h; cases h
        | some en =>
          rw [he] at h
          rw [hx.entries _ _ he]
          simp only at h ⊢
          cases hp : t.pathUp none n en.parent with
          | none => rw [hp] at h; cases h
          | some y => rw [hp] at h; rw [ih hp]; exact h

/-- what readers see of a metric never changes -/
theorem metricView_ext {t t' : Tree MValue} (ht : IsTree t) (ht' : IsTree t') (hx : Ext t t') {m mv}
    (h : metricView t m = some mv) : metricView t' m = some mv := by
  unfold metricView at h
  cases hm : t.metrics[m]? with
  | none => rw [hm] at h; cases h
  | some mo =>
    rw [hm] at h
    have hm' := hx.metrics _ _ hm
    cases hp : t.metricAbsPath m with
    | none => rw [hp] at h; cases h
    | some p =>
      rw [hp] at h
      have : t'.metricAbsPath m = some p := by
        unfold metricAbsPath at hp ⊢
        rw [hm] at hp
        rw [hm']
        simp only at hp ⊢
        unfold absPath pathFrom at hp ⊢
        rw [ht.root] at hp
        rw [ht'.root]
        cases hu : t.pathUp none (t.entries.length + 1) (some mo.enclosing) with
        | none => rw [hu] at hp; cases hp
        | some x =>
          rw [hu] at hp
          obtain ⟨en, he, -⟩ := ht'.metrics m mo hm'
          obtain ⟨y, hy⟩ := pathUp_full ht' none (cur := some mo.enclosing) (by
            intro e he'; cases he'; exact ⟨en, he⟩)
          have := pathUp_det (pathUp_ext hx hu) hy
          subst this
          rw [hy]
          exact hp
      rw [← h]
      simp only [metricView, hm', this]

theorem metricView_some {t : Tree MValue} (ht : IsTree t) {m mo} (h : t.metrics[m]? = some mo) :
    ∃ mv, metricView t m = some mv ∧ mv.value = mo.value ∧ mv.description = mo.description := by
  obtain ⟨en, he, -⟩ := ht.metrics m mo h
  obtain ⟨y, hy⟩ := pathUp_full ht none (cur := some mo.enclosing) (by
    intro e he'; cases he'; exact ⟨en, he⟩)
  have : ∃ p, t.metricAbsPath m = some p := by
    unfold metricAbsPath absPath pathFrom
    simp only [h]
    rw [ht.root, hy]
    simp only
    split <;> exact ⟨_, rfl⟩
  obtain ⟨p, hp⟩ := this
  exact ⟨⟨p, mo.description, mo.value⟩, by simp only [metricView, h, hp], rfl, rfl⟩

end Tricorder
