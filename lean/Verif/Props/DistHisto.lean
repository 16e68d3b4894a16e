import Verif.Proof.DistHisto
import Verif.Props.DistStats
/-!
# C81: counts of the ranges and ranges of the middle values

As in C28–C30: `vs` are the values in the distribution now.  `IsNth vs k v` says that `v` is number
`k` of them in ascending order, so `(n - 1) / 2` and `n / 2` are the numbers of the two middle
values (the same number if `n` is odd), whose mean is the median in the mathematical sense.
-/

namespace Tricorder
open Go Spec

/-- **C81 (histogram)** The count that a snapshot shows for a range is the number of current values
in that range. -/
theorem C81_histogram (l : List Fl) (hasc : Ascending l) (pieces : List (Piece Fl))
    (h : newArbitraryBucketer l = .ok pieces) (nc : Bool) (ts : Time) (gid : ℕ) (u : MUnit)
    (hist : List DCall) (vs : List Fl) (hlen : hist.length < 2 ^ 64 - 1) :
    let ops := hist.filterMap (toOp u)
    (nc = true ∨ ops.all isAddOp = true) → current [] ops = some vs →
    (∀ v ∈ mentioned ops, v ≠ .nan) →
    ∀ s, (registered pieces nc ts gid u hist).snapshot = some s →
      s.breakdown = pieces.map fun p => (p, vs.countP fun v => decide (Contains p v)) := by
  intro ops hnc hcur hg s hs
  unfold registered at hs
  rw [newDist_setUnit] at hs
  have hops : List.filterMap (toOp u) hist = ops := rfl
  rw [hops] at hs
  have hol : ops.length ≤ hist.length := List.length_filterMap_le _ _
  obtain ⟨g1, g2, g3⟩ := ops_bounds (reg_cinv h nc ts gid u) (by omega) hnc hcur (fun v hv => hg v hv)
  obtain ⟨_, _, f3, _, _, _⟩ := snapshot_fields g1.shape hs
  have hvs : ∀ v ∈ vs, v ≠ .nan := current_mem hcur (by simp) hg
  rw [f3]
  generalize (({ newDist pieces nc ts gid with unitSet := true, unit := u } : Dist Fl).ops ops) = d at g1 g2
  have hp : d.pieces = pieces := g2
  have hcs : d.counts = pieces.map fun p => vs.countP fun v => decide (Contains p v) := by
    apply List.ext_getElem?
    intro i
    rw [List.getElem?_map]
    by_cases hi : i < pieces.length
    · rw [g1.counts i (by rw [hp]; exact hi), List.getElem?_eq_getElem hi, Option.map_some]
      congr 1
      apply List.countP_congr
      intro v hv
      simp only [decide_eq_true_eq]
      obtain ⟨p, h1, h2⟩ := findIndex_contains h hasc (hvs v hv)
      rw [hp]
      constructor
      · rintro rfl
        rw [List.getElem?_eq_getElem hi] at h1; cases h1; exact h2
      · intro hc
        exact contains_unique h hasc (hvs v hv) h1 (List.getElem?_eq_getElem hi) h2 hc
    · rw [List.getElem?_eq_none (by rw [g1.shape.len, hp]; omega), List.getElem?_eq_none (by omega)]; rfl
  rw [hp, hcs, ← List.map_prod_left_eq_zip]

/-- **C81 (median, exact arithmetic)** Of three or more values, the median is the mean of two numbers
between Min and Max: one in the range that holds the lower middle value, one in the range that holds
the upper middle value (or at the upper end of that range).  Of one or two values it is their mean. -/
theorem C81_median_in_exact_arithmetic (l : List ℚ) (hasc : l.Pairwise (· ≤ ·)) (pieces : List (Piece ℚ))
    (h : newArbitraryBucketer l = .ok pieces) (nc : Bool) (ts : Time) (gid : ℕ) (ops : List (DOp ℚ))
    (vs : List ℚ) (hlen : ops.length < 2 ^ 64 - 1) (hnc : nc = true ∨ ops.all isAddOp = true)
    (hcur : current [] ops = some vs) (s : Snapshot ℚ)
    (hs : ((newDist pieces nc ts gid).ops ops).snapshot = some s) :
    (3 ≤ vs.length → ∃ x y, s.median = (x + y) / 2 ∧
      (s.min ≤ x ∧ x ≤ s.max) ∧ (s.min ≤ y ∧ y ≤ s.max) ∧
      (∀ v, IsNth vs ((vs.length - 1) / 2) v → ∀ p ∈ pieces, Holds p v → Covers p x) ∧
      (∀ v, IsNth vs (vs.length / 2) v → ∀ p ∈ pieces, Holds p v → Covers p y)) ∧
    (vs ≠ [] → vs.length ≤ 2 → s.median = vs.sum / vs.length) := by
  have h0 := newDist_cinv (pieces_ne h) nc ts gid
  have hsum := ops_sum h0 (by simp [newDist, Arith.lit]) (by omega) hnc hcur
  obtain ⟨g1, g2, g3⟩ := ops_bounds h0 (by omega) hnc hcur (fun v _ => trivial)
  have hvl : vs.length ≤ ops.length := by simpa using current_le hcur
  obtain ⟨f1, _, _, _, f5, f6⟩ := snapshot_fields g1.shape hs
  have hc : vs ≠ [] → ((newDist pieces nc ts gid).ops ops).count ≠ 0 := by
    intro hne; rw [g1.count]; exact fun hh => hne (List.length_eq_zero_iff.1 hh)
  constructor
  · intro h3
    obtain ⟨-, -, e1, e2, e3, e4, e5⟩ := f5 (hc (by rintro rfl; simp at h3))
    rw [e1, e2]
    exact median_covers h hasc g2 g1 g3 h3 (by omega) e5
  · intro hne h2
    obtain ⟨-, -, e1, e2, e3, e4, e5⟩ := f5 (hc hne)
    unfold Dist.calculateMedian at e5
    rw [if_pos (by rw [g1.count]; exact h2)] at e5
    simp only [Option.some.injEq] at e5
    rw [← e5]
    show ((newDist pieces nc ts gid).ops ops).total / ((((newDist pieces nc ts gid).ops ops).count : ℕ) : ℚ) = _
    rw [hsum, g1.count]

/-- **C81 (median, float64)** The same of the float64 median of three or more finite values, up to
`2^-48 max(|Min|, |Max|) + 2^-1071`.  (Without this error it is false: `C30_median_out_of_bounds`.) -/
theorem C81_median (l : List Fl) (hasc : Ascending l) (hl0 : ∀ e ∈ l, e.Rep b64)
    (pieces : List (Piece Fl)) (h : newArbitraryBucketer l = .ok pieces) (nc : Bool) (ts : Time)
    (gid : ℕ) (u : MUnit) (hist : List DCall) (vs : List Fl) (hlen : hist.length < 2 ^ 64 - 1) :
    let ops := hist.filterMap (toOp u)
    (nc = true ∨ ops.all isAddOp = true) → current [] ops = some vs →
    (∀ v ∈ mentioned ops, Finite v) →
    ∀ s, (registered pieces nc ts gid u hist).snapshot = some s → 3 ≤ vs.length →
      max |val s.min| |val s.max| ≤ p2 900 →
      Finite s.median ∧ ∃ x y,
        |val s.median - (x + y) / 2| ≤ max |val s.min| |val s.max| * p2 (-48) + p2 (-1071) ∧
        (val s.min ≤ x ∧ x ≤ val s.max) ∧ (val s.min ≤ y ∧ y ≤ val s.max) ∧
        (∀ v, IsNth vs ((vs.length - 1) / 2) v → ∀ p ∈ pieces, Contains p v → CoversFl p x) ∧
        (∀ v, IsNth vs (vs.length / 2) v → ∀ p ∈ pieces, Contains p v → CoversFl p y) := by
  intro ops hnc hcur hg s hs h3 hB
  unfold registered at hs
  rw [newDist_setUnit] at hs
  have hops : List.filterMap (toOp u) hist = ops := rfl
  rw [hops] at hs
  have hol : ops.length ≤ hist.length := List.length_filterMap_le _ _
  obtain ⟨g1, g2, g3⟩ := ops_bounds (reg_cinv h nc ts gid u) (by omega) hnc hcur
    (fun v hv => ne_nan_fin (hg v hv))
  have hvs := current_mem hcur (by simp) hg
  have hvl : vs.length ≤ ops.length := by simpa using current_le hcur
  obtain ⟨f1, _, _, _, f5, f6⟩ := snapshot_fields g1.shape hs
  have hne : vs ≠ [] := by rintro rfl; simp at h3
  obtain ⟨fm, fM⟩ := ops_minmax_fin (reg_cinv h nc ts gid u) (by omega) hnc hcur hg hne
  have hc : (({ newDist pieces nc ts gid with unitSet := true, unit := u } : Dist Fl).ops ops).count ≠ 0 := by
    rw [g1.count]; omega
  obtain ⟨-, -, e1, e2, e3, e4, e5⟩ := f5 hc
  rw [e1, e2] at hB ⊢
  exact median_covers_fl h (fun e he => ⟨hasc.1 e he, hl0 e he⟩) hasc.2 g2 g1 g3 fm fM hvs hB
    (le_max_left _ _) (le_max_right _ _) h3 (by omega) e5

/-- the middle values, and the ranges that hold them, exist: nothing above is empty talk -/
theorem C81_middle_exists (l : List Fl) (hasc : Ascending l) (pieces : List (Piece Fl))
    (h : newArbitraryBucketer l = .ok pieces) (vs : List Fl) (hvs : ∀ v ∈ vs, v ≠ .nan) (k : ℕ)
    (hk : k < vs.length) : ∃ v, IsNth vs k v ∧ v ∈ vs ∧ ∃ p ∈ pieces, Contains p v := by
  obtain ⟨v, hv⟩ := isNth_exists (F := Fl) hvs hk
  obtain ⟨p, h1, h2⟩ := findIndex_contains h hasc (hvs v (isNth_mem hv))
  exact ⟨v, hv, isNth_mem hv, p, List.mem_of_getElem? h1, h2⟩

/-- the values 1, 12, 14, 30 with the endpoints 10, 20, after an update and a removal: counts 1, 2, 1,
and the median 13.33 lies in the range 10–20 of the middle values 12 and 14 -/
example :
    let l : List Fl := [.fin 10, .fin 20]
    let hist : List DCall := [.add (num 1) ⟨1, 0⟩, .add (num 11) ⟨1, 0⟩, .add (num 14) ⟨1, 0⟩, .add (num 30) ⟨1, 0⟩,
      .update (num 11) (num 12) ⟨2, 0⟩, .add (num 7) ⟨2, 0⟩, .remove (num 7) ⟨3, 0⟩]
    ∃ pieces, newArbitraryBucketer l = .ok pieces ∧ Ascending l ∧
      current [] (hist.filterMap (toOp .second)) = some [.fin 12, .fin 30, .fin 14, .fin 1] ∧
      (registered pieces true ⟨0, 0⟩ 1 .second hist).snapshot.map
        (fun s => (rangeCounts s, Fl.lt (.fin 13) s.median, Fl.lt s.median (.fin 17))) = some ([1, 2, 1], true, true) :=
  ⟨_, rfl, by decide +kernel, by decide +kernel, by decide +kernel⟩

/-- the middle values of that example -/
example : IsNth [Fl.fin 12, .fin 30, .fin 14, .fin 1] 1 (.fin 12) ∧ IsNth [Fl.fin 12, .fin 30, .fin 14, .fin 1] 2 (.fin 14) :=
  ⟨⟨[.fin 1, .fin 12, .fin 14, .fin 30], by decide +kernel, by decide +kernel, rfl⟩,
    ⟨[.fin 1, .fin 12, .fin 14, .fin 30], by decide +kernel, by decide +kernel, rfl⟩⟩

end Tricorder
