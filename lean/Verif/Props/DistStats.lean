import Verif.Proof.DistErr
import Verif.Proof.DistTime
/-!
# C28–C30: sum, minimum, maximum, average and median

The distribution has been registered with unit `u` and then received the calls `hist`, of which
`hist.filterMap (toOp u)` are the ones with a supported value, as operations on float64 numbers.
`current [] ops = some vs` says that every old value passed in was there, and that `vs` are the
values in the distribution now.  For a cumulative distribution (`nc = false`) there are only adds.
The theorems with `Dist ℚ` are about the same code in exact arithmetic.
-/

namespace Tricorder
open Go Spec

/-- the distribution after registration with unit `u` and the given calls -/
def registered (pieces : List (Piece Fl)) (nc : Bool) (ts : Time) (gid : ℕ) (u : MUnit)
    (hist : List DCall) : Dist Fl := (newDist pieces nc ts gid).calls (.setUnit u :: hist)

/-! ## C28 -/

/-- **C28 (exact arithmetic)** Sum equals the sum of the values currently in the distribution. -/
theorem C28_sum_in_exact_arithmetic (l : List ℚ) (pieces : List (Piece ℚ))
    (h : newArbitraryBucketer l = .ok pieces) (nc : Bool) (ts : Time) (gid : ℕ) (ops : List (DOp ℚ))
    (vs : List ℚ) (hlen : ops.length < 2 ^ 64 - 1) (hnc : nc = true ∨ ops.all isAddOp = true)
    (hcur : current [] ops = some vs) (s : Snapshot ℚ)
    (hs : ((newDist pieces nc ts gid).ops ops).snapshot = some s) : s.sum = vs.sum := by
  have h0 := newDist_cinv (pieces_ne h) nc ts gid
  have hsum := ops_sum h0 (by simp [newDist, Arith.lit]) (by omega) hnc hcur
  have hb := ops_bounds h0 (by omega) hnc hcur (fun v _ => trivial)
  obtain ⟨f1, _, _, _, f5, f6⟩ := snapshot_fields hb.1.shape hs
  by_cases hc : ((newDist pieces nc ts gid).ops ops).count = 0
  · have : vs = [] := by rw [hb.1.count] at hc; exact List.length_eq_zero_iff.1 hc
    subst this
    unfold Dist.snapshot at hs
    rw [if_neg (by rw [hb.1.shape.len]; omega)] at hs
    simp only [hc, if_true] at hs
    cases hs; simp [Arith.lit]
  · rw [(f5 hc).2.2.2.2.1]; exact hsum

/-- **C28 (float64, partial)** If all values are multiples of one power of two and their magnitudes
add up to at most `2^53` of it (integers, halves, …), Sum is exactly the sum of the current values.
Missing: other values, for which Sum is only close (`C28_sum_close`) and can be far off in relative
terms (`C28_cancellation`). -/
theorem C28_sum_of_multiples_partial (e : ℤ) (he : -1074 ≤ e) (he2 : e ≤ 970) (l : List Fl)
    (pieces : List (Piece Fl)) (h : newArbitraryBucketer l = .ok pieces) (nc : Bool) (ts : Time)
    (gid : ℕ) (u : MUnit) (hist : List DCall) (vs : List Fl) (hlen : hist.length < 2 ^ 64 - 1) :
    let ops := hist.filterMap (toOp u)
    (nc = true ∨ ops.all isAddOp = true) → current [] ops = some vs →
    (∀ v ∈ mentioned ops, OnGrid e v) → magQ (mentioned ops) ≤ 2 ^ 53 * p2 e →
    ∀ s, (registered pieces nc ts gid u hist).snapshot = some s → s.sum.toQ? = some (sumQ vs) := by
  intro ops hnc hcur hg hmag s hs
  unfold registered at hs
  rw [newDist_setUnit] at hs
  have hol : ops.length ≤ hist.length := List.length_filterMap_le _ _
  have hcinv : CInv ({ newDist pieces nc ts gid with unitSet := true, unit := u } : Dist Fl) [] := by
    obtain ⟨a, b, c⟩ := newDist_cinv (pieces_ne h) nc ts gid
    exact ⟨⟨a.len, a.ne⟩, b, c⟩
  obtain ⟨g1, g2, g3⟩ := grid_total e he he2 hcinv (by show Fl.Rep b64 (.fin ((0 : ℤ) : ℚ)); decide +kernel)
    (by show Fl.toQ? (.fin ((0 : ℤ) : ℚ)) = _; simp [Fl.toQ?]) (by omega) hnc hcur hg hmag
  have hops : List.filterMap (toOp u) hist = ops := rfl
  rw [hops] at hs
  obtain ⟨f1, _, _, _, f5, f6⟩ := snapshot_fields g1.shape hs
  by_cases hc : (({ newDist pieces nc ts gid with unitSet := true, unit := u } : Dist Fl).ops ops).count = 0
  · have : vs = [] := by rw [g1.count] at hc; exact List.length_eq_zero_iff.1 hc
    subst this
    unfold Dist.snapshot at hs
    rw [if_neg (by rw [g1.shape.len]; omega)] at hs
    simp only [hc, if_true] at hs
    cases hs; simp [Arith.lit, sumQ, Fl.toQ?]
  · rw [(f5 hc).2.2.2.2.1]; exact g3

/-- **C28 (float64, all finite values)** After `n ≤ 2^48` operations whose values have magnitudes
adding up to `M`, Sum is within `n (2^-50 M + 2^-1073)` of the sum of the current values. -/
theorem C28_sum_close (l : List Fl)
    (pieces : List (Piece Fl)) (h : newArbitraryBucketer l = .ok pieces) (nc : Bool) (ts : Time)
    (gid : ℕ) (u : MUnit) (hist : List DCall) (vs : List Fl) :
    let ops := hist.filterMap (toOp u)
    ops.length ≤ 2 ^ 48 → (nc = true ∨ ops.all isAddOp = true) → current [] ops = some vs →
    (∀ v ∈ mentioned ops, Finite v) → magQ (mentioned ops) ≤ p2 900 →
    ∀ s, (registered pieces nc ts gid u hist).snapshot = some s → Finite s.sum ∧
      |val s.sum - sumQ vs| ≤ ops.length * (magQ (mentioned ops) * p2 (-50) + p2 (-1073)) := by
  intro ops hlen hnc hcur hg hmag s hs
  unfold registered at hs
  rw [newDist_setUnit] at hs
  have hops : List.filterMap (toOp u) hist = ops := rfl
  rw [hops] at hs
  obtain ⟨g1, g2, g3⟩ := reg_sum_close h nc ts gid u hlen hnc hcur hg hmag
  obtain ⟨f1, _, _, _, f5, f6⟩ := snapshot_fields g1.shape hs
  by_cases hc : (({ newDist pieces nc ts gid with unitSet := true, unit := u } : Dist Fl).ops ops).count = 0
  · have : vs = [] := by rw [g1.count] at hc; exact List.length_eq_zero_iff.1 hc
    subst this
    unfold Dist.snapshot at hs
    rw [if_neg (by rw [g1.shape.len]; omega)] at hs
    simp only [hc, if_true] at hs
    cases hs
    refine ⟨⟨by show Fl.Rep b64 (.fin ((0 : ℤ) : ℚ)); decide +kernel, by simp [Arith.lit, Fl.toQ?]⟩, ?_⟩
    have : val (Arith.lit 0 : Fl) - sumQ [] = 0 := by simp [val, Arith.lit, sumQ, Fl.toQ?]
    show |val (Arith.lit 0 : Fl) - sumQ []| ≤ _
    rw [this, abs_zero]
    exact mul_nonneg (Nat.cast_nonneg _)
      (add_nonneg (mul_nonneg (magQ_nonneg _) (p2_pos _).le) (p2_pos _).le)
  · rw [(f5 hc).2.2.2.2.1]; exact ⟨g2, g3⟩

/-- pieces with the single endpoint 1 -/
def unitPieces : List (Piece Fl) := [⟨.fin 0, .fin 1, true, false⟩, ⟨.fin 1, .fin 0, false, true⟩]

example : newArbitraryBucketer [Fl.fin 1] = .ok unitPieces := by decide +kernel

/-- a float64 API argument -/
def num (q : ℚ) : Val := .scalar none (.float64 (.fin q))

/-- **C28 is false of float64**: after adding `2^53` and 1 and removing `2^53`, the distribution
holds the single value 1 but shows Sum 0. -/
theorem C28_cancellation :
    let hist := [.add (num 9007199254740992) ⟨1, 0⟩, .add (num 1) ⟨2, 0⟩,
      .remove (num 9007199254740992) ⟨3, 0⟩]
    current [] (hist.filterMap (toOp .second)) = some [.fin 1] ∧
    (registered unitPieces true ⟨0, 0⟩ 1 .second hist).snapshot.map (fun s => (s.count, s.sum)) =
      some (1, .fin 0) := by
  decide +kernel

/-- hypotheses of the theorems on a concrete history: 0.5, 2, then 2 updated to 3, 0.5 removed -/
example :
    let hist := [.add (num (1/2)) ⟨1, 0⟩, .add (num 2) ⟨2, 0⟩, .update (num 2) (num 3) ⟨3, 0⟩,
      .remove (num (1/2)) ⟨4, 0⟩]
    let ops := hist.filterMap (toOp .second)
    current [] ops = some [.fin 3] ∧ mentioned ops = [.fin (1/2), .fin 2, .fin 3] ∧
    magQ (mentioned ops) = 11/2 ∧
    (registered unitPieces true ⟨0, 0⟩ 1 .second hist).snapshot.map (fun s => (s.count, s.sum)) =
      some (1, .fin 3) := by
  decide +kernel

/-! ## C29 -/

/-- **C29 (bounds)** Every value currently in the distribution lies between Min and Max. -/
theorem C29_bounds (l : List Fl) (pieces : List (Piece Fl)) (h : newArbitraryBucketer l = .ok pieces)
    (nc : Bool) (ts : Time) (gid : ℕ) (u : MUnit) (hist : List DCall) (vs : List Fl)
    (hlen : hist.length < 2 ^ 64 - 1) :
    let ops := hist.filterMap (toOp u)
    (nc = true ∨ ops.all isAddOp = true) → current [] ops = some vs →
    (∀ v ∈ mentioned ops, v ≠ .nan) →
    ∀ s, (registered pieces nc ts gid u hist).snapshot = some s →
      s.count = vs.length ∧ ∀ v ∈ vs, Fl.le s.min v = true ∧ Fl.le v s.max = true := by
  intro ops hnc hcur hg s hs
  unfold registered at hs
  rw [newDist_setUnit] at hs
  have hops : List.filterMap (toOp u) hist = ops := rfl
  rw [hops] at hs
  have hol : ops.length ≤ hist.length := List.length_filterMap_le _ _
  obtain ⟨g1, g2, g3⟩ := ops_bounds (reg_cinv h nc ts gid u) (by omega) hnc hcur hg
  obtain ⟨f1, _, _, _, f5, f6⟩ := snapshot_fields g1.shape hs
  refine ⟨by rw [f1, g1.count], fun v hv => ?_⟩
  have hne : vs ≠ [] := List.ne_nil_of_mem hv
  have hc : (({ newDist pieces nc ts gid with unitSet := true, unit := u } : Dist Fl).ops ops).count ≠ 0 := by
    rw [g1.count]; exact fun hh => hne (List.length_eq_zero_iff.1 hh)
  obtain ⟨b1, b2, b3⟩ := g3 hne
  obtain ⟨c1, c2, c3⟩ := b3 v hv
  rw [(f5 hc).2.2.1, (f5 hc).2.2.2.1]
  exact ⟨(Fl.le_iff b1 c1).2 c2, (Fl.le_iff c1 b2).2 c3⟩

/-- **C29 (cumulative)** When values are only added, Min and Max are themselves among the values
added (so, with `C29_bounds`, the least and the greatest one). -/
theorem C29_attained (l : List Fl) (pieces : List (Piece Fl)) (h : newArbitraryBucketer l = .ok pieces)
    (nc : Bool) (ts : Time) (gid : ℕ) (u : MUnit) (hist : List DCall) (vs : List Fl)
    (hlen : hist.length < 2 ^ 64 - 1) :
    let ops := hist.filterMap (toOp u)
    ops.all isAddOp = true → current [] ops = some vs → (∀ v ∈ mentioned ops, v ≠ .nan) →
    ∀ s, (registered pieces nc ts gid u hist).snapshot = some s → vs ≠ [] →
      s.min ∈ vs ∧ s.max ∈ vs := by
  intro ops hadd hcur hg s hs hne
  unfold registered at hs
  rw [newDist_setUnit] at hs
  have hops : List.filterMap (toOp u) hist = ops := rfl
  rw [hops] at hs
  have hol : ops.length ≤ hist.length := List.length_filterMap_le _ _
  obtain ⟨g1, g2, g3⟩ := ops_bounds (reg_cinv h nc ts gid u) (by omega) (Or.inr hadd) hcur hg
  have hatt := ops_attained (reg_cinv h nc ts gid u) (by omega) hadd hcur hne
  obtain ⟨f1, _, _, _, f5, f6⟩ := snapshot_fields g1.shape hs
  have hc : (({ newDist pieces nc ts gid with unitSet := true, unit := u } : Dist Fl).ops ops).count ≠ 0 := by
    rw [g1.count]; exact fun hh => hne (List.length_eq_zero_iff.1 hh)
  rw [(f5 hc).2.2.1, (f5 hc).2.2.2.1]
  exact hatt

/-- **C29 (update and remove)** In any state, an Update that returns normally leaves Min alone or
lowers it, and leaves Max alone or raises it; a Remove that returns normally and leaves some value
leaves both alone. -/
theorem C29_update_widens_remove_keeps (l : List Fl) (pieces : List (Piece Fl))
    (h : newArbitraryBucketer l = .ok pieces) (nc : Bool) (ts : Time) (gid : ℕ) (hist : List DCall)
    (o n : Val) (t : Time) (s s' : Snapshot Fl) :
    let d := (newDist pieces nc ts gid).calls hist
    d.snapshot = some s →
    (∀ r, r = d.updateWithTs o n t → r.2 = none → r.1.snapshot = some s' →
      (s'.min = s.min ∨ Fl.lt s'.min s.min = true) ∧ (s'.max = s.max ∨ Fl.lt s.max s'.max = true)) ∧
    (∀ r, r = d.removeWithTs o t → r.2 = none → r.1.snapshot = some s' → s'.count ≠ 0 →
      s'.min = s.min ∧ s'.max = s.max) := by
  intro d hs
  have hsh : Shape d := calls_shape (newDist_inv (pieces_ne h) nc ts gid).shape hist
  obtain ⟨f1, _, _, _, f5, f6⟩ := snapshot_fields hsh hs
  constructor
  · rintro r rfl hok hs'
    obtain ⟨x, y, _, _, he⟩ := update_ok hok
    rw [he] at hok hs'
    have hsh' := op_shape hsh (.update x y t)
    obtain ⟨k1, _, _, _, k5, _⟩ := snapshot_fields hsh' hs'
    rcases update_eq hsh x y t with ⟨_, he⟩ | ⟨_, _, he⟩ | ⟨_, h0, c1, _, ⟨_, he⟩ | ⟨c2, _, he⟩⟩ <;>
      rw [he] at hok <;> first | (cases hok; done) | skip
    have hop : (d.op (.update x y t)) = (d.updated x y t c1 c2, none) := he
    rw [hop] at k5
    have h0' : (d.updated x y t c1 c2).count ≠ 0 := h0
    rw [(f5 h0).2.2.1, (f5 h0).2.2.2.1, (k5 h0').2.2.1, (k5 h0').2.2.2.1]
    show ((if Fl.lt y d.min = true then y else d.min) = d.min ∨
        Fl.lt (if Fl.lt y d.min = true then y else d.min) d.min = true) ∧
      ((if Fl.lt y d.min = true then d.max else if Fl.lt d.max y = true then y else d.max) = d.max ∨
        Fl.lt d.max (if Fl.lt y d.min = true then d.max else if Fl.lt d.max y = true then y else d.max) = true)
    constructor
    · split
      · next hh => exact Or.inr hh
      · exact Or.inl rfl
    · split
      · exact Or.inl rfl
      · split
        · next hh => exact Or.inr hh
        · exact Or.inl rfl
  · rintro r rfl hok hs' hc'
    obtain ⟨x, _, he⟩ := remove_ok hok
    rw [he] at hok hs'
    have hsh' := op_shape hsh (.remove x t)
    obtain ⟨k1, _, _, _, k5, _⟩ := snapshot_fields hsh' hs'
    rcases remove_eq hsh x t with ⟨_, he⟩ | ⟨_, _, he⟩ | ⟨_, _, _, he⟩ | ⟨_, h0, c, _, he⟩ <;>
      rw [he] at hok <;> first | (cases hok; done) | skip
    have hop : (d.op (.remove x t)) = (d.removed x t c, none) := he
    rw [k1] at hc'
    rw [hop] at k5 hc'
    rw [(f5 h0).2.2.1, (f5 h0).2.2.2.1, (k5 hc').2.2.1, (k5 hc').2.2.2.1]
    exact ⟨rfl, rfl⟩

/-- infinities are allowed: values -∞, 5 and 2; then 5 updated to 7 -/
example :
    let hist := [.add (.scalar none (.float64 (.inf true))) ⟨1, 0⟩, .add (num 5) ⟨2, 0⟩,
      .add (num 2) ⟨2, 0⟩, .update (num 5) (num 7) ⟨3, 0⟩]
    let ops := hist.filterMap (toOp .second)
    current [] ops = some [.fin 7, .fin 2, .inf true] ∧ (∀ v ∈ mentioned ops, v ≠ .nan) ∧
    (registered unitPieces true ⟨0, 0⟩ 1 .second hist).snapshot.map (fun s => (s.min, s.max)) =
      some (.inf true, .fin 7) := by
  decide +kernel

/-! ## C30 -/

/-- **C30 (exact arithmetic)** Average and median of a non-empty distribution lie between Min and
Max. -/
theorem C30_in_exact_arithmetic (l : List ℚ) (pieces : List (Piece ℚ))
    (h : newArbitraryBucketer l = .ok pieces) (nc : Bool) (ts : Time) (gid : ℕ) (ops : List (DOp ℚ))
    (vs : List ℚ) (hlen : ops.length < 2 ^ 64 - 1) (hnc : nc = true ∨ ops.all isAddOp = true)
    (hcur : current [] ops = some vs) (hne : vs ≠ []) (s : Snapshot ℚ)
    (hs : ((newDist pieces nc ts gid).ops ops).snapshot = some s) :
    (s.min ≤ s.average ∧ s.average ≤ s.max) ∧ (s.min ≤ s.median ∧ s.median ≤ s.max) := by
  have h0 := newDist_cinv (pieces_ne h) nc ts gid
  have hsum := ops_sum h0 (by simp [newDist, Arith.lit]) (by omega) hnc hcur
  obtain ⟨g1, g2, g3⟩ := ops_bounds h0 (by omega) hnc hcur (fun v _ => trivial)
  have hvl : vs.length ≤ ops.length := by simpa using current_le hcur
  obtain ⟨f1, _, _, _, f5, f6⟩ := snapshot_fields g1.shape hs
  have hc : ((newDist pieces nc ts gid).ops ops).count ≠ 0 := by
    rw [g1.count]; exact fun hh => hne (List.length_eq_zero_iff.1 hh)
  obtain ⟨-, -, e1, e2, e3, e4, e5⟩ := f5 hc
  rw [e1, e2, e4]
  constructor
  · have := average_bounds hne (bounds_q g3)
    show _ ≤ ((newDist pieces nc ts gid).ops ops).total /
      ((((newDist pieces nc ts gid).ops ops).count : ℕ) : ℚ) ∧ _
    rw [hsum, g1.count]; exact this
  · exact median_q h g2 g1 g3 hsum hne (by omega) e5

/-- **C30 (average, partial)** If all values are multiples of one power of two whose magnitudes add
up to at most `2^53` of it, the float64 average lies between Min and Max.  Missing: other values
(`C30_average_out_of_bounds`; how far off, `C30_average_close`). -/
theorem C30_average_of_multiples_partial (e : ℤ) (he : -1074 ≤ e) (he2 : e ≤ 970) (l : List Fl)
    (pieces : List (Piece Fl)) (h : newArbitraryBucketer l = .ok pieces) (nc : Bool) (ts : Time)
    (gid : ℕ) (u : MUnit) (hist : List DCall) (vs : List Fl) (hlen : hist.length ≤ 2 ^ 53) :
    let ops := hist.filterMap (toOp u)
    (nc = true ∨ ops.all isAddOp = true) → current [] ops = some vs → vs ≠ [] →
    (∀ v ∈ mentioned ops, OnGrid e v) → magQ (mentioned ops) ≤ 2 ^ 53 * p2 e →
    ∀ s, (registered pieces nc ts gid u hist).snapshot = some s →
      Fl.le s.min s.average = true ∧ Fl.le s.average s.max = true := by
  intro ops hnc hcur hne hg hmag s hs
  unfold registered at hs
  rw [newDist_setUnit] at hs
  have hol : ops.length ≤ hist.length := List.length_filterMap_le _ _
  have hops : List.filterMap (toOp u) hist = ops := rfl
  rw [hops] at hs
  have hfin : ∀ v ∈ mentioned ops, Finite v := fun v hv => grid_fin (hg v hv)
  obtain ⟨g1, g2, g3⟩ := grid_total e he he2 (reg_cinv h nc ts gid u)
    (by show Fl.Rep b64 (.fin ((0 : ℤ) : ℚ)); decide +kernel)
    (by show Fl.toQ? (.fin ((0 : ℤ) : ℚ)) = _; simp [Fl.toQ?]) (by omega) hnc hcur hg hmag
  obtain ⟨k1, k2, k3⟩ := ops_bounds (reg_cinv h nc ts gid u) (by omega) hnc hcur
    (fun v hv => ne_nan_fin (hfin v hv))
  obtain ⟨fm, fM⟩ := ops_minmax_fin (reg_cinv h nc ts gid u) (by omega) hnc hcur hfin hne
  have hvs := current_mem hcur (by simp) hfin
  obtain ⟨f1, _, _, _, f5, f6⟩ := snapshot_fields g1.shape hs
  have hvl : vs.length ≤ ops.length := by simpa using current_le hcur
  have hc : (({ newDist pieces nc ts gid with unitSet := true, unit := u } : Dist Fl).ops ops).count ≠ 0 := by
    rw [g1.count]; exact fun hh => hne (List.length_eq_zero_iff.1 hh)
  obtain ⟨-, -, e1, e2, e3, e4, e5⟩ := f5 hc
  rw [e1, e2, e4]
  have hb : ∀ v ∈ vs.map val, val (Dist.ops ({ newDist pieces nc ts gid with unitSet := true, unit := u } : Dist Fl) ops).min ≤ v ∧
      v ≤ val (Dist.ops ({ newDist pieces nc ts gid with unitSet := true, unit := u } : Dist Fl) ops).max := by
    intro q hq
    obtain ⟨v, hv, rfl⟩ := List.mem_map.1 hq
    obtain ⟨_, _, b3⟩ := k3 hne
    obtain ⟨_, c2, c3⟩ := b3 v hv
    exact ⟨(key_le_fin fm (hvs v hv)).1 c2, (key_le_fin (hvs v hv) fM).1 c3⟩
  have havg := average_bounds (by simpa using hne) hb
  exact avg_between fm fM g2 g3 (by rw [g1.count]; omega) (by rw [g1.count, List.length_pos_iff]; exact hne)
    (by rw [g1.count]; simpa [sumQ] using havg)

/-- **C30 (average, all finite values)** The float64 average is within `(n + 1) (2^-50 M + 2^-1073)`
of the exact average of the current values, hence at most that far outside `[Min, Max]`. -/
theorem C30_average_close (l : List Fl)
    (pieces : List (Piece Fl)) (h : newArbitraryBucketer l = .ok pieces) (nc : Bool) (ts : Time)
    (gid : ℕ) (u : MUnit) (hist : List DCall) (vs : List Fl) :
    let ops := hist.filterMap (toOp u)
    ops.length ≤ 2 ^ 48 → (nc = true ∨ ops.all isAddOp = true) → current [] ops = some vs → vs ≠ [] →
    (∀ v ∈ mentioned ops, Finite v) → magQ (mentioned ops) ≤ p2 900 →
    ∀ s, (registered pieces nc ts gid u hist).snapshot = some s →
      Near (val s.min) (val s.max)
        ((ops.length + 1) * (magQ (mentioned ops) * p2 (-50) + p2 (-1073))) s.average ∧
      |val s.average - sumQ vs / vs.length| ≤
        (ops.length + 1) * (magQ (mentioned ops) * p2 (-50) + p2 (-1073)) := by
  intro ops hlen hnc hcur hne hg hmag s hs
  unfold registered at hs
  rw [newDist_setUnit] at hs
  have hops : List.filterMap (toOp u) hist = ops := rfl
  rw [hops] at hs
  obtain ⟨g1, g2, g3⟩ := reg_sum_close h nc ts gid u hlen hnc hcur hg hmag
  obtain ⟨k1, k2, k3⟩ := ops_bounds (reg_cinv h nc ts gid u) (by omega) hnc hcur
    (fun v hv => ne_nan_fin (hg v hv))
  obtain ⟨fm, fM⟩ := ops_minmax_fin (reg_cinv h nc ts gid u) (by omega) hnc hcur hg hne
  have hvs := current_mem hcur (by simp) hg
  have hvl : vs.length ≤ ops.length := by simpa using current_le hcur
  obtain ⟨f1, _, _, _, f5, f6⟩ := snapshot_fields g1.shape hs
  have hc : (({ newDist pieces nc ts gid with unitSet := true, unit := u } : Dist Fl).ops ops).count ≠ 0 := by
    rw [g1.count]; exact fun hh => hne (List.length_eq_zero_iff.1 hh)
  obtain ⟨-, -, e1, e2, e3, e4, e5⟩ := f5 hc
  have hb : ∀ v ∈ vs.map val, val s.min ≤ v ∧ v ≤ val s.max := by
    intro q hq
    obtain ⟨v, hv, rfl⟩ := List.mem_map.1 hq
    obtain ⟨_, _, b3⟩ := k3 hne
    obtain ⟨_, c2, c3⟩ := b3 v hv
    rw [e1, e2]
    exact ⟨(key_le_fin fm (hvs v hv)).1 c2, (key_le_fin (hvs v hv) fM).1 c3⟩
  have havg := average_bounds (by simpa using hne) hb
  rw [List.length_map] at havg
  have hmagvs : magQ vs ≤ magQ (mentioned ops) := by simpa [magQ] using current_mag hcur
  obtain ⟨r1, r2⟩ := avg_err (n := ops.length) g2 hne hlen hvl (magQ_nonneg _) hmag
    (le_trans (abs_sumQ_le vs) hmagvs) g3
  rw [e4, g1.count]
  have r2' := abs_le.1 r2
  have e : sumQ vs = (vs.map val).sum := rfl
  rw [← e] at havg
  exact ⟨⟨r1, by linarith, by linarith⟩, r2⟩

/-- **C30 (median, all finite values)** For three or more values the float64 median is at most
`2^-48 max(|Min|, |Max|) + 2^-1071` outside `[Min, Max]`.  (For one or two values the median is the
average.) -/
theorem C30_median_close (l : List Fl) (hl0 : ∀ e ∈ l, e ≠ .nan ∧ e.Rep b64)
    (pieces : List (Piece Fl)) (h : newArbitraryBucketer l = .ok pieces) (nc : Bool) (ts : Time)
    (gid : ℕ) (u : MUnit) (hist : List DCall) (vs : List Fl) (hlen : hist.length < 2 ^ 64 - 1) :
    let ops := hist.filterMap (toOp u)
    (nc = true ∨ ops.all isAddOp = true) → current [] ops = some vs →
    (∀ v ∈ mentioned ops, Finite v) →
    ∀ s, (registered pieces nc ts gid u hist).snapshot = some s →
      (3 ≤ vs.length → max |val s.min| |val s.max| ≤ p2 900 →
        Near (val s.min) (val s.max) (max |val s.min| |val s.max| * p2 (-48) + p2 (-1071)) s.median) ∧
      (vs ≠ [] → vs.length ≤ 2 → s.median = s.average) := by
  intro ops hnc hcur hg s hs
  unfold registered at hs
  rw [newDist_setUnit] at hs
  have hops : List.filterMap (toOp u) hist = ops := rfl
  rw [hops] at hs
  have hol : ops.length ≤ hist.length := List.length_filterMap_le _ _
  obtain ⟨g1, g2, g3⟩ := ops_bounds (reg_cinv h nc ts gid u) (by omega) hnc hcur
    (fun v hv => ne_nan_fin (hg v hv))
  have hvs := current_mem hcur (by simp) hg
  have hvl : vs.length ≤ ops.length := by simpa using current_le hcur
  obtain ⟨f1, _, _, _, f5, f6⟩ := snapshot_fields g1.shape hs
  constructor
  · intro h3 hB
    have hne : vs ≠ [] := by rintro rfl; simp at h3
    obtain ⟨fm, fM⟩ := ops_minmax_fin (reg_cinv h nc ts gid u) (by omega) hnc hcur hg hne
    have hc : (({ newDist pieces nc ts gid with unitSet := true, unit := u } : Dist Fl).ops ops).count ≠ 0 := by
      rw [g1.count]; omega
    obtain ⟨-, -, e1, e2, e3, e4, e5⟩ := f5 hc
    rw [e1, e2] at hB ⊢
    exact median_near h hl0 g2 g1 g3 fm fM hvs hB (le_max_left _ _) (le_max_right _ _) h3 (by omega) e5
  · intro hne h2
    have hc : (({ newDist pieces nc ts gid with unitSet := true, unit := u } : Dist Fl).ops ops).count ≠ 0 := by
      rw [g1.count]; exact fun hh => hne (List.length_eq_zero_iff.1 hh)
    obtain ⟨-, -, e1, e2, e3, e4, e5⟩ := f5 hc
    unfold Dist.calculateMedian at e5
    rw [if_pos (by rw [g1.count]; exact h2)] at e5
    simp only [Option.some.injEq] at e5
    rw [← e5, e4]

/-- 0.1 as a float64 -/
def tenth : ℚ := 3602879701896397 / 36028797018963968

/-- **C30 is false of the float64 average**: ten values of 0.1 have Average 0.09999999999999999,
below Min. -/
theorem C30_average_out_of_bounds :
    let hist := List.replicate 10 (.add (num tenth) ⟨1, 0⟩)
    (Fl.fin tenth).Rep b64 ∧
    (registered unitPieces false ⟨0, 0⟩ 1 .second hist).snapshot.map
      (fun s => (s.min, Fl.lt s.average s.min)) = some (.fin tenth, true) := by
  decide +kernel

/-- 0.9 as a float64 -/
def nineTenths : ℚ := 8106479329266893 / 9007199254740992

/-- **C30 is false of the float64 median**: the values 0.5, 0.9, 0.9 with the endpoint 0.9 have
Median 0.9000000000000001, above Max. -/
theorem C30_median_out_of_bounds :
    ∃ pieces, newArbitraryBucketer [Fl.fin nineTenths] = .ok pieces ∧
    (registered pieces false ⟨0, 0⟩ 1 .second
      [.add (num (1/2)) ⟨1, 0⟩, .add (num nineTenths) ⟨1, 0⟩, .add (num nineTenths) ⟨1, 0⟩]).snapshot.map
      (fun s => (s.max, Fl.lt s.max s.median)) = some (.fin nineTenths, true) :=
  ⟨_, rfl, by decide +kernel⟩

/-- hypotheses of the C30 theorems: integers 1, 2, 3, 10 -/
example :
    let hist := [.add (num 1) ⟨1, 0⟩, .add (num 2) ⟨1, 0⟩, .add (num 3) ⟨1, 0⟩, .add (num 10) ⟨1, 0⟩]
    let ops := hist.filterMap (toOp .second)
    current [] ops = some [.fin 10, .fin 3, .fin 2, .fin 1] ∧ magQ (mentioned ops) = 16 ∧
    (registered unitPieces false ⟨0, 0⟩ 1 .second hist).snapshot.map
      (fun s => (s.min, s.average, s.max)) = some (.fin 1, .fin 4, .fin 10) := by
  decide +kernel

example : OnGrid 0 (.fin 10) := ⟨by decide +kernel, 10, by simp [Fl.toQ?, p2]⟩

end Tricorder
