import Verif.Proof.DistVals
import Verif.Proof.FloatErr
/-! # Average and median -/

namespace Tricorder
open Go Arith Spec

/-! ### exact arithmetic -/

theorem bounds_q {mn mx : ℚ} {vs : List ℚ} (h : Bounds mn mx vs) (v : ℚ) (hv : v ∈ vs) :
    mn ≤ v ∧ v ≤ mx := by
  obtain ⟨_, _, h3⟩ := h (List.ne_nil_of_mem hv)
  obtain ⟨_, a, b⟩ := h3 v hv
  exact ⟨WithTop.coe_le_coe.1 (WithBot.coe_le_coe.1 a), WithTop.coe_le_coe.1 (WithBot.coe_le_coe.1 b)⟩

theorem interp_between {m M a b f : ℚ} (h0 : 0 ≤ f) (h1 : f ≤ 1) (ha : m ≤ a ∧ a ≤ M)
    (hb : m ≤ b ∧ b ≤ M) : m ≤ interpolate a b f ∧ interpolate a b f ≤ M := by
  show m ≤ (((1 : ℤ) : ℚ) - f) * a + f * b ∧ (((1 : ℤ) : ℚ) - f) * a + f * b ≤ M
  push_cast
  constructor
  · nlinarith [mul_nonneg h0 (sub_nonneg.2 hb.1), mul_nonneg (sub_nonneg.2 h1) (sub_nonneg.2 ha.1)]
  · nlinarith [mul_nonneg h0 (sub_nonneg.2 hb.2), mul_nonneg (sub_nonneg.2 h1) (sub_nonneg.2 ha.2)]

theorem range_flags {F : Type} [Arith F] {l : List F} {i : ℕ} {p : Piece F} (h : range l i = some p) :
    (p.first = true → i = 0) ∧ (p.last = true → i = l.length) := by
  cases i with
  | zero => cases l <;> simp [range] at h; subst h; simp
  | succ i =>
    simp only [range] at h
    split at h
    · cases h; simp
    · next a b c =>
      cases h
      have h1 : i < l.length := by
        by_contra hc; rw [List.getElem?_eq_none (by omega)] at b; cases b
      have h2 : ¬ i + 1 < l.length := by
        intro hc; rw [List.getElem?_eq_getElem hc] at c; cases c
      simp; omega
    · cases h

theorem indexToValue_q {l : List ℚ} {pieces : List (Piece ℚ)} (hl : fromEndpoints l = .ok pieces)
    {d : Dist ℚ} {vs : List ℚ} (hp : d.pieces = pieces) (hc : CInv d vs) (hbd : Bounds d.min d.max vs)
    (valueIdx : ℕ) (h2 : valueIdx < d.counts.sum) (h3 : d.counts.sum < 18446744073709551615) :
    ∃ r, d.indexToValue valueIdx = some r ∧ d.min ≤ r ∧ r ≤ d.max := by
  obtain ⟨i, k, c, p, g1, g2, g3, g4, g5⟩ := indexToValue_some hc.shape valueIdx h2 h3
  refine ⟨_, g5, ?_⟩
  have hi : i < d.pieces.length := by
    by_contra hcc; rw [List.getElem?_eq_none (by omega)] at g4; cases g4
  have hcnt := hc.counts i hi
  rw [g1] at hcnt
  simp only [Option.some.injEq] at hcnt
  have hpos : 0 < vs.countP fun v => decide (findIndex d.pieces v = i) := by omega
  obtain ⟨v, hv, hvi⟩ := List.countP_pos_iff.1 hpos
  simp only [decide_eq_true_eq] at hvi
  obtain ⟨b1, b2⟩ := bounds_q hbd v hv
  have hmm : d.min ≤ d.max := le_trans b1 b2
  rw [hp] at hvi g4 
  obtain ⟨p', hp', e1, e2⟩ := findIndex_piece hl v
  rw [hvi, g4] at hp'; cases hp'
  rw [fromEndpoints_get hl] at g4
  obtain ⟨f1, f2⟩ := range_flags g4
  have hlen := (fromEndpoints_length hl).1
  have e1' : i = 0 ∨ p.start ≤ v := by
    rcases e1 with e | e
    · exact Or.inl (f1 e)
    · right; have : decide (v < p.start) = false := e; simpa using this
  have e2' : i = l.length ∨ v < p.stop := by
    rcases e2 with e | e
    · exact Or.inl (f2 e)
    · right; have : decide (v < p.stop) = true := e; simpa using this
  have hlpos : 0 < l.length := List.length_pos_iff.2 (fromEndpoints_length hl).2
  apply interp_between
  · show (0 : ℚ) ≤ ((k + 1 : ℕ) : ℚ) / ((c + 1 : ℕ) : ℚ)
    positivity
  · show ((k + 1 : ℕ) : ℚ) / ((c + 1 : ℕ) : ℚ) ≤ 1
    have : ((k + 1 : ℕ) : ℚ) ≤ ((c + 1 : ℕ) : ℚ) := by exact_mod_cast (by omega : k + 1 ≤ c + 1)
    exact div_le_one_of_le₀ this (by positivity)
  · split
    · exact ⟨le_refl _, hmm⟩
    · next h0 =>
      have hs : p.start ≤ v := e1'.resolve_left h0
      exact ⟨le_max_right _ _, max_le (le_trans hs b2) hmm⟩
  · split
    · next h0 =>
      have hs : v < p.stop := e2'.resolve_left (by omega)
      exact ⟨le_min (le_trans b1 hs.le) hmm, min_le_right _ _⟩
    · split
      · exact ⟨hmm, le_refl _⟩
      · next h0 h1 =>
        rw [hp, hlen] at h1
        have hs : v < p.stop := e2'.resolve_left (by omega)
        exact ⟨le_min (le_trans b1 hs.le) hmm, min_le_right _ _⟩

theorem sum_bounds {m M : ℚ} {vs : List ℚ} (h : ∀ v ∈ vs, m ≤ v ∧ v ≤ M) :
    m * vs.length ≤ vs.sum ∧ vs.sum ≤ M * vs.length := by
  induction vs with
  | nil => simp
  | cons v vs ih =>
    obtain ⟨a, b⟩ := ih fun x hx => h x (by simp [hx])
    obtain ⟨c, d⟩ := h v (by simp)
    simp only [List.sum_cons, List.length_cons]
    push_cast
    constructor <;> linarith

theorem average_bounds {m M : ℚ} {vs : List ℚ} (hne : vs ≠ []) (h : ∀ v ∈ vs, m ≤ v ∧ v ≤ M) :
    m ≤ vs.sum / vs.length ∧ vs.sum / vs.length ≤ M := by
  obtain ⟨a, b⟩ := sum_bounds h
  have hpos : (0 : ℚ) < vs.length := by exact_mod_cast List.length_pos_iff.2 hne
  rw [le_div_iff₀ hpos, div_le_iff₀ hpos]
  exact ⟨a, b⟩

/-- counts of a distribution with the values `vs` -/
theorem counts_sum {F : Type} [Arith F] {l : List ℕ} {vs : List F} (f : F → ℕ)
    (h : ∀ i, i < l.length → l[i]? = some (vs.countP fun v => decide (f v = i)))
    (hf : ∀ v ∈ vs, f v < l.length) : l.sum = vs.length := by
  induction vs generalizing l with
  | nil =>
    have : l = List.replicate l.length 0 := by
      apply List.ext_getElem?
      intro i
      by_cases hi : i < l.length
      · rw [h i hi]; simp [hi]
      · rw [List.getElem?_eq_none (by omega), List.getElem?_eq_none (by simp; omega)]
    rw [this]; simp
  | cons v vs ih =>
    have hv := hf v (by simp)
    have hget := h (f v) hv
    simp only [List.countP_cons, decide_true, if_true] at hget
    have hs := sum_set l (f v) (vs.countP fun x => decide (f x = f v)) _ hget
    have := ih (l := l.set (f v) (vs.countP fun x => decide (f x = f v))) ?_ ?_
    · simp only [List.length_cons]; omega
    · intro i hi
      simp only [List.length_set] at hi
      by_cases hfi : f v = i
      · subst hfi; rw [List.getElem?_set_self hi]
      · rw [List.getElem?_set_ne hfi, h i hi]; simp [hfi]
    · intro x hx; simpa using hf x (by simp [hx])

theorem CInv.sum {F : Type} [Arith F] [DecidableEq F] {d : Dist F} {vs : List F} (h : CInv d vs) :
    d.counts.sum = vs.length := by
  apply counts_sum (F := F) (findIndex d.pieces)
  · intro i hi; exact h.counts i (by rw [← h.shape.len]; exact hi)
  · intro v _; rw [h.shape.len]; exact findIndex_lt h.shape.ne v

theorem median_q {l : List ℚ} {pieces : List (Piece ℚ)} (hl : fromEndpoints l = .ok pieces)
    {d : Dist ℚ} {vs : List ℚ} (hp : d.pieces = pieces) (hc : CInv d vs) (hbd : Bounds d.min d.max vs)
    (htot : d.total = vs.sum) (hne : vs ≠ []) (hb : vs.length < 18446744073709551615) {r : ℚ}
    (hr : d.calculateMedian = some r) : d.min ≤ r ∧ r ≤ d.max := by
  have hs := hc.sum
  have hcnt := hc.count
  unfold Dist.calculateMedian at hr
  split at hr
  · simp only [Option.some.injEq] at hr
    have := average_bounds hne (bounds_q hbd)
    rw [← hr]
    show d.min ≤ d.total / ((d.count : ℕ) : ℚ) ∧ d.total / ((d.count : ℕ) : ℚ) ≤ d.max
    rw [htot, hcnt]; exact this
  · have hpos : 0 < vs.length := List.length_pos_iff.2 hne
    split at hr
    · obtain ⟨a, ha, a1, a2⟩ := indexToValue_q hl hp hc hbd (d.count / 2 - 1) (by omega) (by omega)
      obtain ⟨b, hb', b1, b2⟩ := indexToValue_q hl hp hc hbd (d.count / 2) (by omega) (by omega)
      rw [ha, hb'] at hr
      simp only [Option.some.injEq] at hr
      rw [← hr]
      show d.min ≤ (a + b) / ((2 : ℤ) : ℚ) ∧ (a + b) / ((2 : ℤ) : ℚ) ≤ d.max
      push_cast
      constructor <;> linarith
    · obtain ⟨b, hb', b1, b2⟩ := indexToValue_q hl hp hc hbd (d.count / 2) (by omega) (by omega)
      rw [hb'] at hr; cases hr; exact ⟨b1, b2⟩

/-! ### float64 values on a common grid -/

/-- the exact value of a finite float64 -/
def val (v : Fl) : ℚ := v.toQ?.getD 0

/-- `v` is a multiple `m` of `2^e` -/
def OnGrid (e : ℤ) (v : Fl) : Prop := v.Rep b64 ∧ ∃ m : ℤ, v.toQ? = some (m * p2 e)

theorem grid_rnd {e : ℤ} (he : -1074 ≤ e) (he2 : e ≤ 970) {m : ℤ} (hm : |m| ≤ 2 ^ 53) :
    rnd b64 (m * p2 e) = .fin (m * p2 e) := by
  refine rnd_exact b64 (by decide) _ m e he hm rfl ?_
  rw [abs_mul, abs_of_pos (p2_pos e)]
  have h1 : ((|m| : ℤ) : ℚ) ≤ ((2 ^ 53 : ℤ) : ℚ) := by exact_mod_cast hm
  have h2 : ((2 ^ 53 : ℤ) : ℚ) = p2 53 := by rw [p2_eq]; norm_num
  calc |(m : ℚ)| * p2 e ≤ p2 53 * p2 e := by
        apply mul_le_mul_of_nonneg_right _ (p2_pos e).le
        rw [← h2]; push_cast at h1 ⊢; exact h1
    _ = p2 (53 + e) := (p2_add _ _).symm
    _ < p2 b64.emax := p2_lt (by show 53 + e < 1024; omega)

theorem add_grid {e : ℤ} (he : -1074 ≤ e) (he2 : e ≤ 970) {x y : Fl} {a b : ℤ}
    (rx : x.Rep b64) (ry : y.Rep b64) (hx : x.toQ? = some (a * p2 e)) (hy : y.toQ? = some (b * p2 e))
    (h : |a + b| ≤ 2 ^ 53) :
    (Fl.add b64 x y).Rep b64 ∧ (Fl.add b64 x y).toQ? = some ((a + b : ℤ) * p2 e) := by
  refine ⟨add_rep rx ry, ?_⟩
  rw [add_toQ hx hy rx ry]
  have : (a : ℚ) * p2 e + b * p2 e = ((a + b : ℤ) : ℚ) * p2 e := by push_cast; ring
  rw [this, grid_rnd he he2 h]; rfl

theorem neg_rep {x : Fl} (rx : x.Rep b64) : x.neg.Rep b64 := by
  cases x with
  | nan => trivial
  | inf => trivial
  | negZero => rfl
  | fin q =>
    simp only [Fl.neg]
    split
    · trivial
    · next h0 =>
      show rnd b64 (-q) = .fin (-q)
      obtain ⟨m, e, h1, h2, h3, h4, _⟩ := rep_form b64 q rx
      refine rnd_exact b64 (by decide) (-q) (-m) e h1 (by simpa using h2) (by rw [h3]; push_cast; ring) ?_
      rw [abs_neg]; exact h4 h0

theorem neg_toQ (x : Fl) (a : ℚ) (hx : x.toQ? = some a) : x.neg.toQ? = some (-a) := by
  cases x <;> simp [Fl.toQ?] at hx
  · subst hx; simp [Fl.neg, Fl.toQ?]
  · subst hx
    simp only [Fl.neg]
    split
    · next h => simp [h, Fl.toQ?]
    · rfl

theorem sub_grid {e : ℤ} (he : -1074 ≤ e) (he2 : e ≤ 970) {x y : Fl} {a b : ℤ}
    (rx : x.Rep b64) (ry : y.Rep b64) (hx : x.toQ? = some (a * p2 e)) (hy : y.toQ? = some (b * p2 e))
    (h : |a - b| ≤ 2 ^ 53) :
    (Fl.sub b64 x y).Rep b64 ∧ (Fl.sub b64 x y).toQ? = some ((a - b : ℤ) * p2 e) := by
  have := add_grid he he2 (b := -b) rx (neg_rep ry) hx
    (by rw [neg_toQ y _ hy]; push_cast; simp) (by rwa [← sub_eq_add_neg])
  simpa [Fl.sub, sub_eq_add_neg] using this

/-- multiple of `2^e` -/
noncomputable def mult (e : ℤ) (v : Fl) : ℤ := ⌊val v / p2 e⌋

theorem mult_spec {e : ℤ} {v : Fl} (h : OnGrid e v) : v.toQ? = some (mult e v * p2 e) := by
  obtain ⟨_, m, hm⟩ := h
  have : mult e v = m := by
    unfold mult val
    rw [hm]
    simp only [Option.getD_some]
    rw [mul_div_assoc, div_self (p2_pos e).ne', mul_one]
    exact Int.floor_intCast m
  rw [this]; exact hm

theorem sum_erase_int {α : Type} [DecidableEq α] (f : α → ℤ) {vs : List α} {v : α} (h : v ∈ vs) :
    ((vs.erase v).map f).sum + f v = (vs.map f).sum := by
  induction vs with
  | nil => simp at h
  | cons w vs ih =>
    by_cases hwv : w = v
    · subst hwv; simp [add_comm]
    · have : v ∈ vs := by rcases List.mem_cons.1 h with h | h; exact absurd h.symm hwv; exact h
      rw [List.erase_cons_tail (by simpa using hwv)]
      simp only [List.map_cons, List.sum_cons]
      have := ih this
      omega

/-- budget: the sum of all magnitudes of the values mentioned -/
noncomputable def magn (e : ℤ) (vs : List Fl) : ℤ := (vs.map fun v => |mult e v|).sum

theorem abs_sum_le (e : ℤ) (vs : List Fl) : |(vs.map (mult e)).sum| ≤ magn e vs := by
  induction vs with
  | nil => simp [magn]
  | cons v vs ih =>
    simp only [magn, List.map_cons, List.sum_cons] at ih ⊢
    exact le_trans (abs_add_le _ _) (by omega)

theorem magn_nonneg (e : ℤ) (vs : List Fl) : 0 ≤ magn e vs :=
  le_trans (abs_nonneg _) (abs_sum_le e vs)

theorem magn_cons (e : ℤ) (v : Fl) (vs : List Fl) : magn e (v :: vs) = |mult e v| + magn e vs := by
  simp [magn]

theorem magn_erase (e : ℤ) {v : Fl} {vs : List Fl} (h : v ∈ vs) :
    magn e (vs.erase v) + |mult e v| = magn e vs := sum_erase_int (fun v => |mult e v|) h

/-- exact totals while the magnitudes fit into 53 bits -/
theorem ops_sum_grid {e : ℤ} (he : -1074 ≤ e) (he2 : e ≤ 970) {d : Dist Fl} {vs ws : List Fl}
    (ops : List (DOp Fl)) (h : CInv d vs)
    (hb : vs.length + ops.length < 18446744073709551615)
    (hnc : d.isNotCumulative = true ∨ ops.all isAddOp = true) (hcur : current vs ops = some ws)
    (hg0 : ∀ v ∈ vs, OnGrid e v) (hg : ∀ v ∈ mentioned ops, OnGrid e v)
    (hbud : magn e vs + magn e (mentioned ops) ≤ 2 ^ 53)
    (hrep : d.total.Rep b64) (htot : d.total.toQ? = some (((vs.map (mult e)).sum : ℤ) * p2 e)) :
    (d.ops ops).total.Rep b64 ∧ (d.ops ops).total.toQ? = some (((ws.map (mult e)).sum : ℤ) * p2 e) ∧
      (∀ v ∈ ws, OnGrid e v) := by
  induction ops generalizing d vs with
  | nil =>
    simp only [current, Option.some.injEq] at hcur
    subst hcur
    exact ⟨hrep, htot, hg0⟩
  | cons op ops ih =>
    obtain ⟨vs', h1, h2⟩ := current_cons vs op ops ws hcur
    simp only [List.length_cons] at hb
    have hnc1 : d.isNotCumulative = true ∨ isAddOp op = true := by
      rcases hnc with hnc | hnc
      · exact Or.inl hnc
      · simp at hnc; exact Or.inr hnc.1
    obtain ⟨g1, g2, g3, g4, g5⟩ := op_good h (by omega) op hnc1 h1
    have hl := current_length vs op vs' h1
    have hc := op_const d op
    have hnc2 : (d.op op).1.isNotCumulative = true ∨ ops.all isAddOp = true := by
      rw [hc.2.1]
      rcases hnc with hnc | hnc
      · exact Or.inl hnc
      · simp at hnc; exact Or.inr (by simpa using hnc.2)
    have hsv := abs_sum_le e vs
    have hmo := magn_nonneg e (mentioned ops)
    show ((d.op op).1.ops ops).total.Rep b64 ∧ ((d.op op).1.ops ops).total.toQ? = _ ∧ _
    cases op with
    | add v ts =>
      simp only [current, Option.some.injEq] at h1
      subst h1
      simp only [mentioned, List.mem_cons, magn_cons] at hg hbud
      have hv := hg v (Or.inl rfl)
      have hbound : |(vs.map (mult e)).sum + mult e v| ≤ 2 ^ 53 := by
        have := abs_add_le (vs.map (mult e)).sum (mult e v); omega
      obtain ⟨r1, r2⟩ := add_grid he he2 hrep hv.1 htot (mult_spec hv) hbound
      refine ih g2 (by omega) hnc2 h2 ?_ (fun x hx => hg x (Or.inr hx)) ?_ ?_ ?_
      · intro x hx; rcases List.mem_cons.1 hx with rfl | hx
        · exact hv
        · exact hg0 x hx
      · rw [magn_cons]; omega
      · rw [g3]; exact r1
      · rw [g3]
        show (Fl.add b64 d.total v).toQ? = _
        rw [r2]; simp only [List.map_cons, List.sum_cons]; rw [add_comm]
    | remove v ts =>
      simp only [current] at h1
      split at h1 <;> simp at h1
      next hm =>
      subst h1
      simp only [mentioned] at hg hbud
      have hv := hg0 v hm
      have hse := sum_erase_int (mult e) hm
      have hme := magn_erase e hm
      have hse2 := abs_sum_le e (vs.erase v)
      have hav := abs_nonneg (mult e v)
      have heq : (vs.map (mult e)).sum - mult e v = ((vs.erase v).map (mult e)).sum := by omega
      obtain ⟨r1, r2⟩ := sub_grid he he2 hrep hv.1 htot (mult_spec hv) (by rw [heq]; omega)
      refine ih g2 (by omega) hnc2 h2 (fun x hx => hg0 x (List.mem_of_mem_erase hx)) hg (by omega) ?_ ?_
      · rw [g3]; exact r1
      · rw [g3]
        show (Fl.sub b64 d.total v).toQ? = _
        rw [r2, heq]
    | update o n ts =>
      simp only [current] at h1
      split at h1 <;> simp at h1
      next hm =>
      subst h1
      simp only [mentioned, List.mem_cons, magn_cons] at hg hbud
      have ho := hg0 o hm
      have hn := hg n (Or.inl rfl)
      have hse := sum_erase_int (mult e) hm
      have hme := magn_erase e hm
      have hse2 := abs_sum_le e (vs.erase o)
      have hmn := magn_nonneg e (vs.erase o)
      have hav := abs_nonneg (mult e o)
      have hdiff : |mult e n - mult e o| ≤ 2 ^ 53 := by
        have := abs_sub (mult e n) (mult e o); omega
      obtain ⟨q1, q2⟩ := sub_grid he he2 hn.1 ho.1 (mult_spec hn) (mult_spec ho) hdiff
      have heq : (vs.map (mult e)).sum + (mult e n - mult e o) =
        mult e n + ((vs.erase o).map (mult e)).sum := by omega
      obtain ⟨r1, r2⟩ := add_grid he he2 hrep q1 htot q2 (by
        rw [heq]
        have := abs_add_le (mult e n) ((vs.erase o).map (mult e)).sum; omega)
      refine ih g2 ?_ hnc2 h2 ?_ (fun x hx => hg x (Or.inr hx)) ?_ ?_ ?_
      · omega
      · intro x hx; rcases List.mem_cons.1 hx with rfl | hx
        · exact hn
        · exact hg0 x (List.mem_of_mem_erase hx)
      · rw [magn_cons]; omega
      · rw [g3]; exact r1
      · rw [g3]
        show (Fl.add b64 d.total (Fl.sub b64 n o)).toQ? = _
        rw [r2, heq]; simp only [List.map_cons, List.sum_cons]

end Tricorder
