import Verif.Spec.DistHisto
import Verif.Proof.DistErr
/-! # The ranges of the middle values -/

namespace Tricorder
open Go Arith Spec OrdArith

variable {F : Type} [Arith F] [DecidableEq F] [OrdArith F]

theorem lt_false_iff {x y : F} (hx : ok x) (hy : ok y) : lt x y = false ↔ key y ≤ key x := by
  rw [← _root_.not_lt, ← OrdArith.lt_iff hx hy, Bool.not_eq_true]

theorem findIndex_mono {l : List F} {pieces : List (Piece F)} (hl : fromEndpoints l = .ok pieces)
    (hok : ∀ x ∈ l, ok x) (hasc : l.Pairwise fun a b => key a ≤ key b) {v w : F} (hv : ok v) (hw : ok w)
    (h : key v ≤ key w) : findIndex pieces v ≤ findIndex pieces w := by
  obtain ⟨a1, b1, c1⟩ := findIndex_ends hl v
  obtain ⟨a2, b2, c2⟩ := findIndex_ends hl w
  by_contra hc
  generalize findIndex pieces v = i at *
  generalize findIndex pieces w = j at *
  have hj : j < l.length := by omega
  have hi : i - 1 < l.length := by omega
  have e1 := b1 l[i - 1] (by omega) (List.getElem?_eq_getElem hi)
  have e2 := c2 l[j] (List.getElem?_eq_getElem hj)
  rw [lt_false_iff hv (hok _ (List.getElem_mem hi))] at e1
  rw [OrdArith.lt_iff hw (hok _ (List.getElem_mem hj))] at e2
  have e3 : key l[j] ≤ key l[i - 1] := by
    rcases Nat.lt_or_ge j (i - 1) with hlt | hge
    · exact List.pairwise_iff_getElem.1 hasc j (i - 1) hj hi hlt
    · have : j = i - 1 := by omega
      subst this; exact le_refl _
  exact absurd (lt_of_lt_of_le e2 (le_trans e3 (le_trans e1 h))) (lt_irrefl _)

theorem take_counts {α : Type} (f : α → ℕ) {cs : List ℕ} {vs : List α} {n : ℕ} (hn : cs.length = n)
    (h : ∀ i, i < n → cs[i]? = some (vs.countP fun v => decide (f v = i))) (i : ℕ) (hi : i ≤ n) :
    (cs.take i).sum = vs.countP fun v => decide (f v < i) := by
  induction i with
  | zero => simp
  | succ i ih =>
    have hg := h i (by omega)
    rw [List.take_succ, hg, List.sum_append, ih (by omega)]
    simp only [Option.toList_some, List.sum_singleton]
    clear ih hg h
    induction vs with
    | nil => rfl
    | cons v vs ih =>
      simp only [List.countP_cons, decide_eq_true_eq]
      by_cases h1 : f v < i
      · have h2 : f v ≠ i := by omega
        have h3 : f v < i + 1 := by omega
        simp only [h1, h2, h3, if_true, if_false]; omega
      · by_cases h2 : f v = i
        · have h3 : f v < i + 1 := by omega
          simp only [h1, h2, h3, if_true, if_false]; simp; omega
        · have h3 : ¬ f v < i + 1 := by omega
          simp only [h1, h2, h3, if_false]; omega

theorem isNth_mem {vs : List F} {k : ℕ} {v : F} (h : IsNth vs k v) : v ∈ vs := by
  obtain ⟨l, hp, _, hk⟩ := h
  exact hp.mem_iff.1 (List.mem_of_getElem? hk)

/-- the range in which the counting ends is that of value number `k` -/
theorem isNth_index {vs : List F} (hok : ∀ x ∈ vs, ok x) (f : F → ℕ)
    (hf : ∀ x y, ok x → ok y → key x ≤ key y → f x ≤ f y) {k : ℕ} {v : F} (h : IsNth vs k v) {i : ℕ}
    (h1 : (vs.countP fun x => decide (f x < i)) ≤ k) (h2 : k < vs.countP fun x => decide (f x < i + 1)) :
    f v = i := by
  have hv := hok v (isNth_mem h)
  obtain ⟨l, hp, hs, hk⟩ := h
  have hlen : k < l.length := by
    by_contra hc; rw [List.getElem?_eq_none (by omega)] at hk; cases hk
  rw [← hp.countP_eq] at h1 h2
  have hok' : ∀ x ∈ l, ok x := fun x hx => hok x (hp.mem_iff.1 hx)
  have hsplit : l = l.take k ++ v :: l.drop (k + 1) := by
    rw [List.getElem?_eq_getElem hlen] at hk
    cases hk
    exact (List.take_append_drop k l).symm.trans (by rw [List.drop_eq_getElem_cons hlen])
  have htl : (l.take k).length = k := by simp; omega
  generalize l.take k = a at hsplit htl
  generalize l.drop (k + 1) = b at hsplit
  subst hsplit
  rw [List.pairwise_append] at hs
  obtain ⟨_, hs2, hs3⟩ := hs
  rw [List.pairwise_cons] at hs2
  have ha : ∀ x ∈ a, f x ≤ f v := fun x hx => hf _ _ (hok' x (by simp [hx])) hv
    ((lt_false_iff hv (hok' x (by simp [hx]))).1 (hs3 x hx v (by simp)))
  have hb : ∀ x ∈ b, f v ≤ f x := fun x hx => hf _ _ hv (hok' x (by simp [hx]))
    ((lt_false_iff (hok' x (by simp [hx])) hv).1 (hs2.1 x hx))
  rw [List.countP_append, List.countP_cons] at h1 h2
  have hal := List.countP_le_length (p := fun x => decide (f x < i + 1)) (l := a)
  by_contra hc
  rcases Nat.lt_or_gt_of_ne hc with hlt | hgt
  · -- all of `a` and `v` are below range `i`
    have : (a.countP fun x => decide (f x < i)) = a.length :=
      List.countP_eq_length.2 fun x hx => by simpa using lt_of_le_of_lt (ha x hx) hlt
    simp only [hlt, decide_true, if_true] at h1
    omega
  · have hz : (b.countP fun x => decide (f x < i + 1)) = 0 :=
      List.countP_eq_zero.2 fun x hx => by
        have := hb x hx; simp only [decide_eq_true_eq]; omega
    have : ¬ f v < i + 1 := by omega
    simp only [this, decide_false, hz] at h2
    simp at h2; omega

/-- `indexToValue` with the number of values in lower ranges -/
theorem indexToValue_at {F : Type} [Arith F] {d : Dist F} (hs : Shape d) (valueIdx : ℕ) (h2 : valueIdx < d.counts.sum)
    (h3 : d.counts.sum < 18446744073709551615) :
    ∃ i k c p, d.counts[i]? = some c ∧ k < c ∧ c ≤ d.counts.sum ∧ d.pieces[i]? = some p ∧
      (d.counts.take i).sum + k = valueIdx ∧
      d.indexToValue valueIdx = some (interpolate (if i = 0 then d.min else fmax p.start d.min)
        (if i = 0 then fmin p.stop d.max else if i = d.pieces.length - 1 then d.max else fmin p.stop d.max)
        (div (Arith.ofNat (k + 1)) (Arith.ofNat (c + 1)))) := by
  obtain ⟨i, c, g1, g2, g3, g4⟩ := findPiece_some valueIdx d.counts 0 0 (by omega) (by omega) (by omega)
  have hi : i < d.counts.length := by
    by_contra hc; rw [List.getElem?_eq_none (by omega)] at g1; cases g1
  have hp : i < d.pieces.length := by rw [← hs.len]; exact hi
  have hle := le_sum _ _ _ g1
  refine ⟨i, valueIdx - (d.counts.take i).sum, c, d.pieces[i], g1, by omega, hle, by simp [hp], by omega, ?_⟩
  unfold Dist.indexToValue
  simp only [Nat.zero_add] at g2 g3 g4
  rw [g4]
  have hsub : sub64 valueIdx (d.counts.take i).sum = valueIdx - (d.counts.take i).sum := by
    unfold sub64 u64; omega
  simp only [hsub]
  rw [u64_eq (by omega), u64_eq (by omega)]
  by_cases h0 : i = 0
  · subst h0; simp [hp]
  · simp only [h0, if_false]
    by_cases h1 : i = d.pieces.length - 1
    · simp only [← h1, if_true]; simp [hp]
    · simp [h1, hp]

/-- the range in which `indexToValue` ends -/
theorem index_piece {l : List F} {pieces : List (Piece F)} (hl : fromEndpoints l = .ok pieces)
    (hok : ∀ x ∈ l, ok x) (hasc : l.Pairwise fun a b => key a ≤ key b)
    {d : Dist F} {vs : List F} (hp : d.pieces = pieces) (hc : CInv d vs) (hvs : ∀ x ∈ vs, ok x)
    {i k c : ℕ} (g1 : d.counts[i]? = some c) (g2 : k < c) {v : F}
    (hv : IsNth vs ((d.counts.take i).sum + k) v) : findIndex pieces v = i := by
  have hi : i < d.pieces.length := by
    by_contra hcc; rw [List.getElem?_eq_none (by rw [hc.shape.len]; omega)] at g1; cases g1
  have t := fun j hj => take_counts (findIndex d.pieces) hc.shape.len hc.counts j hj
  have t2 := t (i + 1) (by omega)
  rw [List.take_succ, g1, List.sum_append] at t2
  simp only [Option.toList_some, List.sum_singleton] at t2
  rw [← hp]
  refine isNth_index hvs (findIndex d.pieces) ?_ hv ?_ ?_
  · intro x y hx hy hxy
    rw [hp]; exact findIndex_mono hl hok hasc hx hy hxy
  · rw [← t i (by omega)]; omega
  · rw [← t2]; omega

/-- the ends of a range -/
theorem range_ends {l : List F} {i : ℕ} {p : Piece F} (h : range l i = some p) :
    (p.first = true ↔ i = 0) ∧ (p.last = true ↔ i = l.length) ∧
    (i ≠ 0 → l[i - 1]? = some p.start) ∧ (i ≠ l.length → l[i]? = some p.stop) := by
  cases i with
  | zero =>
    cases l with
    | nil => simp [range] at h
    | cons e es => simp [range] at h; subst h; simp
  | succ i =>
    simp only [range] at h
    split at h
    · next a b ha hb =>
      cases h
      have h1 : i + 1 < l.length := by
        by_contra hc; rw [List.getElem?_eq_none (by omega)] at hb; cases hb
      simp only [Bool.false_eq_true, false_iff]
      exact ⟨by omega, by omega, fun _ => ha, fun _ => hb⟩
    · next a ha hb =>
      cases h
      have h1 : i < l.length := by
        by_contra hc; rw [List.getElem?_eq_none (by omega)] at ha; cases ha
      have h2 : ¬ i + 1 < l.length := by
        intro hc; rw [List.getElem?_eq_getElem hc] at hb; cases hb
      simp only [Bool.false_eq_true, false_iff, true_iff]
      exact ⟨by omega, by omega, fun _ => ha, fun h => absurd (by omega) h⟩
    · cases h

/-- only the range found contains the value -/
theorem found_unique {l : List F} {pieces : List (Piece F)} (hl : fromEndpoints l = .ok pieces)
    (hok : ∀ x ∈ l, ok x) (hasc : l.Pairwise fun a b => key a ≤ key b) {v : F} (hv : ok v) {j : ℕ} {p : Piece F}
    (hp : pieces[j]? = some p) (h1 : p.first = true ∨ key p.start ≤ key v)
    (h2 : p.last = true ∨ key v < key p.stop) : findIndex pieces v = j := by
  obtain ⟨a, b, c⟩ := findIndex_ends hl v
  have hj : j < pieces.length := by
    by_contra hc; rw [List.getElem?_eq_none (by omega)] at hp; cases hp
  rw [(fromEndpoints_length hl).1] at hj
  rw [fromEndpoints_get hl] at hp
  obtain ⟨r1, r2, r3, r4⟩ := range_ends hp
  generalize findIndex pieces v = i at *
  have mono : ∀ x y (hx : x < l.length) (hy : y < l.length), x ≤ y → key l[x] ≤ key l[y] := by
    intro x y hx hy hxy
    rcases Nat.lt_or_ge x y with hlt | hge
    · exact List.pairwise_iff_getElem.1 hasc x y hx hy hlt
    · have : x = y := by omega
      subst this; exact le_refl _
  by_contra hc
  rcases Nat.lt_or_gt_of_ne hc with hlt | hgt
  · have hi : i < l.length := by omega
    have e := c _ (List.getElem?_eq_getElem hi)
    rw [OrdArith.lt_iff hv (hok _ (List.getElem_mem hi))] at e
    have hj1 : j - 1 < l.length := by omega
    have h3 := r3 (by omega)
    rw [List.getElem?_eq_getElem hj1] at h3
    have h3 := Option.some.inj h3
    rcases h1 with h1 | h1
    · exact absurd (r1.1 h1) (by omega)
    · rw [← h3] at h1
      exact absurd (lt_of_lt_of_le e (le_trans (mono i (j - 1) hi hj1 (by omega)) h1)) (lt_irrefl _)
  · have hi : i - 1 < l.length := by omega
    have e := b _ (by omega) (List.getElem?_eq_getElem hi)
    rw [lt_false_iff hv (hok _ (List.getElem_mem hi))] at e
    have hjl : j < l.length := by omega
    have h4 := r4 (by omega)
    rw [List.getElem?_eq_getElem hjl] at h4
    have h4 := Option.some.inj h4
    rcases h2 with h2 | h2
    · exact absurd (r2.1 h2) (by omega)
    · rw [← h4] at h2
      exact absurd (lt_of_lt_of_le h2 (le_trans (mono j (i - 1) hjl hi (by omega)) e)) (lt_irrefl _)

/-! ### exact arithmetic -/

theorem qkey_le {a b : ℚ} : key a ≤ key b ↔ a ≤ b := by
  show ((a : WithTop ℚ) : WithBot (WithTop ℚ)) ≤ ((b : WithTop ℚ) : WithBot (WithTop ℚ)) ↔ _
  rw [WithBot.coe_le_coe, WithTop.coe_le_coe]

theorem qkey_lt {a b : ℚ} : key a < key b ↔ a < b := by
  show ((a : WithTop ℚ) : WithBot (WithTop ℚ)) < ((b : WithTop ℚ) : WithBot (WithTop ℚ)) ↔ _
  rw [WithBot.coe_lt_coe, WithTop.coe_lt_coe]

theorem indexToValue_covers {l : List ℚ} {pieces : List (Piece ℚ)} (hl : fromEndpoints l = .ok pieces)
    (hasc : l.Pairwise (· ≤ ·))
    {d : Dist ℚ} {vs : List ℚ} (hp : d.pieces = pieces) (hc : CInv d vs) (hbd : Bounds d.min d.max vs)
    (valueIdx : ℕ) (h2 : valueIdx < d.counts.sum) (h3 : d.counts.sum < 18446744073709551615) :
    ∃ r, d.indexToValue valueIdx = some r ∧ (d.min ≤ r ∧ r ≤ d.max) ∧
      ∀ v, IsNth vs valueIdx v → ∀ p ∈ pieces, Holds p v → Covers p r := by
  obtain ⟨i, k, c, p, g1, g2, g3, g4, gk, g5⟩ := indexToValue_at hc.shape valueIdx h2 h3
  obtain ⟨r, hr, hb1, hb2⟩ := indexToValue_q hl hp hc hbd valueIdx h2 h3
  refine ⟨r, hr, ⟨hb1, hb2⟩, ?_⟩
  intro v hv q hq hholds
  rw [← gk] at hv
  have hasc' : l.Pairwise fun a b => key a ≤ key b := hasc.imp fun h => qkey_le.2 h
  have hix := index_piece hl (fun _ _ => trivial) hasc' hp hc (fun _ _ => trivial) g1 g2 hv
  obtain ⟨j, hj⟩ := List.getElem?_of_mem hq
  have hij := found_unique hl (fun _ _ => trivial) hasc' (v := v) trivial hj (hholds.1.imp_right qkey_le.2)
    (hholds.2.imp_right qkey_lt.2)
  rw [hix] at hij; subst hij
  rw [hp, hj] at g4; cases g4
  obtain ⟨b1, b2⟩ := bounds_q hbd v (isNth_mem hv)
  have hlen := (fromEndpoints_length hl).1
  rw [fromEndpoints_get hl] at hj
  obtain ⟨r1, r2, -, -⟩ := range_ends hj
  rw [hr] at g5
  obtain ⟨e1, e2⟩ := hholds
  have hmm := le_trans b1 b2
  have f0 : (0 : ℚ) ≤ ((k + 1 : ℕ) : ℚ) / ((c + 1 : ℕ) : ℚ) := by positivity
  have f1 : ((k + 1 : ℕ) : ℚ) / ((c + 1 : ℕ) : ℚ) ≤ 1 := by
    have : ((k + 1 : ℕ) : ℚ) ≤ ((c + 1 : ℕ) : ℚ) := by exact_mod_cast (by omega : k + 1 ≤ c + 1)
    exact div_le_one_of_le₀ this (by positivity)
  have hr' := Option.some.inj g5
  have hlpos : 0 < l.length := List.length_pos_iff.2 (fromEndpoints_length hl).2
  constructor
  · rcases e1 with e | e
    · exact Or.inl e
    · by_cases h0 : i = 0
      · exact Or.inl (r1.2 h0)
      · right
        rw [hr', if_neg h0, if_neg h0]
        refine (interp_between (m := p.start) (M := max (max p.start d.min) d.max) f0 f1 ⟨le_max_left _ _, le_max_left _ _⟩ ?_).1
        split
        · exact ⟨le_trans e b2, le_max_right _ _⟩
        · next h1 =>
          rw [hp, hlen] at h1
          have : v < p.stop := e2.resolve_left fun h => by have := r2.1 h; omega
          exact ⟨le_min (le_trans e this.le) (le_trans e b2), le_trans (min_le_right _ _) (le_max_right _ _)⟩
  · rcases e2 with e | e
    · exact Or.inl e
    · by_cases h1 : i = l.length
      · exact Or.inl (r2.2 h1)
      · right
        rw [hr', if_neg (c := i = d.pieces.length - 1) (by rw [hp, hlen]; omega), ite_self]
        refine (interp_between (m := min d.min (min p.stop d.max)) (M := p.stop) f0 f1 ?_ ⟨min_le_right _ _, min_le_left _ _⟩).2
        split
        · exact ⟨min_le_left _ _, le_trans b1 e.le⟩
        · next h0 =>
          have : p.start ≤ v := e1.resolve_left fun h => h0 (r1.1 h)
          exact ⟨le_trans (min_le_left _ _) (le_max_right _ _), max_le (le_trans this e.le) (le_trans b1 e.le)⟩

/-! ### float64 -/

theorem fmax_ge_left {x y : Fl} (hx : Finite x) (hy : Finite y) : val x ≤ val (Fl.max x y) := by
  have hxn := ne_nan_fin hx
  have hyn := ne_nan_fin hy
  have hxi : x ≠ .inf false := by rintro rfl; exact hx.2 rfl
  have hyi : y ≠ .inf false := by rintro rfl; exact hy.2 rfl
  unfold Fl.max
  rw [if_neg (by simp [hxi, hyi]), if_neg (by simp [hxn, hyn])]
  split
  · next h =>
    have := (Fl.eq_iff hxn hyn).1 h.2
    rw [key_fin hx, key_fin hy] at this
    have hvv : val x = val y := by simpa using this
    split
    · exact hvv.le
    · exact le_refl _
  · split
    · exact le_refl _
    · next h =>
      rw [Bool.not_eq_true, Fl.not_lt hyn hxn, Fl.le_iff hxn hyn] at h
      exact (key_le_fin hx hy).1 h

theorem fmin_le_left {x y : Fl} (hx : Finite x) (hy : Finite y) : val (Fl.min x y) ≤ val x := by
  have hxn := ne_nan_fin hx
  have hyn := ne_nan_fin hy
  have hxi : x ≠ .inf true := by rintro rfl; exact hx.2 rfl
  have hyi : y ≠ .inf true := by rintro rfl; exact hy.2 rfl
  unfold Fl.min
  rw [if_neg (by simp [hxi, hyi]), if_neg (by simp [hxn, hyn])]
  split
  · next h =>
    have := (Fl.eq_iff hxn hyn).1 h.2
    rw [key_fin hx, key_fin hy] at this
    have hvv : val x = val y := by simpa using this
    split
    · exact le_refl _
    · exact hvv.ge
  · split
    · exact le_refl _
    · next h =>
      rw [Bool.not_eq_true, Fl.not_lt hxn hyn, Fl.le_iff hyn hxn] at h
      exact (key_le_fin hy hx).1 h

theorem fin_of_toQ {x : Fl} {q : ℚ} (hr : x.Rep b64) (h : x.toQ? = some q) : Finite x ∧ val x = q :=
  ⟨⟨hr, by rw [h]; simp⟩, by simp [val, h]⟩

theorem between_mix {f A C m M : ℚ} (f0 : 0 ≤ f) (f1 : f ≤ 1) (hA : m ≤ A ∧ A ≤ M) (hC : m ≤ C ∧ C ≤ M) :
    m ≤ (1 - f) * A + f * C ∧ (1 - f) * A + f * C ≤ M := by
  constructor
  · nlinarith [mul_nonneg f0 (sub_nonneg.2 hC.1), mul_nonneg (sub_nonneg.2 f1) (sub_nonneg.2 hA.1)]
  · nlinarith [mul_nonneg f0 (sub_nonneg.2 hC.2), mul_nonneg (sub_nonneg.2 f1) (sub_nonneg.2 hA.2)]

theorem mix_ge {f A C m : ℚ} (f0 : 0 ≤ f) (f1 : f ≤ 1) (hA : m ≤ A) (hC : m ≤ C) :
    m ≤ (1 - f) * A + f * C := by
  nlinarith [mul_nonneg f0 (sub_nonneg.2 hC), mul_nonneg (sub_nonneg.2 f1) (sub_nonneg.2 hA)]

theorem mix_le {f A C M : ℚ} (f0 : 0 ≤ f) (f1 : f ≤ 1) (hA : A ≤ M) (hC : C ≤ M) :
    (1 - f) * A + f * C ≤ M := by
  nlinarith [mul_nonneg f0 (sub_nonneg.2 hC), mul_nonneg (sub_nonneg.2 f1) (sub_nonneg.2 hA)]

theorem indexToValue_covers_fl {l : List Fl} {pieces : List (Piece Fl)} (hl : fromEndpoints l = .ok pieces)
    (hl0 : ∀ e ∈ l, e ≠ .nan ∧ e.Rep b64) (hasc : l.Pairwise fun a b => Fl.le a b = true)
    {d : Dist Fl} {vs : List Fl} (hp : d.pieces = pieces) (hc : CInv d vs) (hbd : Bounds d.min d.max vs)
    (hfm : Finite d.min) (hfM : Finite d.max) (hfv : ∀ v ∈ vs, Finite v) {B : ℚ} (hB : B ≤ p2 900)
    (hmB : |val d.min| ≤ B) (hMB : |val d.max| ≤ B)
    (valueIdx : ℕ) (h2 : valueIdx < d.counts.sum) (h3 : d.counts.sum < 18446744073709551615) :
    ∃ r x, d.indexToValue valueIdx = some r ∧ Finite r ∧ |val r - x| ≤ B * p2 (-49) + p2 (-1072) ∧
      (val d.min ≤ x ∧ x ≤ val d.max) ∧
      ∀ v, IsNth vs valueIdx v → ∀ p ∈ pieces, Contains p v → CoversFl p x := by
  obtain ⟨i, k, c, p, g1, g2, g3, g4, gk, g5⟩ := indexToValue_at hc.shape valueIdx h2 h3
  have hi : i < d.pieces.length := by
    by_contra hcc; rw [List.getElem?_eq_none (by omega)] at g4; cases g4
  have hcnt := hc.counts i hi
  rw [g1] at hcnt
  simp only [Option.some.injEq] at hcnt
  have hpos : 0 < vs.countP fun v => decide (findIndex d.pieces v = i) := by omega
  obtain ⟨v, hv, hvi⟩ := List.countP_pos_iff.1 hpos
  simp only [decide_eq_true_eq] at hvi
  obtain ⟨_, _, hbb⟩ := hbd (List.ne_nil_of_mem hv)
  obtain ⟨_, k1, k2⟩ := hbb v hv
  have hvf := hfv v hv
  have b1 : val d.min ≤ val v := (key_le_fin hfm hvf).1 k1
  have b2 : val v ≤ val d.max := (key_le_fin hvf hfM).1 k2
  have hmm : val d.min ≤ val d.max := le_trans b1 b2
  have hlen := (fromEndpoints_length hl).1
  have hlpos : 0 < l.length := List.length_pos_iff.2 (fromEndpoints_length hl).2
  rw [hp] at hvi g4
  obtain ⟨p', hp', e1, e2⟩ := findIndex_piece hl v
  rw [hvi, g4] at hp'; cases hp'
  have g4' := g4
  rw [fromEndpoints_get hl] at g4'
  obtain ⟨r1, r2, r3, r4⟩ := range_ends g4'
  have hvn := ne_nan_fin hvf
  have sok : ∀ h : i ≠ 0, p.start ≠ .nan ∧ p.start.Rep b64 := fun h => hl0 _ (List.mem_of_getElem? (r3 h))
  have tok : ∀ h : i ≠ l.length, p.stop ≠ .nan ∧ p.stop.Rep b64 := fun h => hl0 _ (List.mem_of_getElem? (r4 h))
  have e1' : i ≠ 0 → p.start.key ≤ ((val v : ℚ) : WithTop ℚ) := by
    intro h0
    rcases e1 with e | e
    · exact absurd (r1.1 e) h0
    · have : Fl.le p.start v = true := (Fl.not_lt hvn (sok h0).1).1 e
      rw [← key_fin hvf]; exact (Fl.le_iff (sok h0).1 hvn).1 this
  have e2' : i ≠ l.length → ((val v : ℚ) : WithTop ℚ) ≤ p.stop.key := by
    intro h0
    rcases e2 with e | e
    · exact absurd (r2.1 e) h0
    · rw [← key_fin hvf]; exact ((Fl.lt_iff hvn (tok h0).1).1 e).le
  have hcast : ∀ {x y : ℚ}, x ≤ y → ((x : ℚ) : WithBot (WithTop ℚ)) ≤ ((y : ℚ) : WithTop ℚ) :=
    fun h => WithBot.coe_le_coe.2 (WithTop.coe_le_coe.2 h)
  have hcast2 : ∀ {x y : ℚ}, ((x : ℚ) : WithBot (WithTop ℚ)) ≤ ((y : ℚ) : WithTop ℚ) → x ≤ y :=
    fun h => WithTop.coe_le_coe.1 (WithBot.coe_le_coe.1 h)
  -- the value lies between the ends
  have hsv : i ≠ 0 → ∀ q, p.start.toQ? = some q → q ≤ val v := by
    intro h0 q hq
    obtain ⟨f, rfl⟩ := fin_of_toQ (sok h0).2 hq
    have := e1' h0
    rw [key_fin f] at this
    exact hcast2 this
  have hvt : i ≠ l.length → ∀ q, p.stop.toQ? = some q → val v ≤ q := by
    intro h0 q hq
    obtain ⟨f, rfl⟩ := fin_of_toQ (tok h0).2 hq
    have := e2' h0
    rw [key_fin f] at this
    exact hcast2 this
  -- lower end of the interpolation
  have hlo : ∀ A, A = (if i = 0 then d.min else Fl.max p.start d.min) →
      Finite A ∧ (val d.min ≤ val A ∧ val A ≤ val d.max) ∧
      (i ≠ 0 → ∀ q, p.start.toQ? = some q → q ≤ val A) ∧
      (i ≠ l.length → ∀ q, p.stop.toQ? = some q → val A ≤ q) := by
    rintro A rfl
    split
    · next h0 => exact ⟨hfm, ⟨le_refl _, hmm⟩, fun h => absurd h0 h, fun h q hq => le_trans b1 (hvt h q hq)⟩
    · next h0 =>
      obtain ⟨a1, a2, a3⟩ := fmax_fin (sok h0).1 (sok h0).2 hfm (le_trans (e1' h0) (hcast b2)) hmm
      refine ⟨a1, ⟨a2, a3⟩, fun _ q hq => ?_, fun h q hq => ?_⟩
      · obtain ⟨f, rfl⟩ := fin_of_toQ (sok h0).2 hq
        exact fmax_ge_left f hfm
      · exact (fmax_fin (sok h0).1 (sok h0).2 hfm (M := q)
          (le_trans (e1' h0) (hcast (hvt h q hq))) (le_trans b1 (hvt h q hq))).2.2
  have hmin : i ≠ l.length → Finite (Fl.min p.stop d.max) ∧
      (val d.min ≤ val (Fl.min p.stop d.max) ∧ val (Fl.min p.stop d.max) ≤ val d.max) ∧
      (i ≠ 0 → ∀ q, p.start.toQ? = some q → q ≤ val (Fl.min p.stop d.max)) ∧
      (i ≠ l.length → ∀ q, p.stop.toQ? = some q → val (Fl.min p.stop d.max) ≤ q) := by
    intro h0
    obtain ⟨a1, a2, a3⟩ := fmin_fin (tok h0).1 (tok h0).2 hfM (le_trans (hcast b1) (e2' h0)) hmm
    refine ⟨a1, ⟨a2, a3⟩, fun h q hq => ?_, fun _ q hq => ?_⟩
    · exact (fmin_fin (tok h0).1 (tok h0).2 hfM (m := q)
        (le_trans (hcast (hsv h q hq)) (e2' h0)) (le_trans (hsv h q hq) b2)).2.1
    · obtain ⟨f, rfl⟩ := fin_of_toQ (tok h0).2 hq
      exact fmin_le_left f hfM
  have hhi : ∀ A, A = (if i = 0 then Fl.min p.stop d.max else if i = d.pieces.length - 1 then d.max
      else Fl.min p.stop d.max) → Finite A ∧ (val d.min ≤ val A ∧ val A ≤ val d.max) ∧
      (i ≠ 0 → ∀ q, p.start.toQ? = some q → q ≤ val A) ∧
      (i ≠ l.length → ∀ q, p.stop.toQ? = some q → val A ≤ q) := by
    rintro A rfl
    split
    · next h0 => exact hmin (by omega)
    · split
      · next h0 h1 =>
        rw [hp, hlen] at h1
        exact ⟨hfM, ⟨hmm, le_refl _⟩, fun h q hq => le_trans (hsv h q hq) b2, fun h => absurd (by omega) h⟩
      · next h0 h1 =>
        rw [hp, hlen] at h1
        exact hmin (by omega)
  obtain ⟨la, lb, lc, ld⟩ := hlo _ rfl
  obtain ⟨ua, ub, uc, ud⟩ := hhi _ rfl
  obtain ⟨fa, fb, fc⟩ := frac_fin (a := k + 1) (b := c + 1) (by omega) (by omega) (by omega)
  have hbnd : ∀ {x : ℚ}, val d.min ≤ x ∧ x ≤ val d.max → |x| ≤ B := by
    rintro x ⟨h1, h2⟩
    have := abs_le.1 hmB; have := abs_le.1 hMB
    exact abs_le.2 ⟨by linarith, by linarith⟩
  obtain ⟨s1, s2⟩ := interp_err la ua fa fb fc hB (hbnd lb) (hbnd ub)
  refine ⟨_, _, g5, s1, s2, between_mix fb fc lb ub, ?_⟩
  intro v' hv' q hq hcont
  rw [← gk] at hv'
  have hok : ∀ x ∈ l, OrdArith.ok x := fun x hx => (hl0 x hx).1
  have hasc' : l.Pairwise fun a b => OrdArith.key a ≤ OrdArith.key b :=
    hasc.imp_of_mem fun ha hb h => (Fl.le_iff (hl0 _ ha).1 (hl0 _ hb).1).1 h
  have hvs : ∀ x ∈ vs, OrdArith.ok x := fun x hx => ne_nan_fin (hfv x hx)
  have hix := index_piece hl hok hasc' hp hc hvs g1 g2 hv'
  have hv'n : v' ≠ .nan := hvs _ (isNth_mem hv')
  obtain ⟨j, hj⟩ := List.getElem?_of_mem hq
  have hjr := hj
  rw [fromEndpoints_get hl] at hjr
  obtain ⟨t1, t2, t3, t4⟩ := range_ends hjr
  have hij := found_unique hl hok hasc' (v := v') hv'n hj
    (by
      by_cases h0 : j = 0
      · exact Or.inl (t1.2 h0)
      · refine hcont.1.imp_right fun h => (Fl.le_iff ?_ hv'n).1 h
        exact (hl0 _ (List.mem_of_getElem? (t3 h0))).1)
    (by
      by_cases h0 : j = l.length
      · exact Or.inl (t2.2 h0)
      · refine hcont.2.imp_right fun h => (Fl.lt_iff hv'n ?_).1 h
        exact (hl0 _ (List.mem_of_getElem? (t4 h0))).1)
  rw [hix] at hij; subst hij
  rw [hj] at g4; cases g4
  constructor
  · by_cases h0 : i = 0
    · exact Or.inl (r1.2 h0)
    · exact Or.inr fun q hq => mix_ge fb fc (lc h0 q hq) (uc h0 q hq)
  · by_cases h0 : i = l.length
    · exact Or.inl (r2.2 h0)
    · exact Or.inr fun q hq => mix_le fb fc (ld h0 q hq) (ud h0 q hq)

/-! ### the median -/

theorem median_covers {l : List ℚ} {pieces : List (Piece ℚ)} (hl : fromEndpoints l = .ok pieces)
    (hasc : l.Pairwise (· ≤ ·))
    {d : Dist ℚ} {vs : List ℚ} (hp : d.pieces = pieces) (hc : CInv d vs) (hbd : Bounds d.min d.max vs)
    (h3 : 3 ≤ vs.length) (hb : vs.length < 18446744073709551615) {r : ℚ} (hr : d.calculateMedian = some r) :
    ∃ x y, r = (x + y) / 2 ∧ (d.min ≤ x ∧ x ≤ d.max) ∧ (d.min ≤ y ∧ y ≤ d.max) ∧
      (∀ v, IsNth vs ((vs.length - 1) / 2) v → ∀ p ∈ pieces, Holds p v → Covers p x) ∧
      (∀ v, IsNth vs (vs.length / 2) v → ∀ p ∈ pieces, Holds p v → Covers p y) := by
  have hs := hc.sum
  have hcnt := hc.count
  unfold Dist.calculateMedian at hr
  rw [if_neg (by omega)] at hr
  split at hr
  · next hev =>
    obtain ⟨a, ha, a1, a2⟩ := indexToValue_covers hl hasc hp hc hbd (d.count / 2 - 1) (by omega) (by omega)
    obtain ⟨b, hb', b1, b2⟩ := indexToValue_covers hl hasc hp hc hbd (d.count / 2) (by omega) (by omega)
    rw [ha, hb'] at hr
    simp only [Option.some.injEq] at hr
    refine ⟨a, b, ?_, a1, b1, ?_, ?_⟩
    · rw [← hr]
      show (a + b) / ((2 : ℤ) : ℚ) = _
      push_cast; rfl
    · have : (vs.length - 1) / 2 = d.count / 2 - 1 := by omega
      rw [this]; exact a2
    · rw [← hcnt]; exact b2
  · next hev =>
    obtain ⟨b, hb', b1, b2⟩ := indexToValue_covers hl hasc hp hc hbd (d.count / 2) (by omega) (by omega)
    rw [hb'] at hr; cases hr
    refine ⟨r, r, by ring, b1, b1, ?_, ?_⟩
    · have : (vs.length - 1) / 2 = d.count / 2 := by omega
      rw [this]; exact b2
    · rw [← hcnt]; exact b2

theorem median_covers_fl {l : List Fl} {pieces : List (Piece Fl)} (hl : fromEndpoints l = .ok pieces)
    (hl0 : ∀ e ∈ l, e ≠ .nan ∧ e.Rep b64) (hasc : l.Pairwise fun a b => Fl.le a b = true)
    {d : Dist Fl} {vs : List Fl} (hp : d.pieces = pieces) (hc : CInv d vs) (hbd : Bounds d.min d.max vs)
    (hfm : Finite d.min) (hfM : Finite d.max) (hfv : ∀ v ∈ vs, Finite v) {B : ℚ} (hB : B ≤ p2 900)
    (hmB : |val d.min| ≤ B) (hMB : |val d.max| ≤ B) (h3 : 3 ≤ vs.length)
    (hb : vs.length < 18446744073709551615) {r : Fl} (hr : d.calculateMedian = some r) :
    Finite r ∧ ∃ x y, |val r - (x + y) / 2| ≤ B * p2 (-48) + p2 (-1071) ∧
      (val d.min ≤ x ∧ x ≤ val d.max) ∧ (val d.min ≤ y ∧ y ≤ val d.max) ∧
      (∀ v, IsNth vs ((vs.length - 1) / 2) v → ∀ p ∈ pieces, Contains p v → CoversFl p x) ∧
      (∀ v, IsNth vs (vs.length / 2) v → ∀ p ∈ pieces, Contains p v → CoversFl p y) := by
  have hs := hc.sum
  have hcnt := hc.count
  have ppos := p2_pos (-1075)
  have p1072 : p2 (-1072) = 8 * p2 (-1075) := by
    rw [show (-1072 : ℤ) = 3 + -1075 by norm_num, p2_add]; congr 1
  have p1071 : p2 (-1071) = 16 * p2 (-1075) := by
    rw [show (-1071 : ℤ) = 4 + -1075 by norm_num, p2_add]; congr 1
  have p49 : p2 (-49) = 1 / 562949953421312 := by rw [p2_eq]; norm_num
  have p48 : p2 (-48) = 1 / 281474976710656 := by rw [p2_eq]; norm_num
  have hB0 : 0 ≤ B := le_trans (abs_nonneg _) hmB
  unfold Dist.calculateMedian at hr
  rw [if_neg (by omega)] at hr
  split at hr
  · next hev =>
    obtain ⟨a, x, ha, a1, a2, a3, a4⟩ := indexToValue_covers_fl hl hl0 hasc hp hc hbd hfm hfM hfv hB hmB hMB
      (d.count / 2 - 1) (by omega) (by omega)
    obtain ⟨b, y, hb', b1, b2, b3, b4⟩ := indexToValue_covers_fl hl hl0 hasc hp hc hbd hfm hfM hfv hB hmB hMB
      (d.count / 2) (by omega) (by omega)
    rw [ha, hb'] at hr
    simp only [Option.some.injEq] at hr
    have psm := p2_small
    have big := p2_1000_big
    have p53 := p2_53
    have p900 : p2 900 * 1024 ≤ p2 1000 := by
      rw [show (1024 : ℚ) = p2 10 by rw [p2_eq]; norm_num, ← p2_add]
      exact p2_le (by norm_num)
    have hone : (1 : ℚ) ≤ p2 900 := by
      rw [show (1 : ℚ) = p2 0 by rfl]; exact p2_le (by norm_num)
    rw [p49, p1072] at a2 b2
    have a2' := abs_le.1 a2
    have b2' := abs_le.1 b2
    have := abs_le.1 hmB; have := abs_le.1 hMB
    obtain ⟨x1, x2⟩ := a3
    obtain ⟨y1, y2⟩ := b3
    have hab : |val a + val b| ≤ 3 * B + 16 * p2 (-1075) := abs_le.2 ⟨by linarith, by linarith⟩
    obtain ⟨s1, s2⟩ := add_fin a1 b1 (by linarith)
    have h2f : Finite (.fin 2) ∧ val (.fin 2) = 2 := ⟨⟨by decide +kernel, by simp [Fl.toQ?]⟩, rfl⟩
    rw [p53] at s2
    have hs2 := abs_le.1 s2
    have habl := abs_le.1 hab
    have hsum : |val (Fl.add b64 a b)| ≤ 4 * B + 32 * p2 (-1075) := abs_le.2 ⟨by linarith, by linarith⟩
    have hhalf : |val (Fl.add b64 a b) / 2| ≤ 2 * B + 16 * p2 (-1075) := by
      rw [abs_div, abs_two]; linarith
    obtain ⟨t1, t2⟩ := div_fin s1 h2f.1 (by rw [h2f.2]; norm_num) (by rw [h2f.2]; linarith)
    rw [h2f.2, p53] at t2
    have ht2 := abs_le.1 t2
    have hr' : r = Fl.div b64 (Fl.add b64 a b) (.fin 2) := by
      rw [← hr]; rfl
    rw [hr']
    refine ⟨t1, x, y, ?_, ⟨x1, x2⟩, ⟨y1, y2⟩, ?_, ?_⟩
    · rw [p48, p1071]
      exact abs_le.2 ⟨by linarith, by linarith⟩
    · have : (vs.length - 1) / 2 = d.count / 2 - 1 := by omega
      rw [this]; exact a4
    · rw [← hcnt]; exact b4
  · next hev =>
    obtain ⟨b, y, hb', b1, b2, b3, b4⟩ := indexToValue_covers_fl hl hl0 hasc hp hc hbd hfm hfM hfv hB hmB hMB
      (d.count / 2) (by omega) (by omega)
    rw [hb'] at hr; cases hr
    refine ⟨b1, y, y, ?_, b3, b3, ?_, ?_⟩
    · rw [p49, p1072] at b2
      rw [p48, p1071, show (y + y) / 2 = y by ring]
      linarith
    · have : (vs.length - 1) / 2 = d.count / 2 := by omega
      rw [this]; exact b4
    · rw [← hcnt]; exact b4

/-- there is a value number `k` -/
theorem isNth_exists {vs : List F} (hok : ∀ x ∈ vs, ok x) {k : ℕ} (hk : k < vs.length) : ∃ v, IsNth vs k v := by
  let le : F → F → Bool := fun a b => decide (key a ≤ key b)
  have hp := List.mergeSort_perm vs le
  have hlen : k < (vs.mergeSort le).length := by rw [hp.length_eq]; exact hk
  refine ⟨_, vs.mergeSort le, hp, ?_, List.getElem?_eq_getElem hlen⟩
  have hs : (vs.mergeSort le).Pairwise fun a b => le a b = true :=
    List.pairwise_mergeSort (fun a b c h1 h2 => by
      simp only [le, decide_eq_true_eq] at *; exact _root_.le_trans h1 h2)
      (fun a b => by
        simp only [le, Bool.or_eq_true, decide_eq_true_eq]; exact le_total _ _) vs
  refine hs.imp_of_mem fun ha hb h => ?_
  simp only [le, decide_eq_true_eq] at h
  exact (lt_false_iff (hok _ (hp.mem_iff.1 hb)) (hok _ (hp.mem_iff.1 ha))).2 h

end Tricorder
