import Verif.Proof.Bucketer
import Mathlib.Tactic.GCongr
/-! # Bucketer constructors in float64 -/

namespace Tricorder
open Go Arith Spec

/-! ### monotone growth -/

/-- `0 < x` for float64 -/
theorem pos_cases {x : Fl} (h : Fl.lt (.fin 0) x = true) : x = .inf false ∨ ∃ q, x = .fin q ∧ 0 < q := by
  rcases x with _ | (_ | _) | _ | q
  · cases h
  · exact Or.inl rfl
  · cases h
  · simp [Fl.lt] at h
  · exact Or.inr ⟨q, rfl, by simpa [Fl.lt] using h⟩

theorem mul_grow {x s : Fl} (hx : Fl.lt (.fin 0) x = true) (rx : x.Rep b64) (hs : Fl.lt (.fin 1) s = true) :
    Fl.le x (Fl.mul b64 x s) = true := by
  have hs' : s = .inf false ∨ ∃ q, s = .fin q ∧ 1 < q := by
    rcases s with _ | (_ | _) | _ | q
    · cases hs
    · exact Or.inl rfl
    · cases hs
    · simp [Fl.lt] at hs; exact absurd hs (by norm_num)
    · exact Or.inr ⟨q, rfl, by simpa [Fl.lt] using hs⟩
  rcases pos_cases hx with rfl | ⟨a, rfl, ha⟩
  · rcases hs' with rfl | ⟨b, rfl, hb⟩
    · rfl
    · have h1 : Fl.mul b64 (.inf false) (.fin b) = .inf false := by
        have hb0 : b ≠ 0 := by linarith
        simp [Fl.mul, Fl.toQ?, hb0, Fl.sign]; linarith
      rw [h1]; rfl
  · rcases hs' with rfl | ⟨b, rfl, hb⟩
    · have h1 : Fl.mul b64 (.fin a) (.inf false) = .inf false := by
        simp [Fl.mul, Fl.toQ?, ha.ne', Fl.sign]; exact ha.le
      rw [h1]; rfl
    · have h0 : a * b ≠ 0 := (mul_pos ha (by linarith)).ne'
      have h1 : Fl.mul b64 (.fin a) (.fin b) = rnd b64 (a * b) := by
        simp only [Fl.mul, Fl.toQ?]; rw [if_neg h0]
      rw [h1, Fl.le_iff (by simp) (rnd_ne_nan _ _)]
      have e : rnd b64 a = .fin a := rx
      rw [← e]
      exact rnd_mono b64 (by decide) (by nlinarith)

theorem expLoop_asc {s : Fl} (hs : Fl.lt (.fin 1) s = true) (n : ℕ) (x : Fl)
    (hx : Fl.lt (.fin 0) x = true) (rx : x.Rep b64) :
    Ascending (expLoop s n x) ∧ ∀ e ∈ expLoop s n x, Fl.le x e = true := by
  induction n generalizing x with
  | zero => exact ⟨⟨by simp [expLoop], by simp [expLoop]⟩, by simp [expLoop]⟩
  | succ n ih =>
    have hg := mul_grow hx rx hs
    obtain ⟨⟨a1, a2⟩, a3⟩ := ih (Fl.mul b64 x s) (Fl.lt_of_lt_of_le hx hg) (mul_rep x s)
    have hxn := (Fl.ne_nan_of_lt hx).2
    have hge : ∀ e ∈ expLoop s n (Fl.mul b64 x s), Fl.le x e = true := fun e he => Fl.le_trans hg (a3 e he)
    refine ⟨⟨?_, ?_⟩, ?_⟩
    · intro e he
      rcases List.mem_cons.1 he with rfl | he
      · exact hxn
      · exact a1 e he
    · exact List.pairwise_cons.2 ⟨hge, a2⟩
    · intro e he
      rcases List.mem_cons.1 he with rfl | he
      · exact Fl.le_refl hxn
      · exact hge e he

theorem add_grow {x s : Fl} (hx : x ≠ .nan) (rx : x.Rep b64) (hs : Fl.lt (.fin 0) s = true)
    (hi : ¬ (x = .inf true ∧ s = .inf false)) :
    Fl.le x (Fl.add b64 x s) = true ∧ ¬ (Fl.add b64 x s = .inf true ∧ s = .inf false) := by
  have key : Fl.le x (Fl.add b64 x s) = true := by
    rcases pos_cases hs with rfl | ⟨b, rfl, hb⟩
    · rcases x with _ | (_ | _) | _ | a
      · exact absurd rfl hx
      · rfl
      · exact absurd ⟨rfl, rfl⟩ hi
      · rfl
      · rfl
    · rcases x with _ | (_ | _) | _ | a
      · exact absurd rfl hx
      · rfl
      · rfl
      · simp [Fl.add, Fl.le, Fl.lt, hb]
      · have e : rnd b64 a = .fin a := rx
        show Fl.le (.fin a) (rnd b64 (a + b)) = true
        rw [Fl.le_iff (by simp) (rnd_ne_nan _ _), ← e]
        exact rnd_mono b64 (by decide) (by linarith)
  refine ⟨key, ?_⟩
  rintro ⟨h1, rfl⟩
  rcases x with _ | (_ | _) | _ | a
  · exact absurd rfl hx
  · simp [Fl.add] at h1
  · exact hi ⟨rfl, rfl⟩
  · simp [Fl.add] at h1
  · simp [Fl.add] at h1

theorem linLoop_asc {s : Fl} (hs : Fl.lt (.fin 0) s = true) (rs : s.Rep b64) (n : ℕ) (x : Fl) (hx : x ≠ .nan)
    (rx : x.Rep b64) (hi : ¬ (x = .inf true ∧ s = .inf false)) :
    Ascending (linLoop s n x) ∧ ∀ e ∈ linLoop s n x, Fl.le x e = true := by
  induction n generalizing x with
  | zero => exact ⟨⟨by simp [linLoop], by simp [linLoop]⟩, by simp [linLoop]⟩
  | succ n ih =>
    obtain ⟨hg, hi'⟩ := add_grow hx rx hs hi
    obtain ⟨⟨a1, a2⟩, a3⟩ := ih (Fl.add b64 x s) (Fl.ne_nan_of_le hg).2 (add_rep rx rs) hi'
    have hge : ∀ e ∈ linLoop s n (Fl.add b64 x s), Fl.le x e = true := fun e he => Fl.le_trans hg (a3 e he)
    refine ⟨⟨?_, ?_⟩, ?_⟩
    · intro e he
      rcases List.mem_cons.1 he with rfl | he
      · exact hx
      · exact a1 e he
    · exact List.pairwise_cons.2 ⟨hge, a2⟩
    · intro e he
      rcases List.mem_cons.1 he with rfl | he
      · exact Fl.le_refl hx
      · exact hge e he

/-! ### the geometric endpoints ascend -/

/-- a base: a representable non-negative number or +∞ -/
def IsBase (b : Fl) : Prop := b = .inf false ∨ ∃ q, b = .fin q ∧ 0 ≤ q

theorem mul_base {b : Fl} (h : IsBase b) {c : ℚ} (hc : 0 < c) :
    IsBase (Fl.mul b64 b (.fin c)) ∧ (Fl.mul b64 b (.fin c)).key =
      match b with
      | .fin q => (rnd b64 (q * c)).key
      | _ => (Fl.inf false).key := by
  rcases h with rfl | ⟨q, rfl, hq⟩
  · have h1 : Fl.mul b64 (.inf false) (.fin c) = .inf false := by
      simp [Fl.mul, Fl.toQ?, hc.ne', Fl.sign]; exact hc.le
    rw [h1]; exact ⟨Or.inl rfl, rfl⟩
  · by_cases h0 : q = 0
    · subst h0
      have h1 : Fl.mul b64 (.fin 0) (.fin c) = .fin 0 := by
        simp [Fl.mul, Fl.toQ?, Fl.sign, Fl.zero, not_lt.2 hc.le]
      rw [h1]; exact ⟨Or.inr ⟨0, rfl, le_refl _⟩, by simp [rnd]⟩
    · have hpos : 0 < q * c := mul_pos (lt_of_le_of_ne hq (Ne.symm h0)) hc
      have h1 : Fl.mul b64 (.fin q) (.fin c) = rnd b64 (q * c) := by
        simp only [Fl.mul, Fl.toQ?]; rw [if_neg hpos.ne']
      rw [h1]
      refine ⟨?_, rfl⟩
      unfold rnd
      rw [if_neg hpos.ne']
      simp only [not_lt.2 hpos.le, decide_false, if_false]
      split
      · exact Or.inl rfl
      · split
        · exact Or.inr ⟨0, rfl, le_refl _⟩
        · exact Or.inr ⟨_, rfl, Fmt.rndAbs_nonneg _ (abs_nonneg _)⟩

theorem base_ne_nan {b : Fl} (h : IsBase b) : b ≠ .nan := by
  rcases h with rfl | ⟨q, rfl, _⟩ <;> simp

theorem mul_base_mono {b : Fl} (h : IsBase b) {c d : ℚ} (hc : 0 < c) (hcd : c ≤ d) :
    Fl.le (Fl.mul b64 b (.fin c)) (Fl.mul b64 b (.fin d)) = true := by
  obtain ⟨h1, k1⟩ := mul_base h hc
  obtain ⟨h2, k2⟩ := mul_base h (lt_of_lt_of_le hc hcd)
  rw [Fl.le_iff (base_ne_nan h1) (base_ne_nan h2), k1, k2]
  rcases h with rfl | ⟨q, rfl, hq⟩
  · exact le_refl _
  · exact rnd_mono b64 (by decide) (mul_le_mul_of_nonneg_left hcd hq)

theorem mul_base_one {b : Fl} (h : IsBase b) (rb : b.Rep b64) : (Fl.mul b64 b (.fin 1)).key = b.key := by
  rw [(mul_base h one_pos).2]
  rcases h with rfl | ⟨q, rfl, hq⟩
  · rfl
  · have e : rnd b64 q = .fin q := rb
    simp only [mul_one, e]

theorem coef_pos (o : ℕ) : ∃ c : ℚ, (coef o : Fl) = .fin c ∧ 0 < c := by
  rcases o with _ | _ | o
  · exact ⟨_, rfl, by norm_num⟩
  · exact ⟨_, rfl, by norm_num⟩
  · exact ⟨_, rfl, by norm_num⟩

theorem geoEmit_asc (u : Fl) (n : ℕ) (b : Fl) (o : ℕ) (l : List Fl) (hb : IsBase b) (rb : b.Rep b64)
    (ho : o < 3) (h : geoEmit u n b o = some l) :
    Ascending l ∧ (∀ e ∈ l, Fl.le (Fl.mul b64 b (coef o)) e = true) ∧
      (∀ e ∈ l.dropLast, Fl.lt e u = true) ∧ (∀ e, l.getLast? = some e → Fl.lt e u = false) := by
  induction n generalizing b o l with
  | zero => simp [geoEmit] at h
  | succ n ih =>
    obtain ⟨c, hc, hcp⟩ := coef_pos o
    obtain ⟨hv, _⟩ := mul_base hb hcp
    have hvn : (Fl.mul b64 b (coef o)) ≠ .nan := by rw [hc]; exact base_ne_nan hv
    simp only [geoEmit] at h
    change (if Fl.lt (Fl.mul b64 b (coef o)) u = true then _ else _) = _ at h
    split at h
    · next hlt =>
      split at h
      · cases h
      · next l' hl' =>
        have hrec : Ascending l' ∧ (∀ e ∈ l', Fl.le (Fl.mul b64 b (coef o)) e = true) ∧
            (∀ e ∈ l'.dropLast, Fl.lt e u = true) ∧ (∀ e, l'.getLast? = some e → Fl.lt e u = false) := by
          split at hl'
          · next h3 =>
            have h10 : (lit 10 : Fl) = .fin 10 := by simp [Arith.lit]
            change geoEmit u n (Fl.mul b64 b (lit 10)) 0 = some l' at hl'
            rw [h10] at hl'
            obtain ⟨hb', _⟩ := mul_base hb (by norm_num : (0 : ℚ) < 10)
            obtain ⟨i1, i2, i3, i4⟩ := ih _ _ _ hb' (mul_rep _ _) (by omega) hl'
            refine ⟨i1, fun e he => Fl.le_trans ?_ (i2 e he), i3, i4⟩
            have ho2 : o = 2 := by omega
            subst ho2
            have e1 : (coef 2 : Fl) = .fin 5 := by simp [coef, Arith.lit]
            have e2 : (coef 0 : Fl) = .fin 1 := by simp [coef, Arith.lit]
            rw [e1, e2]
            refine Fl.le_trans (mul_base_mono hb (by norm_num) (by norm_num : (5 : ℚ) ≤ 10)) ?_
            obtain ⟨hb1, _⟩ := mul_base hb' one_pos
            rw [Fl.le_iff (base_ne_nan hb') (base_ne_nan hb1), mul_base_one hb' (mul_rep _ _)]
          · next h3 =>
            obtain ⟨i1, i2, i3, i4⟩ := ih _ _ _ hb rb (by omega) hl'
            refine ⟨i1, fun e he => Fl.le_trans ?_ (i2 e he), i3, i4⟩
            have hoc : o = 0 ∨ o = 1 := by omega
            rcases hoc with rfl | rfl
            · have e1 : (coef 0 : Fl) = .fin 1 := by simp [coef, Arith.lit]
              have e2 : (coef (0 + 1) : Fl) = .fin 2 := by simp [coef, Arith.lit]
              rw [e1, e2]; exact mul_base_mono hb (by norm_num) (by norm_num)
            · have e1 : (coef 1 : Fl) = .fin 2 := by simp [coef, Arith.lit]
              have e2 : (coef (1 + 1) : Fl) = .fin 5 := by simp [coef, Arith.lit]
              rw [e1, e2]; exact mul_base_mono hb (by norm_num) (by norm_num)
        obtain ⟨i1, i2, i3, i4⟩ := hrec
        cases h
        have hne : l' ≠ [] := by
          split at hl'
          · exact geoEmit_ne_nil _ _ _ _ _ hl'
          · exact geoEmit_ne_nil _ _ _ _ _ hl'
        refine ⟨⟨?_, List.pairwise_cons.2 ⟨i2, i1.2⟩⟩, ?_, ?_, ?_⟩
        · intro e he
          rcases List.mem_cons.1 he with rfl | he
          · exact hvn
          · exact i1.1 e he
        · intro e he
          rcases List.mem_cons.1 he with rfl | he
          · exact Fl.le_refl hvn
          · exact i2 e he
        · intro e he
          rw [List.dropLast_cons_of_ne_nil hne] at he
          rcases List.mem_cons.1 he with rfl | he
          · exact hlt
          · exact i3 e he
        · intro e he
          rw [List.getLast?_cons_of_ne_nil hne] at he
          exact i4 e he
    · next hlt =>
      cases h
      refine ⟨⟨by intro e he; rw [List.mem_singleton] at he; subst he; exact hvn, by simp⟩, ?_, by simp, ?_⟩
      · intro e he; rw [List.mem_singleton] at he; subst he; exact Fl.le_refl hvn
      · intro e he
        simp only [List.getLast?_singleton, Option.some.injEq] at he
        subst he
        exact Bool.eq_false_iff.2 hlt

/-- `base` stays a base through the search -/
theorem geoUp_base {n : ℕ} {x b y c : Fl} (hb : IsBase b) (rb : b.Rep b64)
    (h : geoUp n x b = some (y, c)) : IsBase c ∧ c.Rep b64 := by
  induction n generalizing x b with
  | zero => simp [geoUp] at h
  | succ n ih =>
    simp only [geoUp] at h
    split at h
    · have h10 : (lit 10 : Fl) = .fin 10 := by simp [Arith.lit]
      refine ih ?_ (mul_rep _ _) h
      rw [h10]; exact (mul_base hb (by norm_num)).1
    · cases h; exact ⟨hb, rb⟩

theorem div_base {b : Fl} (h : IsBase b) {c : ℚ} (hc : 0 < c) : IsBase (Fl.div b64 b (.fin c)) := by
  rcases h with rfl | ⟨q, rfl, hq⟩
  · have h1 : Fl.div b64 (.inf false) (.fin c) = .inf false := by
      simp [Fl.div, Fl.toQ?, Fl.sign]; exact hc.le
    rw [h1]; exact Or.inl rfl
  · by_cases h0 : q = 0
    · subst h0
      have h1 : Fl.div b64 (.fin 0) (.fin c) = .fin 0 := by
        simp [Fl.div, Fl.toQ?, Fl.sign, Fl.zero, not_lt.2 hc.le, hc.ne']
      rw [h1]; exact Or.inr ⟨0, rfl, le_refl _⟩
    · have hpos : 0 < q / c := div_pos (lt_of_le_of_ne hq (Ne.symm h0)) hc
      have h1 : Fl.div b64 (.fin q) (.fin c) = rnd b64 (q / c) := by
        simp only [Fl.div, Fl.toQ?]; rw [if_neg hc.ne', if_neg h0]
      rw [h1]
      unfold rnd
      rw [if_neg hpos.ne']
      simp only [not_lt.2 hpos.le, decide_false, if_false]
      split
      · exact Or.inl rfl
      · split
        · exact Or.inr ⟨0, rfl, le_refl _⟩
        · exact Or.inr ⟨_, rfl, Fmt.rndAbs_nonneg _ (abs_nonneg _)⟩

theorem geoDown_base {n : ℕ} {x b y c : Fl} (hb : IsBase b) (rb : b.Rep b64)
    (h : geoDown n x b = some (y, c)) : IsBase c ∧ c.Rep b64 := by
  induction n generalizing x b with
  | zero => simp [geoDown] at h
  | succ n ih =>
    simp only [geoDown] at h
    split at h
    · have h10 : (lit 10 : Fl) = .fin 10 := by simp [Arith.lit]
      refine ih ?_ (div_rep _ _) h
      rw [h10]; exact div_base hb (by norm_num)
    · cases h; exact ⟨hb, rb⟩

theorem findGeo_base {n : ℕ} {x b : Fl} {o : ℕ} (h : findGeo n x = some (b, o)) :
    IsBase b ∧ b.Rep b64 ∧ o < 3 := by
  unfold findGeo at h
  have h1' : (lit 1 : Fl) = .fin 1 := by simp [Arith.lit]
  split at h
  · cases h
  · next x' b' h1 =>
    rw [h1'] at h1
    obtain ⟨i1, i2⟩ := geoUp_base (Or.inr ⟨1, rfl, by norm_num⟩) (by decide +kernel) h1
    split at h
    · cases h
    · next x2 b2 h2 =>
      obtain ⟨j1, j2⟩ := geoDown_base i1 i2 h2
      simp only [Option.some.injEq] at h
      unfold geoPick at h
      split at h
      · cases h; exact ⟨j1, j2, by omega⟩
      · split at h
        · cases h; exact ⟨j1, j2, by omega⟩
        · split at h
          · cases h; exact ⟨j1, j2, by omega⟩
          · cases h
            have h10 : (lit 10 : Fl) = .fin 10 := by simp [Arith.lit]
            refine ⟨?_, div_rep _ _, by omega⟩
            rw [h10]; exact div_base j1 (by norm_num)

/-- whatever the arguments, if the construction ends its endpoints ascend, all but the last are
below `upper` and the last is not -/
theorem geoStream_asc {n : ℕ} {lower upper : Fl} {l : List Fl} (h : geoStream n lower upper = .ok l) :
    Ascending l ∧ (∀ e ∈ l.dropLast, Fl.lt e upper = true) ∧
      (∀ e, l.getLast? = some e → Fl.lt e upper = false) := by
  unfold geoStream at h
  split at h
  · cases h
  · split at h
    · cases h
    · next b o h1 =>
      split at h
      · cases h
      · next l' h2 =>
        cases h
        obtain ⟨a1, a2, a3⟩ := findGeo_base h1
        obtain ⟨b1, _, b3, b4⟩ := geoEmit_asc upper n b o l a1 a2 a3 h2
        exact ⟨b1, b3, b4⟩

/-! ### closeness to the exact computation -/

/-- `q` is within `n` rounding steps of `r` -/
def Close (q r : ℚ) (n : ℕ) : Prop := 0 < r ∧ |q - r| ≤ r * (n * (1 / 4503599627370496))

theorem Close.mono {q r : ℚ} {n m : ℕ} (h : Close q r n) (hnm : n ≤ m) : Close q r m := by
  refine ⟨h.1, le_trans h.2 (mul_le_mul_of_nonneg_left ?_ h.1.le)⟩
  have : (n : ℚ) ≤ m := by exact_mod_cast hnm
  nlinarith

theorem Close.bounds {q r : ℚ} {n : ℕ} (h : Close q r n) (hn : n ≤ 4096) :
    r * (1 - 1 / 1099511627776) ≤ q ∧ q ≤ r * (1 + 1 / 1099511627776) := by
  have h1 := abs_le.1 h.2
  have hn' : (n : ℚ) ≤ 4096 := by exact_mod_cast hn
  have h2 : r * (n * (1 / 4503599627370496)) ≤ r * (1 / 1099511627776) := by
    apply mul_le_mul_of_nonneg_left _ h.1.le
    nlinarith
  constructor <;> nlinarith

theorem p2_m1075 : p2 (-1075) = p2 (-1000) * (1 / 37778931862957161709568) := by
  rw [show (-1075 : ℤ) = -1000 + -75 by norm_num, p2_add]
  congr 1

theorem rnd_pos_fin {q v : ℚ} (hq : 0 < q) (h : (rnd b64 q).toQ? = some v) : rnd b64 q = .fin v := by
  unfold rnd at h ⊢
  rw [if_neg hq.ne'] at h ⊢
  simp only [not_lt.2 hq.le, decide_false, if_false] at h ⊢
  split at h
  · cases h
  · next hc =>
    rw [if_neg hc]
    split at h
    · next h0 => rw [if_pos h0]; simp only [Fl.toQ?, Option.some.injEq] at h; rw [h]
    · next h0 => rw [if_neg h0]; simp only [Fl.toQ?, Option.some.injEq] at h; rw [h]

theorem close_scale {q r c : ℚ} {n : ℕ} (h : Close q r n) (hn : n ≤ 4096) (hc : 0 < c)
    (h1 : p2 (-1000) ≤ c * r) (h2 : c * r ≤ p2 990) :
    ∃ v, rnd b64 (c * q) = .fin v ∧ 0 < v ∧ Close v (c * r) (n + 1) := by
  obtain ⟨b1, b2⟩ := h.bounds hn
  have hr := h.1
  have hcr : 0 < c * r := mul_pos hc hr
  have hq : 0 < q := lt_of_lt_of_le (mul_pos hr (by norm_num)) b1
  have hcq : 0 < c * q := mul_pos hc hq
  have hq2 : c * q ≤ c * r * (1 + 1 / 1099511627776) := by
    rw [mul_assoc]; exact mul_le_mul_of_nonneg_left b2 hc.le
  have big : p2 990 * 1024 = p2 1000 := by
    rw [show (1000 : ℤ) = 990 + 10 by norm_num, p2_add]
    congr 1
  have hbd : |c * q| ≤ p2 1000 := by
    rw [abs_of_pos hcq, ← big]
    have := p2_pos 990
    nlinarith
  obtain ⟨v, e1, e2, e3, _⟩ := rnd_err (c * q) hbd
  have p53 : p2 (-53) = 1 / 9007199254740992 := by rw [p2_eq]; norm_num
  rw [abs_of_pos hcq, p53, p2_m1075] at e2
  have hcc : |c * q - c * r| ≤ c * r * (n * (1 / 4503599627370496)) := by
    rw [← mul_sub, abs_mul, abs_of_pos hc, mul_assoc]
    exact mul_le_mul_of_nonneg_left h.2 hc.le
  have hclose : |v - c * r| ≤ c * r * ((n + 1 : ℕ) * (1 / 4503599627370496)) := by
    have := abs_add_le (v - c * q) (c * q - c * r)
    simp only [sub_add_sub_cancel] at this
    push_cast
    have : c * q * (1 / 9007199254740992) + p2 (-1000) * (1 / 37778931862957161709568) ≤
        c * r * (1 / 4503599627370496) := by nlinarith
    nlinarith
  have hC : Close v (c * r) (n + 1) := ⟨hcr, hclose⟩
  refine ⟨v, rnd_pos_fin hcq e1, ?_, hC⟩
  have hb := abs_le.1 hclose
  have hn' : (n : ℚ) ≤ 4096 := by exact_mod_cast hn
  push_cast at hb
  nlinarith [hb.1]

theorem mul_fin_eq {a c : ℚ} (ha : 0 < a) (hc : 0 < c) : Fl.mul b64 (.fin a) (.fin c) = rnd b64 (c * a) := by
  simp only [Fl.mul, Fl.toQ?]; rw [if_neg (mul_pos ha hc).ne', mul_comm]

theorem div_fin_eq {a : ℚ} (ha : 0 < a) : Fl.div b64 (.fin a) (.fin 10) = rnd b64 (1 / 10 * a) := by
  simp only [Fl.div, Fl.toQ?]
  rw [if_neg (by norm_num), if_neg ha.ne']
  congr 1; ring

theorem lit_fl (n : ℤ) : (lit n : Fl) = .fin n := rfl

theorem close_pos {q r : ℚ} {n : ℕ} (h : Close q r n) (hn : n ≤ 4096) : 0 < q :=
  lt_of_lt_of_le (mul_pos h.1 (by norm_num)) (h.bounds hn).1

theorem p2_big : (1048576 : ℚ) ≤ p2 20 ∧ p2 (-20) ≤ 1 / 1048576 := by
  constructor <;> rw [p2_eq] <;> norm_num

theorem le_fin (a b : ℚ) : Fl.le (.fin a) (.fin b) = decide (a ≤ b) := by
  by_cases hc : a ≤ b
  · rcases lt_or_eq_of_le hc with h | h
    · simp [Fl.le, Fl.lt, h, hc]
    · subst h; simp [Fl.le, Fl.eq]
  · have h1 : ¬ a < b := fun h => hc h.le
    have h2 : ¬ a = b := fun h => hc h.le
    simp [Fl.le, Fl.lt, Fl.eq, hc, h1, h2]

theorem lt_fin (a b : ℚ) : Fl.lt (.fin a) (.fin b) = decide (a < b) := rfl

theorem one_le_rnd {q v : ℚ} (h : 1 ≤ q) (hv : rnd b64 q = .fin v) : 1 ≤ v := by
  have h1 : rnd b64 1 = .fin 1 := by decide +kernel
  exact rnd_toQ_mono h (by rw [h1]; rfl) (by rw [hv]; rfl)

theorem rnd_le_ten {q v : ℚ} (h : q ≤ 10) (hv : rnd b64 q = .fin v) : v ≤ 10 := by
  have h1 : rnd b64 10 = .fin 10 := by decide +kernel
  exact rnd_toQ_mono h (by rw [hv]; rfl) (by rw [h1]; rfl)

theorem geoUp_fin (f : ℕ) (q b : ℚ) : geoUp (f + 1) (Fl.fin q) (Fl.fin b) =
    if 10 ≤ q then geoUp f (Fl.div b64 (.fin q) (.fin 10)) (Fl.mul b64 (.fin b) (.fin 10))
    else some (.fin q, .fin b) := by
  have h := le_fin 10 q
  simp only [geoUp]
  show (if Fl.le (.fin ((10 : ℤ) : ℚ)) (.fin q) = true then
    geoUp f (Fl.div b64 (.fin q) (.fin ((10 : ℤ) : ℚ))) (Fl.mul b64 (.fin b) (.fin ((10 : ℤ) : ℚ))) else _) = _
  push_cast
  rw [h]
  simp only [decide_eq_true_eq]

theorem geoDown_fin (f : ℕ) (q b : ℚ) : geoDown (f + 1) (Fl.fin q) (Fl.fin b) =
    if q < 1 then geoDown f (Fl.mul b64 (.fin q) (.fin 10)) (Fl.div b64 (.fin b) (.fin 10))
    else some (.fin q, .fin b) := by
  have h := lt_fin q 1
  simp only [geoDown]
  show (if Fl.lt (.fin q) (.fin ((1 : ℤ) : ℚ)) = true then
    geoDown f (Fl.mul b64 (.fin q) (.fin ((10 : ℤ) : ℚ))) (Fl.div b64 (.fin b) (.fin ((10 : ℤ) : ℚ))) else _) = _
  push_cast
  rw [h]
  simp only [decide_eq_true_eq]

theorem p2_ranges : p2 902 * 1048576 ≤ p2 990 ∧ p2 (-1000) ≤ 1 / 1048576 ∧
    p2 (-1000) * 1048576 ≤ p2 (-900) ∧ p2 901 ≤ p2 902 ∧ (1 : ℚ) ≤ p2 902 := by
  refine ⟨?_, le_trans (p2_le (by norm_num)) p2_big.2, ?_, p2_le (by norm_num), ?_⟩
  · have : p2 902 * p2 20 ≤ p2 990 := by rw [← p2_add]; exact p2_le (by norm_num)
    have e : p2 20 = 1048576 := by rw [p2_eq]; norm_num
    rw [← e]; exact this
  · have : p2 (-1000) * p2 20 ≤ p2 (-900) := by rw [← p2_add]; exact p2_le (by norm_num)
    have e : p2 20 = 1048576 := by rw [p2_eq]; norm_num
    rw [← e]; exact this
  · have : p2 0 ≤ p2 902 := p2_le (by norm_num)
    exact this

theorem geoUp_close (m : ℕ) : ∀ (q b r s : ℚ) (n fuel : ℕ), Close q r n → Close b s n →
    n + m ≤ 4096 → r < 5 * 10 ^ m → r ≤ p2 902 → s * r ≤ p2 902 → 1 ≤ s → m < fuel →
    ∃ (k : ℕ) (y b' : ℚ), k ≤ m ∧ geoUp fuel (Fl.fin q) (Fl.fin b) = some (Fl.fin y, Fl.fin b') ∧
      Close y (r / 10 ^ k) (n + k) ∧ Close b' (s * 10 ^ k) (n + k) ∧ y < 10 ∧ (k = 0 ∧ y = q ∨ 1 ≤ y) := by
  induction m with
  | zero =>
    intro q b r s n fuel hq hb hn hr _ _ _ hf
    obtain ⟨f, rfl⟩ : ∃ f, fuel = f + 1 := ⟨fuel - 1, by omega⟩
    have hq10 : q < 10 := by
      have := (hq.bounds (by omega)).2
      have := hq.1
      simp only [pow_zero, mul_one] at hr
      nlinarith
    refine ⟨0, q, b, le_refl _, ?_, by simpa using hq, by simpa using hb, hq10, Or.inl ⟨rfl, rfl⟩⟩
    rw [geoUp_fin, if_neg (not_le.2 hq10)]
  | succ m ih =>
    intro q b r s n fuel hq hb hn hr hr2 hsr hs hf
    obtain ⟨f, rfl⟩ : ∃ f, fuel = f + 1 := ⟨fuel - 1, by omega⟩
    have hqb := hq.bounds (by omega)
    have hr0 := hq.1
    have hs0 := hb.1
    obtain ⟨P1, P2, P3, P4, P5⟩ := p2_ranges
    by_cases hc : 10 ≤ q
    · have hr5 : 5 ≤ r := by nlinarith
      have hs902 : s * 5 ≤ p2 902 := by nlinarith
      have hq0 : 0 < q := by linarith
      have hb0 := close_pos hb (by omega)
      obtain ⟨v, e1, v0, hv⟩ := close_scale hq (by omega) (by norm_num : (0 : ℚ) < 1 / 10) (by linarith) (by linarith)
      obtain ⟨w, f1, w0, hw⟩ := close_scale hb (by omega) (by norm_num : (0 : ℚ) < 10) (by linarith) (by linarith)
      have h1v := one_le_rnd (by linarith) e1
      obtain ⟨k, y, b', k1, k2, k3, k4, k5, k6⟩ := ih v w (1 / 10 * r) (10 * s) (n + 1) f hv hw (by omega)
        (by rw [pow_succ] at hr; linarith) (by linarith) (by linarith) (by linarith) (by omega)
      refine ⟨k + 1, y, b', by omega, ?_, ?_, ?_, k5, ?_⟩
      · rw [geoUp_fin, if_pos hc, div_fin_eq hq0, mul_fin_eq hb0 (by norm_num), e1, f1]
        exact k2
      · have e : r / 10 ^ (k + 1) = 1 / 10 * r / 10 ^ k := by rw [pow_succ]; field_simp
        rw [e, show n + (k + 1) = n + 1 + k by omega]; exact k3
      · have e : s * 10 ^ (k + 1) = 10 * s * 10 ^ k := by rw [pow_succ]; ring
        rw [e, show n + (k + 1) = n + 1 + k by omega]; exact k4
      · right
        rcases k6 with ⟨_, rfl⟩ | h
        · exact h1v
        · exact h
    · refine ⟨0, q, b, Nat.zero_le _, ?_, by simpa using hq, by simpa using hb, not_le.1 hc, Or.inl ⟨rfl, rfl⟩⟩
      rw [geoUp_fin, if_neg hc]

theorem geoDown_close (m : ℕ) : ∀ (q b r s : ℚ) (n fuel : ℕ), Close q r n → Close b s n →
    n + m ≤ 4096 → 2 ≤ r * 10 ^ m → q ≤ 10 → p2 (-900) ≤ r → p2 (-900) ≤ s * r → s ≤ p2 902 → m < fuel →
    ∃ (k : ℕ) (y b' : ℚ), k ≤ m ∧ geoDown fuel (Fl.fin q) (Fl.fin b) = some (Fl.fin y, Fl.fin b') ∧
      Close y (r * 10 ^ k) (n + k) ∧ Close b' (s / 10 ^ k) (n + k) ∧ 1 ≤ y ∧ y ≤ 10 := by
  induction m with
  | zero =>
    intro q b r s n fuel hq hb hn hr h10 _ _ _ hf
    obtain ⟨f, rfl⟩ : ∃ f, fuel = f + 1 := ⟨fuel - 1, by omega⟩
    have hq1 : 1 ≤ q := by
      have := (hq.bounds (by omega)).1
      simp only [pow_zero, mul_one] at hr
      nlinarith
    refine ⟨0, q, b, le_refl _, ?_, by simpa using hq, by simpa using hb, hq1, h10⟩
    rw [geoDown_fin, if_neg (not_lt.2 hq1)]
  | succ m ih =>
    intro q b r s n fuel hq hb hn hr h10 hr9 hsr hs hf
    obtain ⟨f, rfl⟩ : ∃ f, fuel = f + 1 := ⟨fuel - 1, by omega⟩
    have hqb := hq.bounds (by omega)
    have hr0 := hq.1
    have hs0 := hb.1
    obtain ⟨P1, P2, P3, P4, P5⟩ := p2_ranges
    have P6 := p2_pos (-1000)
    by_cases hc : q < 1
    · have hr2 : r ≤ 2 := by nlinarith
      have hsr2 : s * r ≤ s * 2 := mul_le_mul_of_nonneg_left hr2 hs0.le
      have hq0 := close_pos hq (by omega)
      have hb0 := close_pos hb (by omega)
      obtain ⟨v, e1, v0, hv⟩ := close_scale hq (by omega) (by norm_num : (0 : ℚ) < 10) (by linarith) (by linarith)
      obtain ⟨w, f1, w0, hw⟩ := close_scale hb (by omega) (by norm_num : (0 : ℚ) < 1 / 10) (by linarith) (by linarith)
      have hv10 := rnd_le_ten (by linarith) e1
      obtain ⟨k, y, b', k1, k2, k3, k4, k5, k6⟩ := ih v w (10 * r) (1 / 10 * s) (n + 1) f hv hw (by omega)
        (by rw [pow_succ] at hr; linarith) hv10 (by linarith) (by nlinarith) (by linarith) (by omega)
      refine ⟨k + 1, y, b', by omega, ?_, ?_, ?_, k5, k6⟩
      · rw [geoDown_fin, if_pos hc, div_fin_eq hb0, mul_fin_eq hq0 (by norm_num), e1, f1]
        exact k2
      · have e : r * 10 ^ (k + 1) = 10 * r * 10 ^ k := by rw [pow_succ]; ring
        rw [e, show n + (k + 1) = n + 1 + k by omega]; exact k3
      · have e : s / 10 ^ (k + 1) = 1 / 10 * s / 10 ^ k := by rw [pow_succ]; field_simp
        rw [e, show n + (k + 1) = n + 1 + k by omega]; exact k4
    · refine ⟨0, q, b, Nat.zero_le _, ?_, by simpa using hq, by simpa using hb, not_lt.1 hc, h10⟩
      rw [geoDown_fin, if_neg hc]

theorem ten_280 : p2 902 < 5 * 10 ^ 280 := by
  decide +kernel

theorem ten_260 : 2 ≤ p2 (-802) * 10 ^ 260 := by
  decide +kernel

theorem geoPick_fl {y b : ℚ} (h1 : 1 ≤ y) (h10 : y ≤ 10) :
    ∃ o : ℕ, o < 3 ∧ geoPick (Fl.fin y) (Fl.fin b) = (Fl.fin b, o) ∧ (coef o : ℚ) ≤ y ∧
      y ≤ (if o = 2 then 10 else coef (o + 1)) := by
  have hc : ∀ (c : ℤ), Arith.le (lit c : Fl) (Fl.fin y) = decide ((c : ℚ) ≤ y) := fun c => le_fin c y
  unfold geoPick
  simp only [coef, hc]
  push_cast
  by_cases h5 : (5 : ℚ) ≤ y
  · exact ⟨2, by omega, by simp [h5], by simp [Arith.lit, h5], by simpa using h10⟩
  · push Not at h5
    by_cases h2 : (2 : ℚ) ≤ y
    · refine ⟨1, by omega, by simp [h2, not_le.2 h5], by simp [Arith.lit, h2], ?_⟩
      rw [if_neg (by omega)]; simp [Arith.lit]; exact h5.le
    · push Not at h2
      refine ⟨0, by omega, by simp [h1, not_le.2 h2, not_le.2 h5], by simp [Arith.lit, h1], ?_⟩
      rw [if_neg (by omega)]; simp [Arith.lit]; exact h2.le

theorem findGeo_close {q : ℚ} (h1 : p2 (-800) ≤ q) (h2 : q ≤ p2 900) :
    ∃ (e : ℤ) (o : ℕ) (b : ℚ), o < 3 ∧ findGeo 300 (Fl.fin q) = some (Fl.fin b, o) ∧
      Close b ((10 : ℚ) ^ e) 540 ∧ ladder (3 * e + o) ≤ q * (1 + 1 / 1099511627776) ∧
      q * (1 - 1 / 1099511627776) ≤ ladder (3 * e + o + 1) := by
  have hq0 : 0 < q := lt_of_lt_of_le (p2_pos _) h1
  obtain ⟨P1, P2, P3, P4, P5⟩ := p2_ranges
  have a1 : p2 900 ≤ p2 902 := p2_le (by norm_num)
  have a2 : p2 (-900) ≤ p2 (-800) := p2_le (by norm_num)
  have a3 : p2 (-802) ≤ p2 (-800) := p2_le (by norm_num)
  have a4 : p2 (-802) ≤ 1 / 2 := by
    have : p2 (-802) ≤ p2 (-1) := p2_le (by norm_num)
    exact this
  have a5 : p2 (-900) ≤ 1 / 2 := le_trans (p2_le (by norm_num)) a4
  have hcq : Close q q 0 := ⟨hq0, by simp⟩
  have hc1 : Close 1 1 0 := ⟨one_pos, by simp⟩
  obtain ⟨k, y, b, k1, k2, k3, k4, k5, k6⟩ := geoUp_close 280 q 1 q 1 0 300 hcq hc1 (by omega)
    (lt_of_le_of_lt (le_trans h2 a1) ten_280) (le_trans h2 a1) (by linarith) le_rfl (by omega)
  simp only [zero_add, one_mul] at k3 k4
  have hp : (0 : ℚ) < 10 ^ k := by positivity
  have hyb := k3.bounds (by omega)
  have hr : p2 (-802) ≤ q / 10 ^ k ∧ p2 (-900) ≤ q / 10 ^ k := by
    rcases k6 with ⟨rfl, _⟩ | h
    · simp only [pow_zero, div_one]; constructor <;> linarith
    · have := k3.1
      have : 1 / 2 ≤ q / 10 ^ k := by nlinarith [hyb.2]
      constructor <;> linarith
  have hk902 : (10 : ℚ) ^ k ≤ p2 902 := by
    rcases k6 with ⟨rfl, _⟩ | h
    · simpa using P5
    · have : 1 / 2 ≤ q / 10 ^ k := by nlinarith [hyb.2, k3.1]
      rw [le_div_iff₀ hp] at this
      have e : p2 902 = p2 900 * 4 := by
        rw [show (902 : ℤ) = 900 + 2 by norm_num, p2_add]; rfl
      linarith
  have hprod : (10 : ℚ) ^ k * (q / 10 ^ k) = q := by field_simp
  obtain ⟨j, z, c, j1, j2, j3, j4, j5, j6⟩ := geoDown_close 260 y b (q / 10 ^ k) (10 ^ k) k 300 k3 k4 (by omega)
    (by
      exact le_trans ten_260 (mul_le_mul_of_nonneg_right hr.1 (by positivity))) k5.le hr.2 (by rw [hprod]; linarith) hk902 (by omega)
  obtain ⟨o, ho, p1, p2', p3⟩ := geoPick_fl (b := c) j5 j6
  have hpj : (0 : ℚ) < 10 ^ j := by positivity
  have hE : (10 : ℚ) ^ ((k : ℤ) - j) = 10 ^ k / 10 ^ j := by
    rw [zpow_sub₀ (by norm_num)]; simp
  have hEp : (0 : ℚ) < (10 : ℚ) ^ ((k : ℤ) - j) := by positivity
  have hz : q / 10 ^ k * 10 ^ j * (10 : ℚ) ^ ((k : ℤ) - j) = q := by rw [hE]; field_simp
  have hzb := j3.bounds (by omega)
  have hz1 : q * (1 - 1 / 1099511627776) ≤ z * (10 : ℚ) ^ ((k : ℤ) - j) := by
    have := mul_le_mul_of_nonneg_right hzb.1 hEp.le
    calc _ = q / 10 ^ k * 10 ^ j * (10 : ℚ) ^ ((k : ℤ) - j) * (1 - 1 / 1099511627776) := by rw [hz]
      _ = _ := by ring
      _ ≤ _ := this
  have hz2 : z * (10 : ℚ) ^ ((k : ℤ) - j) ≤ q * (1 + 1 / 1099511627776) := by
    have := mul_le_mul_of_nonneg_right hzb.2 hEp.le
    calc _ ≤ _ := this
      _ = q / 10 ^ k * 10 ^ j * (10 : ℚ) ^ ((k : ℤ) - j) * (1 + 1 / 1099511627776) := by ring
      _ = _ := by rw [hz]
  refine ⟨(k : ℤ) - j, o, c, ho, ?_, ?_, ?_, ?_⟩
  · unfold findGeo
    have : (lit 1 : Fl) = .fin 1 := by simp [Arith.lit]
    rw [this, k2]
    simp only
    rw [j2]
    simp only [p1]
  · rw [hE]; exact j4.mono (by omega)
  · rw [ladder_parts _ _ ho]
    have := mul_le_mul_of_nonneg_left p2' hEp.le
    linarith
  · have := mul_le_mul_of_nonneg_left p3 hEp.le
    split at this
    · next h2 =>
      subst h2
      rw [show 3 * ((k : ℤ) - j) + ((2 : ℕ) : ℤ) + 1 = 3 * (((k : ℤ) - j) + 1) + (0 : ℕ) by push_cast; ring,
        ladder_parts _ _ (by omega), zpow_add₀ (by norm_num)]
      simp only [coef, Arith.lit, zpow_one]
      push_cast
      linarith
    · next h2 =>
      rw [show 3 * ((k : ℤ) - j) + (o : ℤ) + 1 = 3 * ((k : ℤ) - j) + ((o + 1 : ℕ) : ℤ) by push_cast; ring,
        ladder_parts _ _ (by omega)]
      linarith

theorem coef_fl (o : ℕ) : (coef o : Fl) = .fin (coef o : ℚ) := by
  rcases o with _ | _ | o <;> rfl

theorem coef_q (o : ℕ) : (1 : ℚ) ≤ coef o ∧ (coef o : ℚ) ≤ 5 := by
  rcases o with _ | _ | o <;> simp [coef, Arith.lit] <;> norm_num

theorem ladder_succ_le (n : ℤ) : ladder (n + 1) ≤ ladder n * 10 := by
  obtain ⟨k, o, ho, rfl⟩ := ladder_parts' n
  have hp : (0 : ℚ) < 10 ^ k := by positivity
  by_cases h2 : o = 2
  · subst h2
    rw [show 3 * k + ((2 : ℕ) : ℤ) + 1 = 3 * (k + 1) + (0 : ℕ) by push_cast; ring,
      ladder_parts _ _ (by omega), ladder_parts _ _ (by omega), zpow_add₀ (by norm_num)]
    simp only [coef, Arith.lit, zpow_one]; push_cast; linarith
  · rw [show 3 * k + (o : ℤ) + 1 = 3 * k + ((o + 1 : ℕ) : ℤ) by push_cast; ring,
      ladder_parts _ _ (by omega), ladder_parts _ _ ho]
    have h1 := (coef_q (o + 1)).2
    have h2 := (coef_q o).1
    nlinarith

theorem geoEmit_fin (f : ℕ) (u b v : ℚ) (o : ℕ) (hv : Fl.mul b64 (.fin b) (coef o) = .fin v) :
    geoEmit (Fl.fin u) (f + 1) (Fl.fin b) o =
    if v < u then
      match (if o + 1 = 3 then geoEmit (Fl.fin u) f (Fl.mul b64 (.fin b) (.fin 10)) 0
        else geoEmit (Fl.fin u) f (Fl.fin b) (o + 1)) with
      | none => none
      | some l => some (.fin v :: l)
    else some [.fin v] := by
  have h10 : (lit 10 : Fl) = .fin 10 := by simp [Arith.lit]
  have hm : Arith.mul (Fl.fin b) (coef o) = Fl.fin v := hv
  have hl : Arith.lt (Fl.fin v) (Fl.fin u) = decide (v < u) := rfl
  have hm10 : Arith.mul (Fl.fin b) (Fl.fin 10) = Fl.mul b64 (Fl.fin b) (Fl.fin 10) := rfl
  simp only [geoEmit, h10, hm, hl, decide_eq_true_eq, hm10]
  split
  · split <;> split <;> simp_all
  · rfl

theorem geoEmit_close (u : ℚ) (hu : u ≤ p2 900) (m : ℕ) : ∀ (b : ℚ) (e : ℤ) (o n fuel : ℕ), o < 3 →
    Close b ((10 : ℚ) ^ e) n → n + m + 2 ≤ 4096 → 2 * u ≤ ladder (3 * e + o + m) →
    p2 (-900) ≤ (10 : ℚ) ^ e → ladder (3 * e + o) ≤ p2 902 * 1024 → m < fuel →
    ∃ (j : ℕ) (l : List Fl), j ≤ m ∧ geoEmit (Fl.fin u) fuel (Fl.fin b) o = some l ∧ l.length = j + 1 ∧
      ∀ i : ℕ, i ≤ j → ∃ v : ℚ, l[i]? = some (Fl.fin v) ∧ Close v (ladder (3 * e + o + i)) (n + m + 1) ∧
        (i < j → v < u) ∧ (i = j → u ≤ v) := by
  obtain ⟨P1, P2, P3, P4, P5⟩ := p2_ranges
  have P6 := p2_pos (-1000)
  have hu2 : 2 * u ≤ p2 901 := by
    have e : p2 901 = p2 900 * 2 := by rw [show (901 : ℤ) = 900 + 1 by norm_num, p2_add]; rfl
    linarith
  -- the value emitted first
  have first : ∀ (b : ℚ) (e : ℤ) (o n : ℕ), o < 3 → Close b ((10 : ℚ) ^ e) n → n ≤ 4096 →
      p2 (-900) ≤ (10 : ℚ) ^ e → ladder (3 * e + o) ≤ p2 902 * 1024 →
      ∃ v, Fl.mul b64 (.fin b) (coef o) = .fin v ∧ Close v (ladder (3 * e + o)) (n + 1) := by
    intro b e o n ho hb hn he hl
    have hb0 := close_pos hb hn
    obtain ⟨c1, c2⟩ := coef_q o
    have hc0 : (0 : ℚ) < coef o := by linarith
    have hE := hb.1
    have hlp := ladder_parts e o ho
    obtain ⟨v, e1, v0, hv⟩ := close_scale hb hn hc0 (by nlinarith) (by rw [mul_comm, ← hlp]; linarith)
    refine ⟨v, by rw [coef_fl, mul_fin_eq hb0 hc0, e1], ?_⟩
    rw [hlp, mul_comm]; exact hv
  induction m with
  | zero =>
    intro b e o n fuel ho hb hn h2u he hl hf
    obtain ⟨f, rfl⟩ : ∃ f, fuel = f + 1 := ⟨fuel - 1, by omega⟩
    obtain ⟨v, e1, hv⟩ := first b e o n ho hb (by omega) he hl
    have huv : ¬ v < u := by
      rw [not_lt]
      have := (hv.bounds (by omega)).1
      have hp := ladder_pos (3 * e + o)
      simp only [Nat.cast_zero, add_zero] at h2u
      nlinarith
    refine ⟨0, [.fin v], le_refl _, ?_, rfl, ?_⟩
    · rw [geoEmit_fin f u b v o e1, if_neg huv]
    · intro i hi
      obtain rfl : i = 0 := by omega
      exact ⟨v, rfl, by simpa using hv, by omega, fun _ => not_lt.1 huv⟩
  | succ m ih =>
    intro b e o n fuel ho hb hn h2u he hl hf
    obtain ⟨f, rfl⟩ : ∃ f, fuel = f + 1 := ⟨fuel - 1, by omega⟩
    obtain ⟨v, e1, hv⟩ := first b e o n ho hb (by omega) he hl
    by_cases huv : v < u
    · have hlad : ladder (3 * e + o) ≤ p2 902 := by
        have := (hv.bounds (by omega)).1
        have hp := ladder_pos (3 * e + o)
        nlinarith
      have hnext : ladder (3 * e + o + 1) ≤ p2 902 * 1024 := by
        have := ladder_succ_le (3 * e + o)
        linarith
      have hb0 := close_pos hb (by omega)
      have hrec : ∃ (j : ℕ) (l : List Fl), j ≤ m ∧
          (if o + 1 = 3 then geoEmit (Fl.fin u) f (Fl.mul b64 (.fin b) (.fin 10)) 0
            else geoEmit (Fl.fin u) f (Fl.fin b) (o + 1)) = some l ∧ l.length = j + 1 ∧
          ∀ i : ℕ, i ≤ j → ∃ v : ℚ, l[i]? = some (Fl.fin v) ∧ Close v (ladder (3 * e + o + 1 + i)) (n + m + 2) ∧
            (i < j → v < u) ∧ (i = j → u ≤ v) := by
        by_cases h3 : o + 1 = 3
        · obtain rfl : o = 2 := by omega
          have hE := hb.1
          have h10 : (10 : ℚ) ^ (e + 1) = 10 * 10 ^ e := by rw [zpow_add₀ (by norm_num), zpow_one, mul_comm]
          have hle5 : (10 : ℚ) ^ e * 5 ≤ p2 902 := by
            have := ladder_parts e 2 (by omega)
            rw [this] at hlad
            simpa [coef, Arith.lit] using hlad
          obtain ⟨w, f1, w0, hw⟩ := close_scale hb (by omega) (by norm_num : (0 : ℚ) < 10) (by linarith) (by linarith)
          have hidx : (3 * (e + 1) + ((0 : ℕ) : ℤ)) = 3 * e + ((2 : ℕ) : ℤ) + 1 := by push_cast; ring
          obtain ⟨j, l, j1, j2, j3, j4⟩ := ih w (e + 1) 0 (n + 1) f (by omega) (by rw [h10]; exact hw) (by omega)
            (by rw [hidx]; convert h2u using 2; push_cast; ring) (by rw [h10]; linarith)
            (by rw [hidx]; exact hnext) (by omega)
          refine ⟨j, l, j1, ?_, j3, ?_⟩
          · rw [if_pos h3, mul_fin_eq hb0 (by norm_num), f1]; exact j2
          · intro i hi
            obtain ⟨v, v1, v2, v3⟩ := j4 i hi
            refine ⟨v, v1, ?_, v3⟩
            rw [hidx] at v2
            exact v2.mono (by omega)
        · have hidx : (3 * e + ((o + 1 : ℕ) : ℤ)) = 3 * e + (o : ℤ) + 1 := by push_cast; ring
          obtain ⟨j, l, j1, j2, j3, j4⟩ := ih b e (o + 1) n f (by omega) hb (by omega)
            (by rw [hidx]; convert h2u using 2; push_cast; ring) he
            (by rw [hidx]; exact hnext) (by omega)
          refine ⟨j, l, j1, ?_, j3, ?_⟩
          · rw [if_neg h3]; exact j2
          · intro i hi
            obtain ⟨v, v1, v2, v3⟩ := j4 i hi
            refine ⟨v, v1, ?_, v3⟩
            rw [hidx] at v2
            exact v2.mono (by omega)
      obtain ⟨j, l, j1, j2, j3, j4⟩ := hrec
      refine ⟨j + 1, .fin v :: l, by omega, ?_, by simp [j3], ?_⟩
      · rw [geoEmit_fin f u b v o e1, if_pos huv, j2]
      · intro i hi
        cases i with
        | zero => exact ⟨v, rfl, by simpa using hv.mono (by omega), fun _ => huv, by omega⟩
        | succ i =>
          obtain ⟨w, w1, w2, w3, w4⟩ := j4 i (by omega)
          refine ⟨w, by simpa using w1, ?_, fun h => w3 (by omega), fun h => w4 (by omega)⟩
          rw [show 3 * e + (o : ℤ) + ((i + 1 : ℕ) : ℤ) = 3 * e + (o : ℤ) + 1 + i by push_cast; ring]
          exact w2.mono (by omega)
    · refine ⟨0, [.fin v], by omega, ?_, rfl, ?_⟩
      · rw [geoEmit_fin f u b v o e1, if_neg huv]
      · intro i hi
        obtain rfl : i = 0 := by omega
        exact ⟨v, rfl, by simpa using hv.mono (by omega), by omega, fun _ => not_lt.1 huv⟩

theorem ladder_add3 (n : ℤ) (m : ℕ) : ladder (n + (3 * m : ℕ)) = ladder n * 10 ^ m := by
  obtain ⟨k, o, ho, rfl⟩ := ladder_parts' n
  rw [show 3 * k + (o : ℤ) + ((3 * m : ℕ) : ℤ) = 3 * (k + m) + o by push_cast; ring,
    ladder_parts _ _ ho, ladder_parts _ _ ho, zpow_add₀ (by norm_num), zpow_natCast]
  ring

theorem ten_520 : p2 901 ≤ p2 (-802) * 10 ^ 520 := by
  decide +kernel

theorem geoStream_close {q u : ℚ} (h1 : p2 (-800) ≤ q) (h2 : q ≤ u) (h3 : u ≤ p2 900) :
    ∃ (a : ℤ) (m : ℕ) (l : List Fl), (∀ fuel, 2000 ≤ fuel → geoStream fuel (Fl.fin q) (Fl.fin u) = .ok l) ∧
      l.length = m + 1 ∧ ladder a ≤ q * (1 + 1 / 1099511627776) ∧
      q * (1 - 1 / 1099511627776) ≤ ladder (a + 1) ∧
      ∀ i : ℕ, i ≤ m → ∃ v : ℚ, l[i]? = some (Fl.fin v) ∧
        |v - ladder (a + i)| ≤ ladder (a + i) * (1 / 1099511627776) ∧
        (i < m → v < u) ∧ (i = m → u ≤ v) := by
  have hq0 : 0 < q := lt_of_lt_of_le (p2_pos _) h1
  obtain ⟨e, o, b, ho, f1, f2, f3, f4⟩ := findGeo_close h1 (le_trans h2 h3)
  obtain ⟨P1, P2, P3, P4, P5⟩ := p2_ranges
  have hE := f2.1
  have hlp := ladder_parts e o ho
  obtain ⟨c1, c2⟩ := coef_q o
  have hlow : p2 (-800) ≤ (10 : ℚ) ^ e * 100 := by
    have := ladder_succ_le (3 * e + o)
    rw [hlp] at this
    have : (10 : ℚ) ^ e * coef o ≤ 10 ^ e * 5 := mul_le_mul_of_nonneg_left c2 hE.le
    nlinarith
  have e800 : p2 (-800) = p2 (-900) * (1267650600228229401496703205376) := by
    rw [show (-800 : ℤ) = -900 + 100 by norm_num, p2_add]
    congr 1
  have hp9 := p2_pos (-900)
  have e901 : p2 901 = p2 900 * 2 := by rw [show (901 : ℤ) = 900 + 1 by norm_num, p2_add]; rfl
  have e802 : p2 (-800) = p2 (-802) * 4 := by
    rw [show (-800 : ℤ) = -802 + 2 by norm_num, p2_add]; rfl
  obtain ⟨j, l, j1, j2, j3, j4⟩ := geoEmit_close u h3 1575 b e o 540 2000 ho f2 (by omega)
    (by
      rw [show (1575 : ℕ) = 3 * 525 by norm_num, ladder_add3, hlp]
      have t := ten_520
      have hA : p2 (-802) ≤ 10 ^ e * (coef o : ℚ) * 25 := by nlinarith
      have hC : (10 : ℚ) ^ 525 = 10 ^ 5 * 10 ^ 520 := by rw [← pow_add]
      have hT : (0 : ℚ) < 10 ^ 520 := by positivity
      rw [hC]
      generalize (10 : ℚ) ^ 520 = T at t hT
      have hB : p2 (-802) * T ≤ 10 ^ e * (coef o : ℚ) * 25 * T :=
        mul_le_mul_of_nonneg_right hA hT.le
      have hD : (0 : ℚ) ≤ 10 ^ e * (coef o : ℚ) * T :=
        mul_nonneg (mul_nonneg hE.le (by linarith)) hT.le
      linarith)
    (by linarith) (by
      have : q * (1 + 1 / 1099511627776) ≤ p2 900 * 2 := by nlinarith
      have : p2 902 ≤ p2 902 * 1024 := by nlinarith
      linarith) (by omega)
  refine ⟨3 * e + o, j, l, ?_, j3, f3, f4, ?_⟩
  · intro fuel hf
    refine geoStream_mono (f := 2000) ?_ hf
    unfold geoStream
    have g : (Arith.le (Fl.fin q) (lit 0 : Fl) || Arith.lt (Fl.fin u) (Fl.fin q)) = false := by
      show (Fl.le (.fin q) (.fin ((0 : ℤ) : ℚ)) || Fl.lt (.fin u) (.fin q)) = false
      rw [le_fin, lt_fin]
      simp [not_le.2 hq0, not_lt.2 h2]
    rw [g, findGeo_mono f1 (by omega)]
    simp only [Bool.false_eq_true, if_false, j2]
  · intro i hi
    obtain ⟨v, v1, v2, v3⟩ := j4 i hi
    refine ⟨v, v1, ?_, v3⟩
    obtain ⟨b1, b2⟩ := v2.bounds (by omega)
    rw [abs_le]; constructor <;> linarith

end Tricorder
