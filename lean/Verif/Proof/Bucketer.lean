import Verif.Proof.Dist
import Verif.Proof.FloatErr
import Verif.Spec.Bucketer
import Mathlib.Tactic.Ring
import Mathlib.Tactic.FieldSimp
import Mathlib.Tactic.NormNum
import Mathlib.Tactic.Positivity
import Mathlib.Tactic.IntervalCases
import Mathlib.Algebra.Order.Archimedean.Basic
/-! # Lemmas about bucketer constructors -/

namespace Tricorder
open Go Arith Spec

/-! ### lengths and shapes -/

section
variable {F : Type} [Arith F]

theorem expLoop_length (s : F) (n : ℕ) (x : F) : (expLoop s n x).length = n := by
  induction n generalizing x with
  | zero => rfl
  | succ n ih => simp [expLoop, ih]

theorem linLoop_length (s : F) (n : ℕ) (x : F) : (linLoop s n x).length = n := by
  induction n generalizing x with
  | zero => rfl
  | succ n ih => simp [linLoop, ih]

theorem geoEmit_ne_nil (u : F) (n : ℕ) (b : F) (o : ℕ) (l : List F) (h : geoEmit u n b o = some l) :
    l ≠ [] := by
  cases n with
  | zero => simp [geoEmit] at h
  | succ n =>
    simp only [geoEmit] at h
    split at h
    · split at h
      · cases h
      · cases h; simp
    · cases h; simp

/-! more fuel gives the same result -/

theorem geoUp_mono {f g : ℕ} {x b : F} {r : F × F} (h : geoUp f x b = some r) (hg : f ≤ g) :
    geoUp g x b = some r := by
  induction f generalizing x b g with
  | zero => simp [geoUp] at h
  | succ f ih =>
    obtain ⟨g, rfl⟩ : ∃ g', g = g' + 1 := ⟨g - 1, by omega⟩
    simp only [geoUp] at h ⊢
    split at h
    · next hc => rw [if_pos hc]; exact ih h (by omega)
    · next hc => rw [if_neg hc]; exact h

theorem geoDown_mono {f g : ℕ} {x b : F} {r : F × F} (h : geoDown f x b = some r) (hg : f ≤ g) :
    geoDown g x b = some r := by
  induction f generalizing x b g with
  | zero => simp [geoDown] at h
  | succ f ih =>
    obtain ⟨g, rfl⟩ : ∃ g', g = g' + 1 := ⟨g - 1, by omega⟩
    simp only [geoDown] at h ⊢
    split at h
    · next hc => rw [if_pos hc]; exact ih h (by omega)
    · next hc => rw [if_neg hc]; exact h

theorem geoEmit_mono {f g : ℕ} {u b : F} {o : ℕ} {l : List F} (h : geoEmit u f b o = some l)
    (hg : f ≤ g) : geoEmit u g b o = some l := by
  induction f generalizing b o l g with
  | zero => simp [geoEmit] at h
  | succ f ih =>
    obtain ⟨g, rfl⟩ : ∃ g', g = g' + 1 := ⟨g - 1, by omega⟩
    simp only [geoEmit] at h ⊢
    split at h
    · next hc =>
      rw [if_pos hc]
      split at h
      · cases h
      · next l' hl =>
        cases h
        split at hl
        · next h3 => rw [if_pos h3, ih hl (by omega)]
        · next h3 => rw [if_neg h3, ih hl (by omega)]
    · next hc => rw [if_neg hc]; exact h

theorem findGeo_mono {f g : ℕ} {x : F} {r : F × ℕ} (h : findGeo f x = some r) (hg : f ≤ g) :
    findGeo g x = some r := by
  unfold findGeo at h ⊢
  split at h
  · cases h
  · next x' b' h1 =>
    rw [geoUp_mono h1 hg]
    simp only
    split at h
    · cases h
    · next x2 b2 h2 => rw [geoDown_mono h2 hg]; exact h

theorem geoStream_mono {f g : ℕ} {lo up : F} {l : List F} (h : geoStream f lo up = .ok l)
    (hg : f ≤ g) : geoStream g lo up = .ok l := by
  unfold geoStream at h ⊢
  split at h
  · cases h
  · next hc =>
    rw [if_neg hc]
    split at h
    · cases h
    · next b o h1 =>
      rw [findGeo_mono h1 hg]
      simp only
      split at h
      · cases h
      · next l' h2 => rw [geoEmit_mono h2 hg]; exact h

theorem fromEndpoints_ok {l : List F} (h : l ≠ []) : ∃ p, fromEndpoints l = .ok p := by
  cases l with
  | nil => exact absurd rfl h
  | cons a l => exact ⟨_, rfl⟩

theorem bind_ok {α β : Type} {r : Res α} {f : α → Res β} {b : β} (h : r.bind f = .ok b) :
    ∃ a, r = .ok a ∧ f a = .ok b := by
  cases r with
  | ok a => exact ⟨a, rfl, h⟩
  | panic => cases h
  | timeout => cases h

end

/-! ### exact arithmetic -/

theorem expLoop_q (s : ℚ) (n : ℕ) (x : ℚ) (i : ℕ) (h : i < n) :
    (expLoop s n x)[i]? = some (x * s ^ i) := by
  induction n generalizing x i with
  | zero => omega
  | succ n ih =>
    cases i with
    | zero => simp [expLoop]
    | succ i =>
      simp only [expLoop, List.getElem?_cons_succ]
      rw [ih _ _ (by omega)]
      simp only [Arith.mul, Option.some.injEq, pow_succ]; ring

theorem linLoop_q (s : ℚ) (n : ℕ) (x : ℚ) (i : ℕ) (h : i < n) :
    (linLoop s n x)[i]? = some (x + i * s) := by
  induction n generalizing x i with
  | zero => omega
  | succ n ih =>
    cases i with
    | zero => simp [linLoop]
    | succ i =>
      simp only [linLoop, List.getElem?_cons_succ]
      rw [ih _ _ (by omega)]
      simp only [Arith.add, Option.some.injEq]; push_cast; ring

/-! ### the ladder -/

theorem ladder_pos (n : ℤ) : 0 < ladder n := by
  unfold ladder
  apply mul_pos (by positivity)
  split
  · norm_num
  · split <;> norm_num

theorem ladder_parts (k : ℤ) (o : ℕ) (h : o < 3) :
    ladder (3 * k + o) = (10 : ℚ) ^ k * coef o := by
  unfold ladder
  have h1 : (3 * k + (o : ℤ)) / 3 = k := by omega
  have h2 : (3 * k + (o : ℤ)) % 3 = o := by omega
  rw [h1, h2]
  interval_cases o <;> simp [coef, Arith.lit]

theorem ladder_parts' (n : ℤ) : ∃ (k : ℤ) (o : ℕ), o < 3 ∧ n = 3 * k + o :=
  ⟨n / 3, (n % 3).toNat, by omega, by omega⟩

theorem ladder_lt_succ (n : ℤ) : ladder n < ladder (n + 1) := by
  obtain ⟨k, o, ho, rfl⟩ := ladder_parts' n
  have hp : (0 : ℚ) < 10 ^ k := by positivity
  rw [ladder_parts k o ho]
  interval_cases o
  · have := ladder_parts k 1 (by omega)
    rw [show 3 * k + ((0 : ℕ) : ℤ) + 1 = 3 * k + (1 : ℕ) by push_cast; ring, this]
    simp only [coef, Arith.lit]; push_cast; linarith
  · have := ladder_parts k 2 (by omega)
    rw [show 3 * k + ((1 : ℕ) : ℤ) + 1 = 3 * k + (2 : ℕ) by push_cast; ring, this]
    simp only [coef, Arith.lit]; push_cast; linarith
  · have := ladder_parts (k + 1) 0 (by omega)
    rw [show 3 * k + ((2 : ℕ) : ℤ) + 1 = 3 * (k + 1) + (0 : ℕ) by push_cast; ring, this,
      zpow_add₀ (by norm_num)]
    simp only [coef, Arith.lit]; push_cast; try simp only [zpow_one]
    linarith

theorem ladder_strictMono : StrictMono ladder := strictMono_int_of_lt_succ ladder_lt_succ

theorem ladder_grow (n : ℤ) (m : ℕ) : ladder n * (3 / 2) ^ m ≤ ladder (n + m) := by
  induction m with
  | zero => simp
  | succ m ih =>
    have hstep : ladder (n + m) * (3 / 2) ≤ ladder (n + m + 1) := by
      obtain ⟨k, o, ho, hk⟩ := ladder_parts' (n + m)
      rw [hk]
      have hp : (0 : ℚ) < 10 ^ k := by positivity
      rw [ladder_parts k o ho]
      interval_cases o
      · have := ladder_parts k 1 (by omega)
        rw [show 3 * k + ((0 : ℕ) : ℤ) + 1 = 3 * k + (1 : ℕ) by push_cast; ring, this]
        simp only [coef, Arith.lit]; push_cast; linarith
      · have := ladder_parts k 2 (by omega)
        rw [show 3 * k + ((1 : ℕ) : ℤ) + 1 = 3 * k + (2 : ℕ) by push_cast; ring, this]
        simp only [coef, Arith.lit]; push_cast; linarith
      · have := ladder_parts (k + 1) 0 (by omega)
        rw [show 3 * k + ((2 : ℕ) : ℤ) + 1 = 3 * (k + 1) + (0 : ℕ) by push_cast; ring, this,
          zpow_add₀ (by norm_num)]
        simp only [coef, Arith.lit]; push_cast; try simp only [zpow_one]
        linarith
    rw [pow_succ, ← mul_assoc]
    have : n + ((m + 1 : ℕ) : ℤ) = n + m + 1 := by push_cast; ring
    rw [this]
    have := mul_le_mul_of_nonneg_right ih (by norm_num : (0 : ℚ) ≤ 3 / 2)
    linarith

/-! ### geometric bucketer, exact -/

theorem geoUp_q (n : ℕ) : ∀ (x base : ℚ) (fuel : ℕ), 0 < x → x < 10 ^ (n + 1) → n < fuel →
    ∃ (k : ℕ) (y : ℚ), geoUp fuel x base = some (y, base * 10 ^ k) ∧ y * 10 ^ k = x ∧ 0 < y ∧ y < 10 := by
  induction n with
  | zero =>
    intro x base fuel h0 h1 hf
    obtain ⟨f, rfl⟩ : ∃ f, fuel = f + 1 := ⟨fuel - 1, by omega⟩
    refine ⟨0, x, ?_, by simp, h0, by simpa using h1⟩
    have : ¬ (10 : ℚ) ≤ x := by simpa using h1
    simp [geoUp, Arith.le, Arith.lit, this]
  | succ n ih =>
    intro x base fuel h0 h1 hf
    obtain ⟨f, rfl⟩ : ∃ f, fuel = f + 1 := ⟨fuel - 1, by omega⟩
    by_cases hc : (10 : ℚ) ≤ x
    · obtain ⟨k, y, e1, e2, e3, e4⟩ := ih (x / 10) (base * 10) f (by positivity)
        (by rw [div_lt_iff₀ (by norm_num), ← pow_succ]; exact h1) (by omega)
      refine ⟨k + 1, y, ?_, ?_, e3, e4⟩
      · simp only [geoUp, Arith.le, Arith.lit, Arith.div, Arith.mul]
        push_cast
        rw [if_pos (by simpa using hc), e1]
        simp only [Option.some.injEq, Prod.mk.injEq, true_and, pow_succ]; ring
      · rw [pow_succ, ← mul_assoc, e2]; field_simp
    · refine ⟨0, x, ?_, by simp, h0, by push Not at hc; exact hc⟩
      simp [geoUp, Arith.le, Arith.lit, hc]

theorem geoDown_q (n : ℕ) : ∀ (x base : ℚ) (fuel : ℕ), 0 < x → x < 10 → 1 ≤ x * 10 ^ n → n < fuel →
    ∃ (k : ℕ) (y : ℚ), geoDown fuel x base = some (y, base / 10 ^ k) ∧ y = x * 10 ^ k ∧ 1 ≤ y ∧ y < 10 := by
  induction n with
  | zero =>
    intro x base fuel h0 h10 h1 hf
    obtain ⟨f, rfl⟩ : ∃ f, fuel = f + 1 := ⟨fuel - 1, by omega⟩
    have h1 : 1 ≤ x := by simpa using h1
    refine ⟨0, x, ?_, by simp, h1, h10⟩
    have : ¬ x < 1 := not_lt.2 h1
    simp [geoDown, Arith.lt, Arith.lit, this]
  | succ n ih =>
    intro x base fuel h0 h10 h1 hf
    obtain ⟨f, rfl⟩ : ∃ f, fuel = f + 1 := ⟨fuel - 1, by omega⟩
    by_cases hc : x < 1
    · obtain ⟨k, y, e1, e2, e3, e4⟩ := ih (x * 10) (base / 10) f (by positivity) (by linarith)
        (by rw [mul_assoc, ← pow_succ']; exact h1) (by omega)
      refine ⟨k + 1, y, ?_, ?_, e3, e4⟩
      · simp only [geoDown, Arith.lt, Arith.lit, Arith.div, Arith.mul]
        push_cast
        rw [if_pos (by simpa using hc), e1]
        simp only [Option.some.injEq, Prod.mk.injEq, true_and]; rw [div_div, pow_succ']
      · rw [e2, pow_succ']; ring
    · refine ⟨0, x, ?_, by simp, not_lt.1 hc, h10⟩
      simp [geoDown, Arith.lt, Arith.lit, hc]

theorem geoPick_q {x base : ℚ} (h1 : 1 ≤ x) (h10 : x < 10) (hb : 0 < base) :
    ∃ o : ℕ, o < 3 ∧ geoPick x base = (base, o) ∧ base * coef o ≤ x * base ∧
      x * base < (if o = 2 then base * 10 else base * coef (o + 1)) := by
  unfold geoPick
  simp only [coef, Arith.le, Arith.lit]
  push_cast
  by_cases h5 : (5 : ℚ) ≤ x
  · refine ⟨2, by omega, by simp [h5], ?_, ?_⟩
    · rw [mul_comm x]; exact mul_le_mul_of_nonneg_left h5 hb.le
    · rw [if_pos rfl, mul_comm x]; exact mul_lt_mul_of_pos_left h10 hb
  · push Not at h5
    by_cases h2 : (2 : ℚ) ≤ x
    · refine ⟨1, by omega, by simp [h2, not_le.2 h5], ?_, ?_⟩
      · rw [mul_comm x]; exact mul_le_mul_of_nonneg_left h2 hb.le
      · rw [if_neg (by omega), mul_comm x]; exact mul_lt_mul_of_pos_left h5 hb
    · push Not at h2
      refine ⟨0, by omega, by simp [h1, not_le.2 h2, not_le.2 h5], ?_, ?_⟩
      · rw [mul_comm x]; exact mul_le_mul_of_nonneg_left h1 hb.le
      · rw [if_neg (by omega), mul_comm x]; exact mul_lt_mul_of_pos_left h2 hb

theorem findGeo_q {x : ℚ} (h : 0 < x) : ∃ (fuel0 : ℕ) (k : ℤ) (o : ℕ), o < 3 ∧
    ladder (3 * k + o) ≤ x ∧ x < ladder (3 * k + o + 1) ∧
    ∀ fuel, fuel0 ≤ fuel → findGeo fuel x = some ((10 : ℚ) ^ k, o) := by
  obtain ⟨n, hn⟩ := pow_unbounded_of_one_lt x (by norm_num : (1 : ℚ) < 10)
  obtain ⟨m, hm⟩ := pow_unbounded_of_one_lt (10 / x) (by norm_num : (1 : ℚ) < 10)
  have hxn : x < 10 ^ (n + 1) := lt_of_lt_of_le hn (pow_le_pow_right₀ (by norm_num) (by omega))
  obtain ⟨k1, y, e1, e2, e3, e4⟩ := geoUp_q n x 1 (n + 1) h hxn (by omega)
  have hy : 1 ≤ y * 10 ^ (m + n) := by
    -- y ≥ 1 or y = x
    by_cases hk : k1 = 0
    · rw [hk] at e2; simp only [pow_zero, mul_one] at e2
      rw [e2]
      rw [div_lt_iff₀ h] at hm
      have : (10 : ℚ) ^ m ≤ 10 ^ (m + n) := pow_le_pow_right₀ (by norm_num) (by omega)
      nlinarith
    · have hx10 : 10 ^ k1 ≤ x ∨ True := Or.inr trivial
      rw [div_lt_iff₀ h] at hm
      have hk1 : k1 ≤ n := by
        by_contra hc
        have h2 : geoUp (n + 1) x 1 = some (y, 1 * 10 ^ k1) := e1
        -- the loop runs at most n times
        have : ∀ (f : ℕ) (x b : ℚ) (k : ℕ) (y : ℚ), b ≠ 0 → geoUp f x b = some (y, b * 10 ^ k) → k < f := by
          intro f
          induction f with
          | zero => intro x b k y _ hh; simp [geoUp] at hh
          | succ f ih =>
            intro x b k y hb hh
            simp only [geoUp] at hh
            split at hh
            · cases k with
              | zero => omega
              | succ k =>
                have := ih (Arith.div x (lit 10)) (Arith.mul b (lit 10)) k y
                  (by simp [Arith.mul, Arith.lit, hb])
                  (by rw [hh]; simp only [Option.some.injEq, Prod.mk.injEq, true_and, Arith.mul, Arith.lit]
                      push_cast; rw [pow_succ']; ring)
                omega
            · simp only [Option.some.injEq, Prod.mk.injEq] at hh
              have h10k : (10 : ℚ) ^ k = 1 := by
                have := hh.2
                have h3 : b * 10 ^ k = b * 1 := by rw [mul_one]; exact this.symm
                exact mul_left_cancel₀ hb h3
              cases k with
              | zero => omega
              | succ k =>
                have : (1 : ℚ) < 10 ^ (k + 1) := one_lt_pow₀ (by norm_num) (by omega)
                linarith
        have := this (n + 1) x 1 k1 y (by norm_num) h2
        omega
      have h3 : (10 : ℚ) ^ (m + n) = 10 ^ m * 10 ^ (n - k1) * 10 ^ k1 := by
        rw [← pow_add, ← pow_add]; congr 1; omega
      have h4 : (1 : ℚ) ≤ 10 ^ (n - k1) := one_le_pow₀ (by norm_num)
      have h5 : y * 10 ^ (m + n) = 10 ^ m * x * 10 ^ (n - k1) := by rw [h3, ← e2]; ring
      rw [h5]
      nlinarith
  obtain ⟨k2, z, g1, g2, g3, g4⟩ := geoDown_q (m + n) y (1 * 10 ^ k1) (m + n + 1) e3 e4 hy (by omega)
  have hb : (1 * 10 ^ k1 / 10 ^ k2 : ℚ) = 10 ^ ((k1 : ℤ) - k2) := by
    rw [zpow_sub₀ (by norm_num)]; simp
  have hzx : z * (10 : ℚ) ^ ((k1 : ℤ) - k2) = x := by
    rw [← hb, g2, ← e2]; field_simp
  obtain ⟨o, ho, p1, p2, p3⟩ := geoPick_q (base := (10 : ℚ) ^ ((k1 : ℤ) - k2)) g3 g4 (by positivity)
  refine ⟨m + n + 1, (k1 : ℤ) - k2, o, ho, ?_, ?_, ?_⟩
  · rw [ladder_parts _ _ ho, ← hzx]; exact p2
  · rw [hzx] at p3
    split at p3
    · next h2 =>
      subst h2
      rw [show 3 * ((k1 : ℤ) - k2) + ((2 : ℕ) : ℤ) + 1 = 3 * (((k1 : ℤ) - k2) + 1) + (0 : ℕ) by push_cast; ring,
        ladder_parts _ _ (by omega), zpow_add₀ (by norm_num)]
      simpa [coef, Arith.lit] using p3
    · next h2 =>
      rw [show 3 * ((k1 : ℤ) - k2) + (o : ℤ) + 1 = 3 * ((k1 : ℤ) - k2) + ((o + 1 : ℕ) : ℤ) by push_cast; ring,
        ladder_parts _ _ (by omega)]
      exact p3
  · intro fuel hf
    obtain ⟨k1', y', e1', e2', e3', e4'⟩ := geoUp_q n x 1 fuel h hxn (by omega)
    unfold findGeo
    have hl1 : (lit 1 : ℚ) = 1 := by simp [Arith.lit]
    rw [hl1, geoUp_mono e1 (by omega)]
    simp only
    rw [geoDown_mono g1 (by omega)]
    simp only [hb, p1]

theorem geoEmit_q (u : ℚ) (m : ℕ) : ∀ (k : ℤ) (o : ℕ) (fuel : ℕ), o < 3 →
    u ≤ ladder (3 * k + o + m) → (∀ j : ℕ, j < m → ladder (3 * k + o + j) < u) → m < fuel →
    geoEmit u fuel ((10 : ℚ) ^ k) o = some (rungs (3 * k + o) (m + 1)) := by
  induction m with
  | zero =>
    intro k o fuel ho hu _ hf
    obtain ⟨f, rfl⟩ : ∃ f, fuel = f + 1 := ⟨fuel - 1, by omega⟩
    have hl := ladder_parts k o ho
    have : ¬ (10 : ℚ) ^ k * coef o < u := by rw [← hl, not_lt]; simpa using hu
    simp [geoEmit, Arith.mul, Arith.lt, this, rungs, hl]
  | succ m ih =>
    intro k o fuel ho hu hlt hf
    obtain ⟨f, rfl⟩ : ∃ f, fuel = f + 1 := ⟨fuel - 1, by omega⟩
    have hl := ladder_parts k o ho
    have h0 : (10 : ℚ) ^ k * coef o < u := by rw [← hl]; simpa using hlt 0 (by omega)
    have hrec : ∀ (k' : ℤ) (o' : ℕ), o' < 3 → (3 * k' + o' : ℤ) = 3 * k + o + 1 →
        geoEmit u f ((10 : ℚ) ^ k') o' = some (rungs (3 * k + o + 1) (m + 1)) := by
      intro k' o' ho' e
      rw [← e]
      refine ih k' o' f ho' ?_ ?_ (by omega)
      · rw [e]; convert hu using 2; push_cast; ring
      · intro j hj
        rw [e]
        have := hlt (j + 1) (by omega)
        convert this using 2; push_cast; ring
    have hr : rungs (3 * k + o) (m + 1 + 1) = ladder (3 * k + o) :: rungs (3 * k + o + 1) (m + 1) := by
      unfold rungs
      rw [List.range_succ_eq_map]
      simp only [List.map_cons, List.map_map]
      congr 1
      · simp
      · apply List.map_congr_left
        intro i _
        simp only [Function.comp]
        congr 1; push_cast; ring
    rw [hr, hl]
    simp only [geoEmit, Arith.mul, Arith.lt]
    rw [if_pos (by simpa using h0)]
    by_cases h3 : o + 1 = 3
    · rw [if_pos h3]
      have := hrec (k + 1) 0 (by omega) (by omega)
      rw [zpow_add₀ (by norm_num)] at this
      simp only [zpow_one] at this
      simp only [Arith.lit]
      push_cast
      rw [this]
    · rw [if_neg h3]
      have := hrec k (o + 1) (by omega) (by push_cast; ring)
      rw [this]

theorem geoStream_q {lower upper : ℚ} (h0 : 0 < lower) (h1 : lower ≤ upper) :
    ∃ (a : ℤ) (m : ℕ), ladder a ≤ lower ∧ lower < ladder (a + 1) ∧ upper ≤ ladder (a + m) ∧
      (m = 0 ∨ ladder (a + m - 1) < upper) ∧
      ∃ fuel0, ∀ fuel, fuel0 ≤ fuel → geoStream fuel lower upper = .ok (rungs a (m + 1)) := by
  obtain ⟨f0, k, o, ho, l1, l2, hfg⟩ := findGeo_q h0
  have hex : ∃ m : ℕ, upper ≤ ladder (3 * k + o + m) := by
    obtain ⟨m, hm⟩ := pow_unbounded_of_one_lt (upper / ladder (3 * k + o)) (by norm_num : (1 : ℚ) < 3 / 2)
    refine ⟨m, le_trans ?_ (ladder_grow _ m)⟩
    rw [div_lt_iff₀ (ladder_pos _)] at hm
    linarith
  classical
  let m := Nat.find hex
  have hm1 : upper ≤ ladder (3 * k + o + m) := Nat.find_spec hex
  have hm2 : ∀ j, j < m → ladder (3 * k + o + j) < upper := fun j hj => not_le.1 (Nat.find_min hex hj)
  refine ⟨3 * k + o, m, l1, l2, hm1, ?_, max f0 (m + 1), ?_⟩
  · by_cases h : m = 0
    · exact Or.inl h
    · right
      have := hm2 (m - 1) (by omega)
      convert this using 2
      omega
  · intro fuel hf
    have e := geoEmit_q upper m k o fuel ho hm1 hm2 (by omega)
    unfold geoStream
    have c1 : ¬ lower ≤ 0 := not_le.2 h0
    have c2 : ¬ upper < lower := not_lt.2 h1
    have hg : (Arith.le lower (lit 0) || Arith.lt upper lower) = false := by
      simp [Arith.le, Arith.lt, Arith.lit, c1, c2]
    rw [hg, hfg fuel (by omega)]
    simp only [Bool.false_eq_true, if_false, e]

end Tricorder
