import Verif.Go.Float
import Mathlib.Tactic.Linarith
import Mathlib.Tactic.Positivity
import Mathlib.Tactic.FieldSimp
import Mathlib.Tactic.Ring
import Mathlib.Algebra.Order.Field.Power
import Mathlib.Order.WithBot
/-! Lemmas about rounding. -/

namespace Go

theorem p2_eq (e : ℤ) : p2 e = (2 : ℚ) ^ e := by
  cases e with
  | ofNat n => simp [p2]
  | negSucc n => simp [p2, zpow_negSucc]

theorem p2_pos (e : ℤ) : 0 < p2 e := by rw [p2_eq]; positivity

theorem p2_add (a b : ℤ) : p2 (a + b) = p2 a * p2 b := by
  simp only [p2_eq]; exact zpow_add₀ (by norm_num) a b

theorem p2_le {a b : ℤ} (h : a ≤ b) : p2 a ≤ p2 b := by
  simp only [p2_eq]; exact zpow_le_zpow_right₀ (by norm_num) h

theorem p2_lt {a b : ℤ} (h : a < b) : p2 a < p2 b := by
  simp only [p2_eq]; exact zpow_lt_zpow_right₀ (by norm_num) h

theorem p2_lt_iff {a b : ℤ} : p2 a < p2 b ↔ a < b := by
  constructor
  · intro h; by_contra hc; exact absurd (p2_le (not_lt.1 hc)) (not_le.2 h)
  · exact p2_lt

theorem p2_nat (n : ℕ) : p2 (n : ℤ) = ((2 ^ n : ℕ) : ℚ) := rfl

theorem ilog2_spec {q : ℚ} (h : 0 < q) : p2 (ilog2 q) ≤ q ∧ q < p2 (ilog2 q + 1) := by
  have hn : 0 < q.num := Rat.num_pos.2 h
  have hd : 0 < q.den := q.den_pos
  have hn0 : q.num.natAbs ≠ 0 := by omega
  have a1 : 2 ^ Nat.log2 q.num.natAbs ≤ q.num.natAbs := Nat.log2_self_le hn0
  have a2 : q.num.natAbs < 2 ^ (Nat.log2 q.num.natAbs + 1) := Nat.lt_log2_self
  have b1 : 2 ^ Nat.log2 q.den ≤ q.den := Nat.log2_self_le (by omega)
  have b2 : q.den < 2 ^ (Nat.log2 q.den + 1) := Nat.lt_log2_self
  generalize ha : Nat.log2 q.num.natAbs = a at *
  generalize hb : Nat.log2 q.den = b at *
  have hq : q = (q.num.natAbs : ℚ) / (q.den : ℚ) := by
    have : (q.num.natAbs : ℚ) = (q.num : ℚ) := by
      have : ((q.num.natAbs : ℤ) : ℚ) = (q.num : ℚ) := by
        rw [Int.natAbs_of_nonneg hn.le]
      exact (Int.cast_natCast _).symm.trans this
    rw [this]; exact (Rat.num_div_den q).symm
  have A1 : p2 a ≤ (q.num.natAbs : ℚ) := by rw [p2_nat]; exact_mod_cast a1
  have A2 : (q.num.natAbs : ℚ) < p2 (a + 1) := by
    have : p2 ((a + 1 : ℕ) : ℤ) = ((2 ^ (a + 1) : ℕ) : ℚ) := rfl
    push_cast at this
    rw [this]; exact_mod_cast a2
  have B1 : p2 b ≤ (q.den : ℚ) := by rw [p2_nat]; exact_mod_cast b1
  have B2 : (q.den : ℚ) < p2 (b + 1) := by
    have : p2 ((b + 1 : ℕ) : ℤ) = ((2 ^ (b + 1) : ℕ) : ℚ) := rfl
    push_cast at this
    rw [this]; exact_mod_cast b2
  have dpos : (0 : ℚ) < (q.den : ℚ) := by exact_mod_cast hd
  have up : q < p2 ((a : ℤ) - b + 1) := by
    have e : p2 ((a : ℤ) - b + 1) * p2 b = p2 (a + 1) := by rw [← p2_add]; congr 1; ring
    have : (q.num.natAbs : ℚ) < p2 ((a : ℤ) - b + 1) * (q.den : ℚ) := by
      calc (q.num.natAbs : ℚ) < p2 (a + 1) := A2
        _ = p2 ((a : ℤ) - b + 1) * p2 b := e.symm
        _ ≤ _ := mul_le_mul_of_nonneg_left B1 (p2_pos _).le
    rw [hq]; rwa [div_lt_iff₀ dpos]
  have lo : p2 ((a : ℤ) - b - 1) ≤ q := by
    have e : p2 ((a : ℤ) - b - 1) * p2 (b + 1) = p2 a := by rw [← p2_add]; congr 1; ring
    have : p2 ((a : ℤ) - b - 1) * (q.den : ℚ) ≤ (q.num.natAbs : ℚ) := by
      calc p2 ((a : ℤ) - b - 1) * (q.den : ℚ) ≤ p2 ((a : ℤ) - b - 1) * p2 (b + 1) :=
            mul_le_mul_of_nonneg_left B2.le (p2_pos _).le
        _ = p2 a := e
        _ ≤ _ := A1
    rw [hq]; rwa [le_div_iff₀ dpos]
  unfold ilog2
  simp only [ha, hb]
  split
  · rename_i h1; exact ⟨h1, up⟩
  · rename_i h1
    refine ⟨lo, ?_⟩
    have e : ((a : ℤ) - b - 1 + 1) = (a : ℤ) - b := by ring
    rw [e]; exact not_le.1 h1

theorem ilog2_lt_iff {q : ℚ} (h : 0 < q) (e : ℤ) : ilog2 q < e ↔ q < p2 e := by
  obtain ⟨h1, h2⟩ := ilog2_spec h
  constructor
  · intro hl; exact lt_of_lt_of_le h2 (p2_le (by omega))
  · intro hl; exact p2_lt_iff.1 (lt_of_le_of_lt h1 hl)

theorem le_ilog2_iff {q : ℚ} (h : 0 < q) (e : ℤ) : e ≤ ilog2 q ↔ p2 e ≤ q := by
  rw [← not_lt, ilog2_lt_iff h, not_lt]

theorem ilog2_mono {a b : ℚ} (ha : 0 < a) (h : a ≤ b) : ilog2 a ≤ ilog2 b := by
  rw [le_ilog2_iff (lt_of_lt_of_le ha h)]
  exact le_trans (ilog2_spec ha).1 h

/-! ### rounding to integers -/

theorem rne_bounds (x : ℚ) : |(rne x : ℚ) - x| ≤ 1/2 := by
  have h1 : (⌊x⌋ : ℚ) ≤ x := Int.floor_le x
  have h2 : x < ⌊x⌋ + 1 := Int.lt_floor_add_one x
  unfold rne
  simp only
  split
  · rw [abs_le]; constructor <;> linarith
  · split
    · push_cast; rw [abs_le]; constructor <;> linarith
    · split
      · rw [abs_le]; constructor <;> linarith
      · push_cast; rw [abs_le]; constructor <;> linarith

theorem rne_int (n : ℤ) : rne (n : ℚ) = n := by
  unfold rne; simp

theorem rne_floor_or (x : ℚ) : rne x = ⌊x⌋ ∨ rne x = ⌊x⌋ + 1 := by
  unfold rne
  simp only
  split
  · left; rfl
  · split
    · right; rfl
    · split
      · left; rfl
      · right; rfl

theorem rne_mono {x y : ℚ} (h : x ≤ y) : rne x ≤ rne y := by
  have hf : ⌊x⌋ ≤ ⌊y⌋ := Int.floor_le_floor h
  rcases lt_or_eq_of_le hf with hlt | heq
  · rcases rne_floor_or x with h1 | h1 <;> rcases rne_floor_or y with h2 | h2 <;> omega
  · have hr : x - ⌊x⌋ ≤ y - ⌊x⌋ := by linarith
    unfold rne
    rw [← heq]
    simp only
    by_cases c1 : x - ⌊x⌋ < 1/2
    · rw [if_pos c1]; split
      · exact le_refl _
      · split
        · omega
        · split <;> omega
    · rw [if_neg c1]
      by_cases c2 : 1/2 < x - ⌊x⌋
      · rw [if_pos c2, if_neg (by linarith), if_pos (by linarith)]
      · rw [if_neg c2, if_neg (by linarith : ¬ y - ⌊x⌋ < 1/2)]
        by_cases c3 : 1/2 < y - ⌊x⌋
        · rw [if_pos c3]; split <;> omega
        · rw [if_neg c3]

theorem rne_le_of_le_int {x : ℚ} {n : ℤ} (h : x ≤ n) : rne x ≤ n := by
  have := rne_mono h; rwa [rne_int] at this

theorem le_rne_of_int_le {x : ℚ} {n : ℤ} (h : (n : ℚ) ≤ x) : n ≤ rne x := by
  have := rne_mono h; rwa [rne_int] at this

theorem rne_nonneg {x : ℚ} (h : 0 ≤ x) : 0 ≤ rne x := le_rne_of_int_le (by simpa using h)

/-! ### rounding of magnitudes -/

namespace Fmt

theorem ulpExp_ge_emin (fmt : Fmt) (a : ℚ) : fmt.emin ≤ fmt.ulpExp a := le_max_right _ _

theorem ulpExp_mono (fmt : Fmt) {a b : ℚ} (ha : 0 < a) (h : a ≤ b) :
    fmt.ulpExp a ≤ fmt.ulpExp b := by
  unfold ulpExp
  have := ilog2_mono ha h
  omega

/-- the error is at most half a unit in the last place -/
theorem rndAbs_error (fmt : Fmt) (a : ℚ) : |fmt.rndAbs a - a| ≤ p2 (fmt.ulpExp a) / 2 := by
  unfold rndAbs
  have hp := p2_pos (fmt.ulpExp a)
  have h := rne_bounds (a / p2 (fmt.ulpExp a))
  have e : (rne (a / p2 (fmt.ulpExp a)) : ℚ) * p2 (fmt.ulpExp a) - a =
      ((rne (a / p2 (fmt.ulpExp a)) : ℚ) - a / p2 (fmt.ulpExp a)) * p2 (fmt.ulpExp a) := by
    field_simp
  rw [e, abs_mul, abs_of_pos hp]
  nlinarith

theorem rndAbs_nonneg (fmt : Fmt) {a : ℚ} (h : 0 ≤ a) : 0 ≤ fmt.rndAbs a := by
  unfold rndAbs
  have hp := p2_pos (fmt.ulpExp a)
  have : 0 ≤ rne (a / p2 (fmt.ulpExp a)) := rne_nonneg (div_nonneg h hp.le)
  have h2 : (0 : ℚ) ≤ (rne (a / p2 (fmt.ulpExp a)) : ℚ) := by exact_mod_cast this
  exact mul_nonneg h2 hp.le

/-- multiples of the unit in the last place of `a` bound the rounding from above -/
theorem rndAbs_le_of_le_mul (fmt : Fmt) (a : ℚ) (m : ℤ) (h : a ≤ m * p2 (fmt.ulpExp a)) :
    fmt.rndAbs a ≤ m * p2 (fmt.ulpExp a) := by
  unfold rndAbs
  have hp := p2_pos (fmt.ulpExp a)
  have h1 : a / p2 (fmt.ulpExp a) ≤ m := by rwa [div_le_iff₀ hp]
  have h2 : rne (a / p2 (fmt.ulpExp a)) ≤ m := rne_le_of_le_int h1
  have h3 : (rne (a / p2 (fmt.ulpExp a)) : ℚ) ≤ m := by exact_mod_cast h2
  exact mul_le_mul_of_nonneg_right h3 hp.le

theorem le_rndAbs_of_mul_le (fmt : Fmt) (a : ℚ) (m : ℤ) (h : m * p2 (fmt.ulpExp a) ≤ a) :
    m * p2 (fmt.ulpExp a) ≤ fmt.rndAbs a := by
  unfold rndAbs
  have hp := p2_pos (fmt.ulpExp a)
  have h1 : (m : ℚ) ≤ a / p2 (fmt.ulpExp a) := by rwa [le_div_iff₀ hp]
  have h2 : m ≤ rne (a / p2 (fmt.ulpExp a)) := le_rne_of_int_le h1
  have h3 : (m : ℚ) ≤ (rne (a / p2 (fmt.ulpExp a)) : ℚ) := by exact_mod_cast h2
  exact mul_le_mul_of_nonneg_right h3 hp.le

theorem p2_mul_int {e f : ℤ} (h : f ≤ e) : ∃ m : ℤ, 0 < m ∧ p2 e = m * p2 f := by
  refine ⟨2 ^ (e - f).toNat, by positivity, ?_⟩
  have : e = ((e - f).toNat : ℤ) + f := by omega
  conv => lhs; rw [this, p2_add, p2_nat]
  push_cast; rfl

/-- powers of two within range are rounding barriers -/
theorem rndAbs_le_p2 (fmt : Fmt) {a : ℚ} {e : ℤ} (ha : 0 < a) (h : a ≤ p2 e)
    (he : fmt.emin ≤ e) (hp : 1 ≤ fmt.prec) : fmt.rndAbs a ≤ p2 e := by
  have hu : fmt.ulpExp a ≤ e := by
    unfold ulpExp
    have : ilog2 a ≤ e := by
      have h1 := (ilog2_spec ha).1
      by_contra hc
      exact absurd (lt_of_le_of_lt h (p2_lt (not_le.1 hc))) (not_lt.2 h1)
    omega
  obtain ⟨m, _, hm⟩ := p2_mul_int hu
  rw [hm]; exact rndAbs_le_of_le_mul fmt a m (by rw [← hm]; exact h)

theorem p2_le_rndAbs (fmt : Fmt) {a : ℚ} {e : ℤ} (h : p2 e ≤ a)
    (he : fmt.ulpExp a ≤ e) : p2 e ≤ fmt.rndAbs a := by
  obtain ⟨m, _, hm⟩ := p2_mul_int he
  rw [hm]; exact le_rndAbs_of_mul_le fmt a m (by rw [← hm]; exact h)

/-- rounding is monotone -/
theorem rndAbs_mono (fmt : Fmt) (hprec : 1 ≤ fmt.prec) {a b : ℚ} (ha : 0 < a) (h : a ≤ b) :
    fmt.rndAbs a ≤ fmt.rndAbs b := by
  have hb : 0 < b := lt_of_lt_of_le ha h
  rcases lt_or_eq_of_le (ulpExp_mono fmt ha h) with hlt | heq
  · have hbe : fmt.ulpExp b = ilog2 b - (fmt.prec - 1) := by
      have := ulpExp_ge_emin fmt a
      unfold ulpExp at *; omega
    have hib : ilog2 a < ilog2 b := by
      unfold ulpExp at hlt hbe; omega
    have h1 : a < p2 (ilog2 b) := (ilog2_lt_iff ha _).1 hib
    have h2 : fmt.rndAbs a ≤ p2 (ilog2 b) := by
      apply rndAbs_le_p2 fmt ha h1.le _ hprec
      have := ulpExp_ge_emin fmt b; omega
    have h3 : p2 (ilog2 b) ≤ fmt.rndAbs b := p2_le_rndAbs fmt (ilog2_spec hb).1 (by omega)
    exact le_trans h2 h3
  · unfold rndAbs
    rw [← heq]
    have hp := p2_pos (fmt.ulpExp a)
    have h1 : a / p2 (fmt.ulpExp a) ≤ b / p2 (fmt.ulpExp a) := div_le_div_of_nonneg_right h hp.le
    have h2 := rne_mono h1
    have h3 : (rne (a / p2 (fmt.ulpExp a)) : ℚ) ≤ (rne (b / p2 (fmt.ulpExp a)) : ℚ) := by
      exact_mod_cast h2
    exact mul_le_mul_of_nonneg_right h3 hp.le

/-- numbers with at most `prec` significant bits above the least subnormal are exact -/
theorem rndAbs_exact (fmt : Fmt) (hprec : 1 ≤ fmt.prec) {a : ℚ} (ha : 0 < a) (m : ℤ) (e : ℤ) (he : fmt.emin ≤ e)
    (hm : m ≤ 2 ^ fmt.prec) (h : a = m * p2 e) : fmt.rndAbs a = a := by
  have hp := p2_pos e
  have hmpos : 0 < m := by
    have : (0 : ℚ) < m := by
      by_contra hc
      have : a ≤ 0 := by rw [h]; exact mul_nonpos_of_nonpos_of_nonneg (not_lt.1 hc) hp.le
      linarith
    exact_mod_cast this
  -- either m < 2^prec, or m = 2^prec and a is a power of two
  have hle : fmt.ulpExp a ≤ e ∨ a = p2 (fmt.prec + e) := by
    rcases lt_or_eq_of_le hm with hlt | heq
    · left
      have : a < p2 (fmt.prec + e) := by
        rw [h, p2_add, p2_nat]
        apply mul_lt_mul_of_pos_right _ hp
        exact_mod_cast hlt
      have := (ilog2_lt_iff ha _).2 this
      unfold ulpExp; omega
    · right
      rw [h, p2_add, p2_nat, heq]; push_cast; rfl
  obtain ⟨k, hk⟩ : ∃ k : ℤ, a = k * p2 (fmt.ulpExp a) := by
    rcases hle with hle | hpow
    · obtain ⟨k, _, hk⟩ := p2_mul_int hle
      refine ⟨m * k, ?_⟩
      conv => lhs; rw [h, hk]
      push_cast; ring
    · have : fmt.ulpExp a ≤ fmt.prec + e := by
        have h2 : a < p2 (fmt.prec + e + 1) := by rw [hpow]; exact p2_lt (by omega)
        have := (ilog2_lt_iff ha _).2 h2
        unfold ulpExp; omega
      obtain ⟨k, _, hk⟩ := p2_mul_int this
      exact ⟨k, by conv => lhs; rw [hpow, hk]⟩
  apply le_antisymm
  · have := rndAbs_le_of_le_mul fmt a k (le_of_eq hk)
    rwa [← hk] at this
  · have := le_rndAbs_of_mul_le fmt a k (le_of_eq hk.symm)
    rwa [← hk] at this

end Fmt

/-! ### order on floating point numbers -/

/-- position on the extended line; NaN is given a junk position -/
def Fl.key : Fl → WithBot (WithTop ℚ)
  | .nan => ((0 : ℚ) : WithTop ℚ)
  | .inf true => ⊥
  | .inf false => ((⊤ : WithTop ℚ) : WithBot (WithTop ℚ))
  | .negZero => ((0 : ℚ) : WithTop ℚ)
  | .fin q => ((q : ℚ) : WithTop ℚ)

theorem Fl.lt_iff {x y : Fl} (hx : x ≠ .nan) (hy : y ≠ .nan) :
    Fl.lt x y = true ↔ x.key < y.key := by
  rcases x with _ | (_ | _) | _ | a <;> rcases y with _ | (_ | _) | _ | b <;>
    first
      | exact absurd rfl hx
      | exact absurd rfl hy
      | (simp [Fl.lt, Fl.key]; done)
      | (simp only [Fl.lt, Fl.key, Bool.not_false, true_iff]
         exact WithBot.coe_lt_coe.2 (WithTop.coe_lt_top _))

theorem Fl.eq_iff {x y : Fl} (hx : x ≠ .nan) (hy : y ≠ .nan) :
    Fl.eq x y = true ↔ x.key = y.key := by
  rcases x with _ | (_ | _) | _ | a <;> rcases y with _ | (_ | _) | _ | b <;>
    first
      | exact absurd rfl hx
      | exact absurd rfl hy
      | (simp [Fl.eq, Fl.key]; done)
      | (simp [Fl.eq, Fl.key]; exact eq_comm)
      | (simp only [Fl.eq, Fl.key, Bool.false_eq_true, false_iff]
         exact fun h => WithTop.top_ne_coe (WithBot.coe_injective h))
      | (simp only [Fl.eq, Fl.key, Bool.false_eq_true, false_iff]
         exact fun h => WithTop.coe_ne_top (WithBot.coe_injective h))

theorem Fl.le_iff {x y : Fl} (hx : x ≠ .nan) (hy : y ≠ .nan) :
    Fl.le x y = true ↔ x.key ≤ y.key := by
  unfold Fl.le
  rw [Bool.or_eq_true, Fl.lt_iff hx hy, Fl.eq_iff hx hy, le_iff_lt_or_eq]

theorem Fl.lt_nan_left (y : Fl) : Fl.lt .nan y = false := by cases y <;> rfl
theorem Fl.lt_nan_right (x : Fl) : Fl.lt x .nan = false := by cases x <;> rfl
theorem Fl.eq_nan_left (y : Fl) : Fl.eq .nan y = false := by cases y <;> rfl
theorem Fl.eq_nan_right (x : Fl) : Fl.eq x .nan = false := by cases x <;> rfl
theorem Fl.le_nan_left (y : Fl) : Fl.le .nan y = false := by cases y <;> rfl
theorem Fl.le_nan_right (x : Fl) : Fl.le x .nan = false := by cases x <;> rfl

theorem Fl.ne_nan_of_lt {x y : Fl} (h : Fl.lt x y = true) : x ≠ .nan ∧ y ≠ .nan := by
  constructor
  · rintro rfl; rw [Fl.lt_nan_left] at h; cases h
  · rintro rfl; rw [Fl.lt_nan_right] at h; cases h

theorem Fl.ne_nan_of_le {x y : Fl} (h : Fl.le x y = true) : x ≠ .nan ∧ y ≠ .nan := by
  constructor
  · rintro rfl; rw [Fl.le_nan_left] at h; cases h
  · rintro rfl; rw [Fl.le_nan_right] at h; cases h

theorem Fl.lt_trans {x y z : Fl} (h1 : Fl.lt x y = true) (h2 : Fl.lt y z = true) :
    Fl.lt x z = true := by
  obtain ⟨a, b⟩ := Fl.ne_nan_of_lt h1
  obtain ⟨_, c⟩ := Fl.ne_nan_of_lt h2
  rw [Fl.lt_iff a b] at h1; rw [Fl.lt_iff b c] at h2; rw [Fl.lt_iff a c]
  exact _root_.lt_trans h1 h2

theorem Fl.le_trans {x y z : Fl} (h1 : Fl.le x y = true) (h2 : Fl.le y z = true) :
    Fl.le x z = true := by
  obtain ⟨a, b⟩ := Fl.ne_nan_of_le h1
  obtain ⟨_, c⟩ := Fl.ne_nan_of_le h2
  rw [Fl.le_iff a b] at h1; rw [Fl.le_iff b c] at h2; rw [Fl.le_iff a c]
  exact _root_.le_trans h1 h2

theorem Fl.lt_of_lt_of_le {x y z : Fl} (h1 : Fl.lt x y = true) (h2 : Fl.le y z = true) :
    Fl.lt x z = true := by
  obtain ⟨a, b⟩ := Fl.ne_nan_of_lt h1
  obtain ⟨_, c⟩ := Fl.ne_nan_of_le h2
  rw [Fl.lt_iff a b] at h1; rw [Fl.le_iff b c] at h2; rw [Fl.lt_iff a c]
  exact _root_.lt_of_lt_of_le h1 h2

theorem Fl.lt_of_le_of_lt {x y z : Fl} (h1 : Fl.le x y = true) (h2 : Fl.lt y z = true) :
    Fl.lt x z = true := by
  obtain ⟨a, b⟩ := Fl.ne_nan_of_le h1
  obtain ⟨_, c⟩ := Fl.ne_nan_of_lt h2
  rw [Fl.le_iff a b] at h1; rw [Fl.lt_iff b c] at h2; rw [Fl.lt_iff a c]
  exact _root_.lt_of_le_of_lt h1 h2

theorem Fl.not_lt {x y : Fl} (hx : x ≠ .nan) (hy : y ≠ .nan) :
    Fl.lt x y = false ↔ Fl.le y x = true := by
  rw [Fl.le_iff hy hx, ← _root_.not_lt, ← Fl.lt_iff hx hy, Bool.not_eq_true]

theorem Fl.le_refl {x : Fl} (hx : x ≠ .nan) : Fl.le x x = true :=
  (Fl.le_iff hx hx).2 (_root_.le_refl _)

theorem Fl.le_total {x y : Fl} (hx : x ≠ .nan) (hy : y ≠ .nan) :
    Fl.le x y = true ∨ Fl.le y x = true := by
  rw [Fl.le_iff hx hy, Fl.le_iff hy hx]; exact _root_.le_total _ _

/-! ### rounding into a format -/

theorem rnd_ne_nan (fmt : Fmt) (q : ℚ) : rnd fmt q ≠ .nan := by
  unfold rnd
  split
  · simp
  · simp only
    split
    · simp
    · split
      · split <;> simp
      · simp

theorem rnd_exact (fmt : Fmt) (hprec : 1 ≤ fmt.prec) (q : ℚ) (m : ℤ) (e : ℤ) (he : fmt.emin ≤ e)
    (hm : |m| ≤ 2 ^ fmt.prec) (h : q = m * p2 e) (hmax : |q| < p2 fmt.emax) :
    rnd fmt q = .fin q := by
  unfold rnd
  by_cases h0 : q = 0
  · rw [if_pos h0, h0]
  · rw [if_neg h0]
    have hpos : 0 < |q| := abs_pos.2 h0
    have hx : fmt.rndAbs |q| = |q| := by
      apply Fmt.rndAbs_exact fmt hprec hpos |m| e he hm
      rw [h, abs_mul, abs_of_pos (p2_pos e)]; push_cast; rfl
    simp only [hx]
    rw [if_neg (_root_.not_le.2 hmax), if_neg hpos.ne']
    by_cases hn : q < 0
    · rw [if_pos hn, abs_of_neg hn, neg_neg]
    · rw [if_neg hn, abs_of_nonneg (_root_.not_lt.1 hn)]

theorem rnd_neg_key (fmt : Fmt) (q : ℚ) (h : q < 0) : (rnd fmt q).key ≤ (Fl.fin 0).key := by
  unfold rnd
  rw [if_neg h.ne]
  simp only [h, decide_true, if_true]
  split
  · simp [Fl.key]
  · split
    · simp [Fl.key]
    · have := Fmt.rndAbs_nonneg fmt (abs_nonneg q)
      simp only [Fl.key]
      rw [WithBot.coe_le_coe, WithTop.coe_le_coe]; linarith

theorem rnd_nonneg_key (fmt : Fmt) (q : ℚ) (h : 0 ≤ q) : (Fl.fin 0).key ≤ (rnd fmt q).key := by
  unfold rnd
  split
  · exact _root_.le_refl _
  · have hn : ¬ q < 0 := by linarith
    simp only [hn, decide_false, if_false]
    split
    · simp [Fl.key]
    · split
      · exact _root_.le_refl _
      · have := Fmt.rndAbs_nonneg fmt (abs_nonneg q)
        simp only [Fl.key]
        rw [WithBot.coe_le_coe, WithTop.coe_le_coe]; linarith

/-- rounding is monotone on the whole line -/
theorem rnd_mono (fmt : Fmt) (hprec : 1 ≤ fmt.prec) {q r : ℚ} (h : q ≤ r) :
    (rnd fmt q).key ≤ (rnd fmt r).key := by
  by_cases hq : q < 0
  · by_cases hr : r < 0
    · -- both negative
      have hab : |r| ≤ |q| := by rw [abs_of_neg hq, abs_of_neg hr]; linarith
      have hm := Fmt.rndAbs_mono fmt hprec (abs_pos.2 hr.ne) hab
      have hv := Fmt.rndAbs_nonneg fmt (abs_nonneg r)
      unfold rnd
      rw [if_neg hq.ne, if_neg hr.ne]
      simp only [hq, hr, decide_true, if_true]
      by_cases c1 : p2 fmt.emax ≤ fmt.rndAbs |q|
      · rw [if_pos c1]; simp [Fl.key]
      · rw [if_neg c1, if_neg (fun hc => c1 (_root_.le_trans hc hm))]
        by_cases c2 : fmt.rndAbs |q| = 0
        · have c3 : fmt.rndAbs |r| = 0 := by linarith
          rw [if_pos c2, if_pos c3]
        · rw [if_neg c2]
          by_cases c3 : fmt.rndAbs |r| = 0
          · rw [if_pos c3]
            simp only [Fl.key]
            rw [WithBot.coe_le_coe, WithTop.coe_le_coe]; linarith
          · rw [if_neg c3]
            simp only [Fl.key]
            rw [WithBot.coe_le_coe, WithTop.coe_le_coe]; linarith
    · exact _root_.le_trans (rnd_neg_key fmt q hq) (rnd_nonneg_key fmt r (_root_.not_lt.1 hr))
  · have hr : ¬ r < 0 := by linarith
    by_cases hq0 : q = 0
    · rw [hq0]
      have : rnd fmt 0 = .fin 0 := by simp [rnd]
      rw [this]; exact rnd_nonneg_key fmt r (_root_.not_lt.1 hr)
    · have hqp : 0 < q := lt_of_le_of_ne (_root_.not_lt.1 hq) (Ne.symm hq0)
      have hrp : 0 < r := _root_.lt_of_lt_of_le hqp h
      have hab : |q| ≤ |r| := by rw [abs_of_pos hqp, abs_of_pos hrp]; exact h
      have hm := Fmt.rndAbs_mono fmt hprec (abs_pos.2 hqp.ne') hab
      have hv := Fmt.rndAbs_nonneg fmt (abs_nonneg q)
      unfold rnd
      rw [if_neg hqp.ne', if_neg hrp.ne']
      simp only [hq, hr, decide_false, if_false]
      by_cases c1 : p2 fmt.emax ≤ fmt.rndAbs |r|
      · rw [if_pos c1]
        have : (Fl.inf false).key = ⊤ := rfl
        rw [this]; exact le_top
      · rw [if_neg c1, if_neg (fun hc => c1 (_root_.le_trans hc hm))]
        by_cases c2 : fmt.rndAbs |r| = 0
        · have c3 : fmt.rndAbs |q| = 0 := by linarith
          rw [if_pos c2, if_pos c3]
        · rw [if_neg c2]
          by_cases c3 : fmt.rndAbs |q| = 0
          · rw [if_pos c3]
            simp only [Fl.key]
            rw [WithBot.coe_le_coe, WithTop.coe_le_coe]; linarith
          · rw [if_neg c3]
            simp only [Fl.key]
            rw [WithBot.coe_le_coe, WithTop.coe_le_coe]; linarith

/-- integers up to 2^53 in magnitude are exact in binary64 -/
theorem rnd_int (x : ℤ) (h : |x| ≤ 2 ^ 53) : rnd b64 (x : ℚ) = .fin (x : ℚ) := by
  apply rnd_exact b64 (by decide) _ x 0 (by decide) h
  · simp [p2]
  · have h1 : |(x : ℚ)| ≤ p2 53 := by
      have : p2 53 = ((2 ^ 53 : ℤ) : ℚ) := by rw [p2_eq]; norm_num
      rw [this]; exact_mod_cast h
    exact _root_.lt_of_le_of_lt h1 (p2_lt (by decide))

end Go
