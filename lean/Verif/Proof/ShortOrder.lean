import Verif.Spec.ShortOrder
import Verif.Proof.Render
/-!
# Short forms keep the order: proofs
-/

namespace Tricorder
open Go Spec _root_.Spec

/-- the numeral that is shown for magnitude `a` -/
def dec (a : ℚ) : ℚ := (rne (a * 10 ^ decimals a) : ℚ) / 10 ^ decimals a

theorem absLoop_ge {R : ℚ} : ∀ (f k : ℕ) (a a' : ℚ) (k' : ℕ), absLoop R f a k = some (a', k') → k ≤ k' := by
  intro f
  induction f with
  | zero => intro k a a' k' h; cases h
  | succ f ih =>
    intro k a a' k' h
    simp only [absLoop] at h
    split at h
    · exact (Nat.le_succ k).trans (ih _ _ _ _ h)
    · cases h; exact le_refl _

theorem absLoop_mono {R : ℚ} (hR : 1 ≤ R) : ∀ (f k : ℕ) (a b a' b' : ℚ) (k' l' : ℕ), 1 ≤ a → a ≤ b →
    absLoop R f a k = some (a', k') → absLoop R f b k = some (b', l') → k' < l' ∨ (k' = l' ∧ a' ≤ b') := by
  intro f
  induction f with
  | zero => intro k a b a' b' k' l' _ _ h; cases h
  | succ f ih =>
    intro k a b a' b' k' l' h1 h2 ha hb
    simp only [absLoop] at ha hb
    have hRp : 0 < R := by linarith
    by_cases c : R ≤ a
    · rw [if_pos c] at ha
      rw [if_pos (c.trans h2)] at hb
      have hd : 1 ≤ a / R := by rw [le_div_iff₀ hRp]; linarith
      have hl := int_le_rndAbs (a := a / R) 1 (by norm_num) (by norm_num) (by simpa using hd)
      exact ih _ _ _ _ _ _ _ (by simpa using hl)
        (b64.rndAbs_mono (by decide) (by linarith) (div_le_div_of_nonneg_right h2 hRp.le)) ha hb
    · rw [if_neg c] at ha
      cases ha
      by_cases c' : R ≤ b
      · rw [if_pos c'] at hb
        exact .inl (absLoop_ge _ _ _ _ _ hb)
      · rw [if_neg c'] at hb
        cases hb
        exact .inr ⟨rfl, h2⟩

/-- a magnitude that the loop can end with -/
structure Scaled (R : ℕ) (a : ℚ) : Prop where
  one : 1 ≤ a
  lt : a < R
  rep : b64.rndAbs a = a

theorem Scaled.one_le {R : ℕ} {a : ℚ} (h : Scaled R a) : 1 ≤ dec a := by
  obtain ⟨d1, d2, -, -⟩ := decimals_spec h.one h.lt h.rep
  unfold dec
  have h2 : (100 : ℚ) ≤ rne (a * 10 ^ decimals a) := by exact_mod_cast d2
  have h3 : (10 : ℚ) ^ decimals a ≤ 10 ^ 2 := pow_le_pow_right₀ (by norm_num) d1
  rw [le_div_iff₀ (by positivity)]
  norm_num at h3
  linarith

theorem Scaled.le {R : ℕ} (hR : 1000 ≤ R) {a : ℚ} (h : Scaled R a) : dec a ≤ R := by
  obtain ⟨d1, -, d3, d4⟩ := decimals_spec h.one h.lt h.rep
  unfold dec
  have hRq : (1000 : ℚ) ≤ R := by exact_mod_cast hR
  rw [div_le_iff₀ (by positivity)]
  by_cases c : decimals a = 0
  · have := d4 c
    have h2 : (rne (a * 10 ^ decimals a) : ℚ) ≤ R := by exact_mod_cast this
    rw [c] at h2 ⊢
    linarith
  · have := d3 c
    have h2 : (rne (a * 10 ^ decimals a) : ℚ) ≤ 999 := by exact_mod_cast this
    have h3 : (1 : ℚ) ≤ 10 ^ decimals a := one_le_pow₀ (by norm_num)
    nlinarith

theorem decimals_anti {a b : ℚ} (h : a ≤ b) : decimals b ≤ decimals a := by
  unfold decimals
  split
  · rw [if_pos (by linarith)]
  · split
    · split
      · norm_num
      · rw [if_pos (by linarith)]
    · exact Nat.zero_le _

theorem Scaled.mono {R : ℕ} {a b : ℚ} (ha : Scaled R a) (hb : Scaled R b) (h : a ≤ b) : dec a ≤ dec b := by
  by_cases c : decimals b = decimals a
  · unfold dec
    rw [c]
    have : rne (a * 10 ^ decimals a) ≤ rne (b * 10 ^ decimals a) := rne_mono (mul_le_mul_of_nonneg_right h (by positivity))
    exact div_le_div_of_nonneg_right (by exact_mod_cast this) (by positivity)
  · have hlt : decimals b + 1 ≤ decimals a := by have := decimals_anti h; omega
    obtain ⟨-, -, d3, -⟩ := decimals_spec ha.one ha.lt ha.rep
    obtain ⟨-, e2, -, -⟩ := decimals_spec hb.one hb.lt hb.rep
    have h1 : (rne (a * 10 ^ decimals a) : ℚ) ≤ 999 := by exact_mod_cast d3 (by omega)
    have h2 : (100 : ℚ) ≤ rne (b * 10 ^ decimals b) := by exact_mod_cast e2
    have hp : (10 : ℚ) * 10 ^ decimals b ≤ 10 ^ decimals a := by
      rw [← pow_succ']
      exact pow_le_pow_right₀ (by norm_num) hlt
    unfold dec
    have hb0 : (0 : ℚ) < 10 ^ decimals b := by positivity
    rw [div_le_div_iff₀ (by positivity) hb0]
    nlinarith

/-- `v` is what is shown for `x` -/
def Shown (R : ℕ) (x : ℤ) (v : ℚ) : Prop :=
  (|x| < R ∧ v = x) ∨ ((R : ℤ) ≤ |x| ∧ ∃ σ a i, IsSign σ ∧ (x : ℚ) = σ * |(x : ℚ)| ∧ 1 ≤ |(x : ℚ)| ∧
    absLoop R scaleFuel (b64.rndAbs |(x : ℚ)|) 0 = some (a, i + 1) ∧ Scaled R a ∧ v = σ * (dec a * (R : ℚ) ^ (i + 1)))

theorem mag_mono {R : ℕ} (hR : 1000 ≤ R) {x y : ℚ} (hx : 1 ≤ x) (hxy : x ≤ y) {a b : ℚ} {i j : ℕ}
    (h1 : absLoop R scaleFuel (b64.rndAbs x) 0 = some (a, i + 1)) (h2 : absLoop R scaleFuel (b64.rndAbs y) 0 = some (b, j + 1))
    (ha : Scaled R a) (hb : Scaled R b) : dec a * (R : ℚ) ^ (i + 1) ≤ dec b * (R : ℚ) ^ (j + 1) := by
  have hRq : (1000 : ℚ) ≤ R := by exact_mod_cast hR
  have hl := int_le_rndAbs (a := x) 1 (by norm_num) (by norm_num) (by simpa using hx)
  rcases absLoop_mono (by linarith) _ _ _ _ _ _ _ _ (by simpa using hl) (b64.rndAbs_mono (by decide) (by linarith) hxy) h1 h2 with h | ⟨h, h'⟩
  · calc dec a * (R : ℚ) ^ (i + 1) ≤ R * (R : ℚ) ^ (i + 1) := mul_le_mul_of_nonneg_right (ha.le hR) (by positivity)
      _ = (R : ℚ) ^ (i + 1 + 1) := (pow_succ' _ _).symm
      _ ≤ (R : ℚ) ^ (j + 1) := pow_le_pow_right₀ (by linarith) (by omega)
      _ ≤ dec b * (R : ℚ) ^ (j + 1) := le_mul_of_one_le_left (by positivity) hb.one_le
  · rw [h]
    exact mul_le_mul_of_nonneg_right (ha.mono hb h') (by positivity)

theorem mag_ge {R : ℕ} (hR : 1000 ≤ R) {a : ℚ} (ha : Scaled R a) (i : ℕ) : (R : ℚ) ≤ dec a * (R : ℚ) ^ (i + 1) := by
  have hRq : (1000 : ℚ) ≤ R := by exact_mod_cast hR
  calc (R : ℚ) = (R : ℚ) ^ 1 := (pow_one _).symm
    _ ≤ (R : ℚ) ^ (i + 1) := pow_le_pow_right₀ (by linarith) (by omega)
    _ ≤ _ := le_mul_of_one_le_left (by positivity) ha.one_le

theorem Shown.mono {R : ℕ} (hR : 1000 ≤ R) {x y : ℤ} {v u : ℚ} (hx : Shown R x v) (hy : Shown R y u) (h : x ≤ y) : v ≤ u := by
  have hq : (x : ℚ) ≤ y := by exact_mod_cast h
  rcases hx with ⟨h1, rfl⟩ | ⟨h1, σ, a, i, hs, e1, g1, l1, c1, rfl⟩
  · rcases hy with ⟨h2, rfl⟩ | ⟨h2, τ, b, j, ht, e2, g2, l2, c2, rfl⟩
    · exact hq
    · have hx' := abs_lt.mp h1
      have hx2 : (x : ℚ) < R := by exact_mod_cast hx'.2
      have hx3 : -(R : ℚ) < x := by exact_mod_cast hx'.1
      have := mag_ge hR c2 j
      rcases ht with rfl | rfl
      · linarith
      · exfalso
        have : (R : ℚ) ≤ |(y : ℚ)| := by exact_mod_cast h2
        linarith
  · have hm := mag_ge hR c1 i
    have hx2 : (R : ℚ) ≤ |(x : ℚ)| := by exact_mod_cast h1
    rcases hy with ⟨h2, rfl⟩ | ⟨h2, τ, b, j, ht, e2, g2, l2, c2, rfl⟩
    · have hy' := abs_lt.mp h2
      have hy2 : (y : ℚ) < R := by exact_mod_cast hy'.2
      have hy3 : -(R : ℚ) < y := by exact_mod_cast hy'.1
      rcases hs with rfl | rfl
      · exfalso; linarith
      · linarith
    · have hm' := mag_ge hR c2 j
      rcases hs with rfl | rfl
      · rcases ht with rfl | rfl
        · have := mag_mono hR g1 (by linarith) l1 l2 c1 c2
          linarith
        · exfalso; linarith
      · rcases ht with rfl | rfl
        · have : (0 : ℚ) ≤ R := by positivity
          linarith
        · have := mag_mono hR g2 (by linarith) l2 l1 c2 c1
          linarith

theorem stands_scaled {R : ℕ} {ps : Bool} {σ a : ℚ} (hσ : IsSign σ) (ha : Scaled R a) {i : ℕ} {suf : Str}
    (hsuf : (names R ps)[i]? = some suf) :
    FormOf R ps (fmtFixed (decimals a) (.fin (σ * a)) ++ suf) (σ * (dec a * (R : ℚ) ^ (i + 1))) := by
  obtain ⟨d1, d2, -, -⟩ := decimals_spec ha.one ha.lt ha.rep
  obtain ⟨m, m1, m2, -⟩ := fmtFixed_spec (decimals a) (a := a) hσ (by linarith [ha.one]) (by omega)
  refine .inr ⟨i, decimals a, m, _, suf, hsuf, rfl, m1, d1, ?_⟩
  rw [m2]
  unfold dec
  ring

theorem iCompactForm_shown {R : ℕ} (hR : 1000 ≤ R) (hR2 : R ≤ 2 ^ 53) (ps : Bool) {x : ℤ} (hx : InI64 x) :
    ∃ s v, iCompactForm x R (names R ps) = some s ∧ FormOf R ps s v ∧ Shown R x v := by
  unfold iCompactForm
  by_cases hs : x > -1 * (R : ℤ) ∧ x < R
  · rw [if_pos hs]
    exact ⟨_, x, rfl, .inl ⟨x, fmtInt_spec x, rfl⟩, .inl ⟨by rw [abs_lt]; constructor <;> linarith [hs.1, hs.2], rfl⟩⟩
  · rw [if_neg hs]
    have hx1 : (R : ℤ) ≤ |x| := by
      by_contra h
      rw [not_le, abs_lt] at h
      exact hs ⟨by linarith [h.1], h.2⟩
    have hx2 : |x| ≤ 18446744073709551616 := by
      unfold InI64 at hx; rw [abs_le]; constructor <;> linarith [hx.1, hx.2]
    obtain ⟨r1, r2, a, i, g1, g2, g3, g4, g5, g6⟩ := loop_ends hR hR2 hx1 hx2
    obtain ⟨σ, hσ, hσx⟩ : ∃ σ : ℚ, IsSign σ ∧ (x : ℚ) = σ * |(x : ℚ)| := by
      rcases le_total 0 (x : ℚ) with h | h
      · exact ⟨1, Or.inl rfl, by rw [abs_of_nonneg h, one_mul]⟩
      · exact ⟨-1, Or.inr rfl, by rw [abs_of_nonpos h]; ring⟩
    have hfx : Fl.ofInt b64 x = .fin (σ * b64.rndAbs |(x : ℚ)|) := by
      unfold Fl.ofInt
      conv_lhs => rw [hσx]
      exact rnd_signed hσ r1 r2
    have hRq : (1 : ℚ) ≤ R := by exact_mod_cast (by omega : 1 ≤ R)
    have hl := int_le_rndAbs (a := |(x : ℚ)|) 1 (by norm_num) (by norm_num) (by simpa using r1)
    have hu := b64.rndAbs_le_p2 (e := 64) (by linarith) r2 (by decide) (by decide)
    rw [ofInt_radix hR2, hfx, scaleLoop_abs hσ hRq _ _ _ (by simpa using hl) hu, g1]
    simp only [Option.map_some]
    obtain ⟨suf, hsuf⟩ := names_get R ps g2
    rw [showScaled_eq hσ (by linarith) i _ hsuf]
    exact ⟨_, _, rfl, stands_scaled hσ ⟨g3, g4, g6⟩ hsuf, .inr ⟨hx1, σ, a, i, hσ, hσx, r1, g1, ⟨g3, g4, g6⟩, rfl⟩⟩

theorem uCompactForm_shown {R : ℕ} (hR : 1000 ≤ R) (hR2 : R ≤ 2 ^ 53) (ps : Bool) {x : ℕ} (hx : x < 2 ^ 64) :
    ∃ s v, uCompactForm x R (names R ps) = some s ∧ FormOf R ps s v ∧ Shown R x v := by
  unfold uCompactForm
  by_cases hs : x < R
  · rw [if_pos hs]
    refine ⟨_, x, rfl, .inl ⟨x, ?_, by simp⟩, .inl ⟨by simpa using hs, by simp⟩⟩
    have := fmtInt_spec (x : ℤ)
    unfold fmtInt at this
    rwa [if_neg (by omega)] at this
  · rw [if_neg hs]
    have hx1 : (R : ℤ) ≤ |(x : ℤ)| := by simp; omega
    have hx2 : |(x : ℤ)| ≤ 18446744073709551616 := by
      norm_num at hx; simp; omega
    obtain ⟨r1, r2, a, i, g1, g2, g3, g4, g5, g6⟩ := loop_ends hR hR2 hx1 hx2
    have hσx : ((x : ℤ) : ℚ) = 1 * |((x : ℤ) : ℚ)| := by
      rw [abs_of_nonneg (by positivity), one_mul]
    have hfx : Fl.ofInt b64 x = .fin (b64.rndAbs |((x : ℤ) : ℚ)|) := by
      unfold Fl.ofInt
      conv_lhs => rw [hσx]
      rw [rnd_signed (Or.inl rfl) r1 r2, one_mul]
    have hRq : (1 : ℚ) ≤ R := by exact_mod_cast (by omega : 1 ≤ R)
    have hl := int_le_rndAbs (a := |((x : ℤ) : ℚ)|) 1 (by norm_num) (by norm_num) (by simpa using r1)
    have hu := b64.rndAbs_le_p2 (e := 64) (by linarith) r2 (by decide) (by decide)
    rw [ofInt_radix hR2, hfx, uScaleLoop_abs hRq _ _ _ (by simpa using hl) hu, g1]
    simp only [Option.map_some]
    obtain ⟨suf, hsuf⟩ := names_get R ps g2
    rw [uShowScaled_eq i _ hsuf]
    have := stands_scaled (σ := 1) (R := R) (.inl rfl) ⟨g3, g4, g6⟩ hsuf
    rw [one_mul] at this
    exact ⟨_, _, rfl, this, .inr ⟨hx1, 1, a, i, .inl rfl, hσx, r1, g1, ⟨g3, g4, g6⟩, rfl⟩⟩

end Tricorder
