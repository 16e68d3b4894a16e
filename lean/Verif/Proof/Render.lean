import Verif.Model.Render
import Verif.Spec.Render
import Verif.Proof.FloatErr
import Verif.Proof.Num
import Mathlib.Tactic.NormNum
import Mathlib.Tactic.Linarith
import Mathlib.Tactic.Positivity
import Mathlib.Tactic.FieldSimp
import Mathlib.Tactic.Ring
/-!
# Rendering of integers: separators and compact form
-/

namespace Tricorder
open Go Spec _root_.Spec

/-! ### separators -/

theorem digitIndex_spec {pre ds post : Str} (h1 : ∀ b ∈ pre, isDigit b = false) (h2 : ds ≠ []) (h3 : ∀ b ∈ ds, isDigit b = true) :
    digitIndex (pre ++ ds ++ post) = some pre.length := by
  induction pre with
  | nil =>
    cases ds with
    | nil => exact absurd rfl h2
    | cons d ds => simp [digitIndex, h3 d (by simp)]
  | cons b pre ih =>
    have hb := h1 b (by simp)
    simp only [List.cons_append, digitIndex, hb, Bool.false_eq_true, if_false]
    rw [ih (fun c hc => h1 c (by simp [hc]))]
    simp

theorem nonDigitIndex_spec {ds post : Str} (h3 : ∀ b ∈ ds, isDigit b = true)
    (h4 : ∀ b r, post = b :: r → isDigit b = false) :
    nonDigitIndex (ds ++ post) = if post = [] then none else some ds.length := by
  induction ds with
  | nil =>
    cases post with
    | nil => rfl
    | cons b r => simp [nonDigitIndex, h4 b r rfl]
  | cons d ds ih =>
    simp only [List.cons_append, nonDigitIndex, h3 d (by simp), if_true]
    rw [ih (fun c hc => h3 c (by simp [hc]))]
    split <;> simp

/-- the loop after the first digit -/
theorem sepLoop_tail (sep : UInt8) {between : ℕ} (hb : 0 < between) (dlen : ℕ) (ds : Str) :
    ∀ i, 0 < i → i + ds.length = dlen → ∃ head rest, ds = head ++ List.flatten rest ∧
      head.length = ds.length % between ∧ (∀ g ∈ rest, g.length = between) ∧
      sepLoop sep between dlen i ds = head ++ (rest.map (sep :: ·)).flatten := by
  induction ds with
  | nil => intro i _ _; exact ⟨[], [], rfl, by simp, by simp, rfl⟩
  | cons d ds ih =>
    intro i hi hlen
    obtain ⟨head, rest, h1, h2, h3, h4⟩ := ih (i + 1) (by omega) (by simp at hlen; omega)
    have hleft : dlen - i = ds.length + 1 := by simp at hlen; omega
    simp only [sepLoop, hleft]
    by_cases hm : (ds.length + 1) % between = 0
    · rw [if_pos ⟨hi, hm⟩, h4]
      refine ⟨[], (d :: head) :: rest, by rw [h1]; simp, by simpa using hm.symm, ?_, by simp⟩
      intro g hg
      rcases List.mem_cons.mp hg with rfl | hg
      · have hlt := Nat.mod_lt ds.length hb
        have : (ds.length % between + 1) % between = 0 := by rw [Nat.mod_add_mod]; exact hm
        simp only [List.length_cons, h2]
        rcases Nat.lt_or_ge (ds.length % between + 1) between with h | h
        · rw [Nat.mod_eq_of_lt h] at this; omega
        · omega
      · exact h3 g hg
    · rw [if_neg (by tauto), h4]
      refine ⟨d :: head, rest, by rw [h1]; simp, ?_, h3, by simp⟩
      have hlt := Nat.mod_lt ds.length hb
      simp only [List.length_cons, h2]
      rcases Nat.lt_or_ge (ds.length % between + 1) between with h | h
      · rw [← Nat.mod_add_mod, Nat.mod_eq_of_lt h]
      · have : ds.length % between + 1 = between := by omega
        exact absurd (by rw [← Nat.mod_add_mod, this, Nat.mod_self]) hm

theorem joinByte_cons (sep : UInt8) (first : Str) (rest : List Str) :
    joinByte sep (first :: rest) = first ++ (rest.map (sep :: ·)).flatten := by
  induction rest generalizing first with
  | nil => simp [joinByte]
  | cons g rest ih => rw [joinByte, ih]; simp

theorem sepLoop_grouped (sep : UInt8) {between : ℕ} (hb : 0 < between) {ds : Str} (hne : ds ≠ []) :
    Grouped sep between ds (sepLoop sep between ds.length 0 ds) := by
  cases ds with
  | nil => exact absurd rfl hne
  | cons d ds =>
    obtain ⟨head, rest, h1, h2, h3, h4⟩ := sepLoop_tail sep hb (ds.length + 1) ds 1 (by omega) (by omega)
    have hlt := Nat.mod_lt ds.length hb
    refine ⟨d :: head, rest, by rw [h1]; simp, ?_, by simp, by simp only [List.length_cons]; omega, h3⟩
    rw [joinByte_cons]
    simp [sepLoop, h4]

theorem addSeparators_spec (sep : UInt8) {between : ℕ} (hb : 0 < between) {pre ds post : Str}
    (h1 : ∀ b ∈ pre, isDigit b = false) (h2 : ds ≠ []) (h3 : ∀ b ∈ ds, isDigit b = true)
    (h4 : ∀ b r, post = b :: r → isDigit b = false) :
    ∃ g, addSeparators (pre ++ ds ++ post) sep between = some (pre ++ g ++ post) ∧ Grouped sep between ds g := by
  refine ⟨sepLoop sep between ds.length 0 ds, ?_, sepLoop_grouped sep hb h2⟩
  have e0 : (pre ++ ds ++ post).drop pre.length = ds ++ post := by simp
  unfold addSeparators
  rw [digitIndex_spec h1 h2 h3]
  simp only [e0]
  rw [nonDigitIndex_spec h3 h4]
  by_cases hp : post = []
  · subst hp
    simp [List.take_append, List.drop_append]
  · simp [hp, List.take_append, List.drop_append]

theorem Grouped.erase {sep : UInt8} {between : ℕ} {ds s : Str} (h : Grouped sep between ds s) (hs : sep ∉ ds) :
    s.filter (fun b => b ≠ sep) = ds := by
  obtain ⟨first, rest, rfl, rfl, -⟩ := h
  rw [joinByte_cons]
  have hf : first.filter (fun b => b ≠ sep) = first := by
    rw [List.filter_eq_self]
    intro a ha
    have : a ≠ sep := by rintro rfl; exact hs (by simp [ha])
    simpa using this
  have hr : ∀ g ∈ rest, sep ∉ g := by
    intro g hg hm
    exact hs (List.mem_append_right _ (List.mem_flatten.mpr ⟨g, hg, hm⟩))
  rw [List.filter_append, hf]
  congr 1
  clear hf hs
  induction rest with
  | nil => rfl
  | cons g rest ih =>
    simp only [List.map_cons, List.flatten_cons, List.filter_append, List.filter_cons]
    rw [ih (fun g' hg' => hr g' (by simp [hg']))]
    have : g.filter (fun b => b ≠ sep) = g := by
      rw [List.filter_eq_self]
      intro a ha
      have : a ≠ sep := by rintro rfl; exact hr g (by simp) ha
      simpa using this
    rw [this]
    simp

/-! ### rounding of numbers of moderate size -/

/-- `1` or `-1` -/
def IsSign (σ : ℚ) : Prop := σ = 1 ∨ σ = -1

theorem IsSign.abs {σ : ℚ} (h : IsSign σ) : |σ| = 1 := by rcases h with rfl | rfl <;> simp

theorem rndAbs_barrier {a : ℚ} (ha : 0 < a) (m e : ℤ) (he : -1074 ≤ e) (hm : m ≤ 2 ^ 53) (h : a ≤ m * p2 e) :
    b64.rndAbs a ≤ m * p2 e := by
  have hpos : (0 : ℚ) < m * p2 e := lt_of_lt_of_le ha h
  have h1 := b64.rndAbs_mono (by decide) ha h
  rwa [b64.rndAbs_exact (by decide) hpos m e he hm rfl] at h1

theorem rndAbs_barrier' {a : ℚ} (m e : ℤ) (he : -1074 ≤ e) (hm : m ≤ 2 ^ 53) (hpos : (0 : ℚ) < m * p2 e) (h : m * p2 e ≤ a) :
    m * p2 e ≤ b64.rndAbs a := by
  have h1 := b64.rndAbs_mono (by decide) hpos h
  rwa [b64.rndAbs_exact (by decide) hpos m e he hm rfl] at h1

theorem rndAbs_le_int {a : ℚ} (ha : 0 < a) (n : ℕ) (hn : n ≤ 2 ^ 53) (h : a ≤ n) : b64.rndAbs a ≤ n := by
  have := rndAbs_barrier ha n 0 (by decide) (by exact_mod_cast hn) (by simpa [p2] using h)
  simpa [p2] using this

theorem int_le_rndAbs {a : ℚ} (n : ℕ) (h0 : 0 < n) (hn : n ≤ 2 ^ 53) (h : (n : ℚ) ≤ a) : (n : ℚ) ≤ b64.rndAbs a := by
  have := rndAbs_barrier' (a := a) n 0 (by decide) (by exact_mod_cast hn) (by simp [p2]; exact_mod_cast h0)
    (by simpa [p2] using h)
  simpa [p2] using this

theorem rnd_signed {σ a : ℚ} (hσ : IsSign σ) (h1 : 1 ≤ a) (h2 : a ≤ p2 64) :
    rnd b64 (σ * a) = .fin (σ * b64.rndAbs a) := by
  have ha : 0 < a := by linarith
  have hl := int_le_rndAbs (a := a) 1 (by norm_num) (by norm_num) (by simpa using h1)
  have hu := b64.rndAbs_le_p2 (e := 64) ha h2 (by decide) (by decide)
  have hlt : ¬ p2 b64.emax ≤ b64.rndAbs a := by
    rw [not_le]
    exact lt_of_le_of_lt hu (p2_lt (by decide))
  have h0 : σ * a ≠ 0 := by
    have : σ ≠ 0 := by rcases hσ with rfl | rfl <;> norm_num
    exact mul_ne_zero this ha.ne'
  have habs : |σ * a| = a := by rw [abs_mul, hσ.abs, one_mul, abs_of_pos ha]
  unfold rnd
  rw [if_neg h0, habs]
  simp only
  push_cast at hl
  rw [if_neg hlt, if_neg (by linarith)]
  rcases hσ with rfl | rfl
  · rw [if_neg (by linarith), one_mul]
  · rw [if_pos (by linarith)]; congr 1; ring

/-- relative error of rounding a number of moderate size -/
theorem rndAbs_rel {a : ℚ} (h1 : 1 ≤ a) : |b64.rndAbs a - a| ≤ a / 2 ^ 52 := by
  have ha : 0 < a := by linarith
  have h := rndAbs_err b64 ha
  have e1 : p2 (-(b64.prec : ℤ)) = 1 / 2 ^ 53 := by
    have : (-(b64.prec : ℤ)) = -53 := rfl
    rw [this, p2_eq]; norm_num
  have e2 : p2 b64.emin ≤ 1 / 2 ^ 53 := by
    have : b64.emin = -1074 := rfl
    rw [this]
    have : p2 (-1074) ≤ p2 (-53) := p2_le (by decide)
    refine le_trans this ?_
    rw [p2_eq]; norm_num
  rw [e1] at h
  have e3 : a / 2 ^ 52 = a * (1 / 2 ^ 53) + a * (1 / 2 ^ 53) := by ring
  rw [e3]
  have e4 : (1 : ℚ) / 2 ^ 53 ≤ a * (1 / 2 ^ 53) := by
    have : (0 : ℚ) ≤ 1 / 2 ^ 53 := by norm_num
    nlinarith
  linarith

/-! ### the loop -/

/-- the loop on magnitudes -/
def absLoop (R : ℚ) : ℕ → ℚ → ℕ → Option (ℚ × ℕ)
  | 0, _, _ => none
  | fuel + 1, a, k => if R ≤ a then absLoop R fuel (b64.rndAbs (a / R)) (k + 1) else some (a, k)

/-- bounds of the magnitude after `k` divisions by at least 1000 -/
def bound : ℕ → ℚ
  | 0 => 18446744073709551616
  | 1 => 20300000000000000
  | 2 => 20300000000000
  | 3 => 20300000000
  | 4 => 20300000
  | 5 => 20300
  | _ => 21

theorem rndAbs_bound {a : ℚ} (h1 : 1 ≤ a) (k : ℕ) (hk : k < 6) (h : a ≤ bound k / 1000) : b64.rndAbs a ≤ bound (k + 1) := by
  have ha : 0 < a := by linarith
  match k, hk with
  | 0, _ =>
    have := rndAbs_barrier (a := a) ha 5075000000000000 2 (by decide) (by norm_num)
      (by simp only [bound] at h; rw [p2_eq]; norm_num at h ⊢; linarith)
    simp only [bound]
    rw [p2_eq] at this; norm_num at this ⊢; linarith
  | 1, _ =>
    have := rndAbs_le_int ha 20300000000000 (by norm_num) (by simp only [bound] at h; norm_num at h ⊢; linarith)
    simpa [bound] using this
  | 2, _ =>
    have := rndAbs_le_int ha 20300000000 (by norm_num) (by simp only [bound] at h; norm_num at h ⊢; linarith)
    simpa [bound] using this
  | 3, _ =>
    have := rndAbs_le_int ha 20300000 (by norm_num) (by simp only [bound] at h; norm_num at h ⊢; linarith)
    simpa [bound] using this
  | 4, _ =>
    have := rndAbs_le_int ha 20300 (by norm_num) (by simp only [bound] at h; norm_num at h ⊢; linarith)
    simpa [bound] using this
  | 5, _ =>
    have := rndAbs_le_int ha 21 (by norm_num) (by simp only [bound] at h; norm_num at h ⊢; linarith)
    simpa [bound] using this

theorem absLoop_spec {R : ℚ} (hR : 1000 ≤ R) {q : ℚ} (hq : 0 ≤ q) :
    ∀ (n fuel k : ℕ) (a : ℚ), n + k = 6 → n < fuel → 1 ≤ a → a ≤ bound k →
      |a - q / R ^ k| ≤ (k + 1 : ℚ) * 2 / 2 ^ 52 * (q / R ^ k) → (k = 0 → R ≤ a) → b64.rndAbs a = a →
      ∃ a' k', absLoop R fuel a k = some (a', k') ∧ 1 ≤ k' ∧ k' ≤ 6 ∧ 1 ≤ a' ∧ a' < R ∧
        |a' - q / R ^ k'| ≤ 14 / 2 ^ 52 * (q / R ^ k') ∧ b64.rndAbs a' = a' := by
  intro n
  induction n with
  | zero =>
    intro fuel k a hk hf h1 h2 h3 h4 h5
    obtain ⟨f, rfl⟩ : ∃ f, fuel = f + 1 := ⟨fuel - 1, by omega⟩
    have : k = 6 := by omega
    subst this
    simp only [bound] at h2
    refine ⟨a, 6, ?_, by norm_num, le_refl _, h1, by linarith, ?_, h5⟩
    · simp only [absLoop]; rw [if_neg (by linarith)]
    · norm_num at h3 ⊢; exact h3
  | succ n ih =>
    intro fuel k a hk hf h1 h2 h3 h4 h5
    obtain ⟨f, rfl⟩ : ∃ f, fuel = f + 1 := ⟨fuel - 1, by omega⟩
    simp only [absLoop]
    by_cases hc : R ≤ a
    · rw [if_pos hc]
      have hRpos : 0 < R := by linarith
      have hd1 : 1 ≤ a / R := by rw [le_div_iff₀ hRpos]; linarith
      have hd2 : a / R ≤ bound k / 1000 := by
        rw [div_le_div_iff₀ hRpos (by norm_num)]
        nlinarith
      have hl := int_le_rndAbs (a := a / R) 1 (by norm_num) (by norm_num) (by simpa using hd1)
      refine ih f (k + 1) (b64.rndAbs (a / R)) (by omega) (by omega) (by simpa using hl)
        (rndAbs_bound hd1 k (by omega) hd2) ?_ (by omega) ?_
      · have hr := rndAbs_rel hd1
        have e1 : q / R ^ (k + 1) = q / R ^ k / R := by rw [pow_succ, div_div]
        rw [e1]
        set t := q / R ^ k with ht
        have ht0 : 0 ≤ t := div_nonneg hq (pow_nonneg hRpos.le _)
        have hk5 : (k : ℚ) ≤ 5 := by
          have : k ≤ 5 := by omega
          exact_mod_cast this
        have hk0 : (0 : ℚ) ≤ k := Nat.cast_nonneg k
        have e2 : a / R - t / R = (a - t) / R := by ring
        have h6 : |a / R - t / R| ≤ (k + 1 : ℚ) * 2 / 2 ^ 52 * (t / R) := by
          rw [e2, abs_div, abs_of_pos hRpos, div_le_iff₀ hRpos]
          calc |a - t| ≤ (k + 1 : ℚ) * 2 / 2 ^ 52 * t := h3
            _ = (k + 1 : ℚ) * 2 / 2 ^ 52 * (t / R) * R := by field_simp
        set u := t / R with hu
        have hu0 : 0 ≤ u := div_nonneg ht0 hRpos.le
        have h7 : a / R ≤ 2 * u := by
          have := (abs_le.mp h6).2
          have h8 : (k + 1 : ℚ) * 2 / 2 ^ 52 ≤ 1 := by
            rw [div_le_one (by norm_num)]; norm_num; linarith
          nlinarith
        have h9 : a / R / 2 ^ 52 ≤ 2 * u / 2 ^ 52 := div_le_div_of_nonneg_right h7 (by norm_num)
        have h10 : |b64.rndAbs (a / R) - u| ≤ |b64.rndAbs (a / R) - a / R| + |a / R - u| := abs_sub_le _ _ _
        push_cast
        calc |b64.rndAbs (a / R) - u| ≤ 2 * u / 2 ^ 52 + (k + 1 : ℚ) * 2 / 2 ^ 52 * u := by linarith
          _ = (k + 1 + 1 : ℚ) * 2 / 2 ^ 52 * u := by ring
      · refine rndAbs_idem b64 (by decide) (by linarith) ?_
        push_cast at hl
        linarith
    · rw [if_neg hc]
      have hk0 : k ≠ 0 := fun h => hc (h4 h)
      refine ⟨a, k, rfl, by omega, by omega, h1, by linarith, ?_, h5⟩
      refine le_trans h3 ?_
      have hk5 : (k : ℚ) ≤ 6 := by
        have : k ≤ 6 := by omega
        exact_mod_cast this
      have : 0 ≤ q / R ^ k := div_nonneg hq (pow_nonneg (by linarith) _)
      refine mul_le_mul_of_nonneg_right ?_ this
      apply div_le_div_of_nonneg_right _ (by norm_num)
      linarith

theorem p2_64 : p2 64 = 18446744073709551616 := by rw [p2_eq]; norm_num

theorem scale_cond {σ a R : ℚ} (hσ : IsSign σ) (ha : 0 < a) (hR : 0 < R) :
    (Fl.le (.fin R) (.fin (σ * a)) || Fl.le (.fin (σ * a)) (Fl.neg (.fin R))) = decide (R ≤ a) := by
  have hn : Fl.neg (.fin R) = .fin (-R) := by simp [Fl.neg, hR.ne']
  rw [hn]
  simp only [Fl.le, Fl.lt, Fl.eq]
  rcases hσ with rfl | rfl
  · by_cases h : R ≤ a
    · rcases lt_or_eq_of_le h with h' | h'
      · simp [h, h']
      · simp [h']
    · have h' : a < R := not_le.mp h
      have h1 : ¬ R < a := by linarith
      have h2 : R ≠ a := by linarith
      have h3 : ¬ a < -R := by linarith
      have h4 : a ≠ -R := by linarith
      simp [h1, h2, h3, h4, h']
  · by_cases h : R ≤ a
    · rcases lt_or_eq_of_le h with h' | h'
      · simp [h, h']
      · simp [h']
    · have h' : a < R := not_le.mp h
      have h1 : ¬ R < -a := by linarith
      have h2 : R ≠ -a := by linarith
      have h3 : ¬ R < a := by linarith
      have h4 : a ≠ R := by linarith
      simp [h1, h2, h3, h4, h']

theorem div_signed {σ a R : ℚ} (hσ : IsSign σ) (hR : 1 ≤ R) (h1 : R ≤ a) (h2 : a ≤ p2 64) :
    Fl.div b64 (.fin (σ * a)) (.fin R) = .fin (σ * b64.rndAbs (a / R)) := by
  have hRpos : 0 < R := by linarith
  have hσ0 : σ ≠ 0 := by rcases hσ with rfl | rfl <;> norm_num
  have ha0 : a ≠ 0 := by linarith
  simp only [Fl.div, Fl.toQ?]
  rw [if_neg hRpos.ne', if_neg (mul_ne_zero hσ0 ha0), mul_div_assoc]
  refine rnd_signed hσ ?_ ?_
  · rw [le_div_iff₀ hRpos]; linarith
  · rw [div_le_iff₀ hRpos]
    have := p2_pos 64
    nlinarith

theorem rndAbs_div_range {a R : ℚ} (hR : 1 ≤ R) (h1 : R ≤ a) (h2 : a ≤ p2 64) :
    1 ≤ b64.rndAbs (a / R) ∧ b64.rndAbs (a / R) ≤ p2 64 := by
  have hRpos : 0 < R := by linarith
  have e1 : 1 ≤ a / R := by rw [le_div_iff₀ hRpos]; linarith
  have e2 : a / R ≤ p2 64 := by
    rw [div_le_iff₀ hRpos]
    have := p2_pos 64
    nlinarith
  have hl := int_le_rndAbs (a := a / R) 1 (by norm_num) (by norm_num) (by simpa using e1)
  exact ⟨by simpa using hl, b64.rndAbs_le_p2 (by linarith) e2 (by decide) (by decide)⟩

theorem scaleLoop_abs {σ R : ℚ} (hσ : IsSign σ) (hR : 1 ≤ R) : ∀ (fuel : ℕ) (a : ℚ) (k : ℕ), 1 ≤ a → a ≤ p2 64 →
    scaleLoop (.fin R) fuel (.fin (σ * a)) k = (absLoop R fuel a k).map fun x => (.fin (σ * x.1), x.2) := by
  intro fuel
  induction fuel with
  | zero => intro a k _ _; rfl
  | succ fuel ih =>
    intro a k h1 h2
    simp only [scaleLoop, absLoop]
    rw [scale_cond hσ (by linarith) (by linarith)]
    by_cases hc : R ≤ a
    · rw [if_pos (by simpa using hc), if_pos hc, div_signed hσ hR hc h2]
      obtain ⟨g1, g2⟩ := rndAbs_div_range hR hc h2
      exact ih _ _ g1 g2
    · rw [if_neg (by simpa using hc), if_neg hc]; rfl

theorem uScaleLoop_abs {R : ℚ} (hR : 1 ≤ R) : ∀ (fuel : ℕ) (a : ℚ) (k : ℕ), 1 ≤ a → a ≤ p2 64 →
    uScaleLoop (.fin R) fuel (.fin a) k = (absLoop R fuel a k).map fun x => (.fin x.1, x.2) := by
  intro fuel
  induction fuel with
  | zero => intro a k _ _; rfl
  | succ fuel ih =>
    intro a k h1 h2
    simp only [uScaleLoop, absLoop]
    have hcond : Fl.le (.fin R) (.fin a) = decide (R ≤ a) := by
      simp only [Fl.le, Fl.lt, Fl.eq]
      by_cases h : R ≤ a
      · rcases lt_or_eq_of_le h with h' | h'
        · simp [h, h']
        · simp [h']
      · have h3 : ¬ R < a := by linarith
        have h4 : R ≠ a := by linarith
        simp [h3, h4, not_le.mp h]
    rw [hcond]
    by_cases hc : R ≤ a
    · rw [if_pos (by simpa using hc), if_pos hc]
      have := div_signed (σ := 1) (Or.inl rfl) hR hc h2
      rw [one_mul, one_mul] at this
      rw [this]
      obtain ⟨g1, g2⟩ := rndAbs_div_range hR hc h2
      exact ih _ _ g1 g2
    · rw [if_neg (by simpa using hc), if_neg hc]; rfl

/-! ### the numeral -/

/-- the numeral of a rounded number -/
theorem fmtFixed_spec (n : ℕ) {σ a : ℚ} (hσ : IsSign σ) (ha : 0 < a) (hm : 0 < rne (a * 10 ^ n)) :
    ∃ m : ℤ, DenotesFix (fmtFixed n (.fin (σ * a))) n m ∧ (m : ℚ) = σ * rne (a * 10 ^ n) ∧ |m| = rne (a * 10 ^ n) := by
  have habs : |σ * a| = a := by rw [abs_mul, hσ.abs, one_mul, abs_of_pos ha]
  obtain ⟨M, hM⟩ : ∃ M : ℕ, rne (a * 10 ^ n) = M := ⟨(rne (a * 10 ^ n)).toNat, by omega⟩
  have hfs : ∃ fs : Str, AllDigits fs ∧ fs.length = n ∧ numVal fs = M % 10 ^ n ∧
      (if n = 0 then [] else 46 :: zeroPad n (fmtNat (M % 10 ^ n))) = (if n = 0 then [] else (46 : UInt8) :: fs) := by
    cases n with
    | zero => exact ⟨[], by intro d hd; simp at hd, rfl, by simp [Nat.mod_one], by simp⟩
    | succ n =>
      obtain ⟨h1, h2, h3⟩ := zeroPad_spec n (M % 10 ^ (n + 1)) (Nat.mod_lt _ (by positivity))
      exact ⟨_, h1, h2, h3, rfl⟩
  obtain ⟨fs, f1, f2, f3, f4⟩ := hfs
  obtain ⟨w1, w2, w3⟩ := fmtNat_spec (M / 10 ^ n)
  have hdiv : M = M / 10 ^ n * 10 ^ n + M % 10 ^ n := (Nat.div_add_mod' M (10 ^ n)).symm
  have hM0 : 0 < M := by omega
  rcases hσ with rfl | rfl
  · refine ⟨M, ⟨fmtNat (M / 10 ^ n), fs, w1, w2, f1, f2, ?_, ?_⟩, ?_, ?_⟩
    · rw [w3, f3]; simpa using hdiv
    · have : ¬ (1 * a < 0) := by linarith
      simp only [fmtFixed, habs, hM, Int.toNat_natCast, if_neg this, f4]
      have hm0 : ¬ ((M : ℤ) < 0) := by omega
      simp [hm0]
    · rw [hM]; push_cast; ring
    · rw [hM]; simp
  · refine ⟨-M, ⟨fmtNat (M / 10 ^ n), fs, w1, w2, f1, f2, ?_, ?_⟩, ?_, ?_⟩
    · rw [w3, f3]; simpa using hdiv
    · have : -1 * a < 0 := by linarith
      simp only [fmtFixed, habs, hM, Int.toNat_natCast, if_pos this, f4]
      have hm0 : -(M : ℤ) < 0 := by omega
      rw [if_pos hm0]; simp
    · rw [hM]; push_cast; ring
    · rw [hM]; simp

/-- the numeral shown for magnitude `a` -/
def decimals (a : ℚ) : ℕ :=
  if a < 5626684784446013 / 562949953421312 then 2 else if a < 7033355980557517 / 70368744177664 then 1 else 0

theorem f9995_eq : f9995 = .fin (5626684784446013 / 562949953421312) := by decide +kernel
theorem f9995'_eq : f9995' = .fin (7033355980557517 / 70368744177664) := by decide +kernel

theorem showCond {σ a c : ℚ} (hσ : IsSign σ) (ha : 0 < a) (hc : 0 < c) :
    (Fl.lt (Fl.neg (.fin c)) (.fin (σ * a)) && Fl.lt (.fin (σ * a)) (.fin c)) = decide (a < c) := by
  have hn : Fl.neg (.fin c) = .fin (-c) := by simp [Fl.neg, hc.ne']
  rw [hn]
  simp only [Fl.lt]
  rcases hσ with rfl | rfl
  · have h1 : -c < 1 * a := by linarith
    simp [h1]
    intro; linarith
  · have h1 : -1 * a < c := by linarith
    have h2 : -c < -1 * a ↔ a < c := by constructor <;> intro h <;> linarith
    simp [h1, h2]
    intro; linarith

theorem showScaled_eq {σ a : ℚ} (hσ : IsSign σ) (ha : 0 < a) (i : ℕ) (sufs : List Str) {suf : Str} (h : sufs[i]? = some suf) :
    showScaled (.fin (σ * a)) (i + 1) sufs = some (fmtFixed (decimals a) (.fin (σ * a)) ++ suf) := by
  simp only [showScaled, h]
  rw [f9995_eq, f9995'_eq, showCond hσ ha (by norm_num), showCond hσ ha (by norm_num)]
  unfold decimals
  by_cases h1 : a < 5626684784446013 / 562949953421312
  · simp [h1]
  · by_cases h2 : a < 7033355980557517 / 70368744177664
    · simp [h1, h2]
    · simp [h1, h2]

theorem uShowScaled_eq {a : ℚ} (i : ℕ) (sufs : List Str) {suf : Str} (h : sufs[i]? = some suf) :
    uShowScaled (.fin a) (i + 1) sufs = some (fmtFixed (decimals a) (.fin a) ++ suf) := by
  simp only [uShowScaled, h]
  rw [f9995_eq, f9995'_eq]
  simp only [Fl.lt]
  unfold decimals
  by_cases h1 : a < 5626684784446013 / 562949953421312
  · simp [h1]
  · by_cases h2 : a < 7033355980557517 / 70368744177664
    · simp [h1, h2]
    · simp [h1, h2]

/-- the three significant digits -/
theorem decimals_spec {a : ℚ} {R : ℕ} (h1 : 1 ≤ a) (hR : a < R) (hrep : b64.rndAbs a = a) :
    decimals a ≤ 2 ∧ 100 ≤ rne (a * 10 ^ decimals a) ∧ (decimals a ≠ 0 → rne (a * 10 ^ decimals a) ≤ 999) ∧
      (decimals a = 0 → rne (a * 10 ^ decimals a) ≤ R) := by
  have key : ∀ x : ℚ, (99.6 : ℚ) ≤ x → 100 ≤ rne x := by
    intro x hx
    have h := (abs_le.mp (rne_bounds x)).1
    have : (99 : ℚ) < rne x := by norm_num at hx; linarith
    have : (99 : ℤ) < rne x := by exact_mod_cast this
    omega
  have key2 : ∀ x : ℚ, x < 999.5 → rne x ≤ 999 := by
    intro x hx
    have h := (abs_le.mp (rne_bounds x)).2
    have : (rne x : ℚ) < 1000 := by norm_num at hx; linarith
    have : rne x < 1000 := by exact_mod_cast this
    omega
  unfold decimals
  by_cases c1 : a < 5626684784446013 / 562949953421312
  · rw [if_pos c1]
    refine ⟨le_refl _, le_rne_of_int_le (by push_cast; linarith), fun _ => key2 _ ?_, fun h => by cases h⟩
    norm_num at c1 ⊢; linarith
  · rw [if_neg c1]
    by_cases c2 : a < 7033355980557517 / 70368744177664
    · rw [if_pos c2]
      refine ⟨by norm_num, key _ ?_, fun _ => key2 _ ?_, fun h => by cases h⟩
      · norm_num at c1 ⊢; linarith
      · by_contra hge
        have hge' : (9995 / 100 : ℚ) ≤ a := by norm_num at hge ⊢; linarith
        have hm := b64.rndAbs_mono (by decide) (by norm_num) hge'
        rw [hrep] at hm
        have : b64.rndAbs (9995 / 100) = 7033355980557517 / 70368744177664 := by decide +kernel
        rw [this] at hm
        linarith
    · rw [if_neg c2]
      refine ⟨by norm_num, key _ ?_, fun h => absurd rfl h, fun _ => rne_le_of_le_int ?_⟩
      · norm_num at c2 ⊢; linarith
      · push_cast; linarith

/-- the result of the loop, shown -/
theorem compact_of_loop {σ : ℚ} (hσ : IsSign σ) {x : ℤ} {R : ℕ} (hx : (x : ℚ) = σ * |(x : ℚ)|) (hR : (R : ℤ) ≤ |x|) {a : ℚ}
    {i : ℕ} (h1 : 1 ≤ a) (h2 : a < R) (h3 : |a - |(x : ℚ)| / (R : ℚ) ^ (i + 1)| ≤ 14 / 2 ^ 52 * (|(x : ℚ)| / (R : ℚ) ^ (i + 1)))
    (h4 : b64.rndAbs a = a) {ps : Bool} {suf : Str} (hsuf : (names R ps)[i]? = some suf) :
    Compact (fmtFixed (decimals a) (.fin (σ * a)) ++ suf) x R ps := by
  obtain ⟨d1, d2, d3, d4⟩ := decimals_spec h1 h2 h4
  obtain ⟨m, m1, m2, m3⟩ := fmtFixed_spec (decimals a) (a := a) hσ (by linarith) (by omega)
  refine Or.inr ⟨hR, i, decimals a, m, _, suf, hsuf, rfl, m1, d1, by omega, by rw [m3]; exact d3, by rw [m3]; exact d4, ?_⟩
  set n := decimals a with hn
  set q := |(x : ℚ)| / (R : ℚ) ^ (i + 1) with hq
  have e1 : (m : ℚ) / 10 ^ n - x / (R : ℚ) ^ (i + 1) = σ * ((rne (a * 10 ^ n) : ℚ) / 10 ^ n - q) := by
    rw [m2, hq]; conv_lhs => rw [hx]
    ring
  rw [e1, abs_mul, hσ.abs, one_mul]
  have hp : (0 : ℚ) < 10 ^ n := by positivity
  have e2 : |(rne (a * 10 ^ n) : ℚ) / 10 ^ n - a| ≤ 1 / (2 * 10 ^ n) := by
    have h := rne_bounds (a * 10 ^ n)
    have e : (rne (a * 10 ^ n) : ℚ) / 10 ^ n - a = ((rne (a * 10 ^ n) : ℚ) - a * 10 ^ n) / 10 ^ n := by field_simp
    rw [e, abs_div, abs_of_pos hp, div_le_iff₀ hp]
    calc _ ≤ (1 / 2 : ℚ) := h
      _ = 1 / (2 * 10 ^ n) * 10 ^ n := by field_simp
  have e3 := abs_sub_le ((rne (a * 10 ^ n) : ℚ) / 10 ^ n) a q
  have hq0 : 0 ≤ q := by rw [hq]; positivity
  have e4 : 14 / 2 ^ 52 * q ≤ q / 2 ^ 48 := by
    rw [div_mul_eq_mul_div, div_le_div_iff₀ (by norm_num) (by norm_num)]
    norm_num
    linarith
  linarith

theorem loop_ends {R : ℕ} (hR : 1000 ≤ R) (hR2 : R ≤ 2 ^ 53) {x : ℤ} (hx : (R : ℤ) ≤ |x|) (hx2 : |x| ≤ 18446744073709551616) :
    1 ≤ |(x : ℚ)| ∧ |(x : ℚ)| ≤ p2 64 ∧
    ∃ a i, absLoop R scaleFuel (b64.rndAbs |(x : ℚ)|) 0 = some (a, i + 1) ∧ i ≤ 5 ∧ 1 ≤ a ∧ a < R ∧
      |a - |(x : ℚ)| / (R : ℚ) ^ (i + 1)| ≤ 14 / 2 ^ 52 * (|(x : ℚ)| / (R : ℚ) ^ (i + 1)) ∧ b64.rndAbs a = a := by
  have hRq : (1000 : ℚ) ≤ R := by exact_mod_cast hR
  have h1 : (R : ℚ) ≤ |(x : ℚ)| := by
    have : ((R : ℤ) : ℚ) ≤ ((|x| : ℤ) : ℚ) := by exact_mod_cast hx
    simpa using this
  have h2 : |(x : ℚ)| ≤ p2 64 := by
    rw [p2_64]
    have : ((|x| : ℤ) : ℚ) ≤ ((18446744073709551616 : ℤ) : ℚ) := by exact_mod_cast hx2
    simpa using this
  refine ⟨by linarith, h2, ?_⟩
  have hl := int_le_rndAbs (a := |(x : ℚ)|) R (by omega) hR2 h1
  have hu := b64.rndAbs_le_p2 (e := 64) (by linarith) h2 (by decide) (by decide)
  obtain ⟨a, k, g1, g2, g3, g4, g5, g6, g7⟩ := absLoop_spec hRq (q := |(x : ℚ)|) (abs_nonneg _) 6 scaleFuel 0
    (b64.rndAbs |(x : ℚ)|) rfl (by decide) (by linarith) (by rw [p2_64] at hu; simpa [bound] using hu)
    (by
      have := rndAbs_rel (a := |(x : ℚ)|) (by linarith)
      simp only [pow_zero, div_one, Nat.cast_zero, zero_add, one_mul]
      refine le_trans this ?_
      have : 0 ≤ |(x : ℚ)| := abs_nonneg _
      rw [div_mul_eq_mul_div]
      apply div_le_div_of_nonneg_right _ (by norm_num)
      linarith)
    (fun _ => hl) (rndAbs_idem b64 (by decide) (by linarith) (by linarith))
  obtain ⟨i, rfl⟩ : ∃ i, k = i + 1 := ⟨k - 1, by omega⟩
  exact ⟨a, i, g1, by omega, g4, g5, g6, g7⟩

theorem names_get (R : ℕ) (ps : Bool) {i : ℕ} (hi : i ≤ 5) : ∃ suf, (names R ps)[i]? = some suf := by
  have : (names R ps).length = 6 := by
    unfold names
    split
    · rfl
    · split <;> rfl
  exact ⟨_, List.getElem?_eq_getElem (by omega)⟩

theorem ofInt_radix {R : ℕ} (hR2 : R ≤ 2 ^ 53) : Fl.ofInt b64 R = .fin (R : ℚ) := by
  unfold Fl.ofInt
  have : |((R : ℤ))| ≤ 2 ^ 53 := by
    rw [abs_of_nonneg (by positivity)]; exact_mod_cast hR2
  have := rnd_int R this
  simpa using this

theorem iCompactForm_spec {R : ℕ} (hR : 1000 ≤ R) (hR2 : R ≤ 2 ^ 53) (ps : Bool) {x : ℤ} (hx : InI64 x) :
    ∃ s, iCompactForm x R (names R ps) = some s ∧ Compact s x R ps := by
  unfold iCompactForm
  by_cases hs : x > -1 * (R : ℤ) ∧ x < R
  · rw [if_pos hs]
    exact ⟨_, rfl, Or.inl ⟨by rw [abs_lt]; constructor <;> linarith [hs.1, hs.2], fmtInt_spec x⟩⟩
  · rw [if_neg hs]
    have hx1 : (R : ℤ) ≤ |x| := by
      by_contra h
      rw [not_le, abs_lt] at h
      exact hs ⟨by linarith [h.1], h.2⟩
    have hx2 : |x| ≤ 18446744073709551616 := by
      unfold InI64 at hx; rw [abs_le]; constructor <;> linarith [hx.1, hx.2]
    obtain ⟨r1, r2, a, i, g1, g2, g3, g4, g5, g6⟩ := loop_ends hR hR2 hx1 hx2
    obtain ⟨σ, hσ, hσx⟩ : ∃ σ : ℚ, IsSign σ ∧ (x : ℚ) = σ * |(x : ℚ)| := by
      rcases le_total 0 (x : ℚ) with h | h
      · exact ⟨1, Or.inl rfl, by rw [abs_of_nonneg h, one_mul]⟩
      · exact ⟨-1, Or.inr rfl, by rw [abs_of_nonpos h]; ring⟩
    have hfx : Fl.ofInt b64 x = .fin (σ * b64.rndAbs |(x : ℚ)|) := by
      unfold Fl.ofInt
      conv_lhs => rw [hσx]
      exact rnd_signed hσ r1 r2
    have hRq : (1 : ℚ) ≤ R := by exact_mod_cast (by omega : 1 ≤ R)
    have hl := int_le_rndAbs (a := |(x : ℚ)|) 1 (by norm_num) (by norm_num) (by simpa using r1)
    have hu := b64.rndAbs_le_p2 (e := 64) (by linarith) r2 (by decide) (by decide)
    rw [ofInt_radix hR2, hfx, scaleLoop_abs hσ hRq _ _ _ (by simpa using hl) hu, g1]
    simp only [Option.map_some]
    obtain ⟨suf, hsuf⟩ := names_get R ps g2
    rw [showScaled_eq hσ (by linarith) i _ hsuf]
    exact ⟨_, rfl, compact_of_loop hσ hσx hx1 g3 g4 g5 g6 hsuf⟩

theorem uCompactForm_spec {R : ℕ} (hR : 1000 ≤ R) (hR2 : R ≤ 2 ^ 53) (ps : Bool) {x : ℕ} (hx : x < 2 ^ 64) :
    ∃ s, uCompactForm x R (names R ps) = some s ∧ Compact s x R ps := by
  unfold uCompactForm
  by_cases hs : x < R
  · rw [if_pos hs]
    refine ⟨_, rfl, Or.inl ⟨by simpa using hs, ?_⟩⟩
    have := fmtInt_spec (x : ℤ)
    unfold fmtInt at this
    rwa [if_neg (by omega)] at this
  · rw [if_neg hs]
    have hx1 : (R : ℤ) ≤ |(x : ℤ)| := by simp; omega
    have hx2 : |(x : ℤ)| ≤ 18446744073709551616 := by
      norm_num at hx; simp; omega
    obtain ⟨r1, r2, a, i, g1, g2, g3, g4, g5, g6⟩ := loop_ends hR hR2 hx1 hx2
    have hσx : ((x : ℤ) : ℚ) = 1 * |((x : ℤ) : ℚ)| := by
      rw [abs_of_nonneg (by positivity), one_mul]
    have hfx : Fl.ofInt b64 x = .fin (b64.rndAbs |((x : ℤ) : ℚ)|) := by
      unfold Fl.ofInt
      conv_lhs => rw [hσx]
      rw [rnd_signed (Or.inl rfl) r1 r2, one_mul]
    have hRq : (1 : ℚ) ≤ R := by exact_mod_cast (by omega : 1 ≤ R)
    have hl := int_le_rndAbs (a := |((x : ℤ) : ℚ)|) 1 (by norm_num) (by norm_num) (by simpa using r1)
    have hu := b64.rndAbs_le_p2 (e := 64) (by linarith) r2 (by decide) (by decide)
    rw [ofInt_radix hR2, hfx, uScaleLoop_abs hRq _ _ _ (by simpa using hl) hu, g1]
    simp only [Option.map_some]
    obtain ⟨suf, hsuf⟩ := names_get R ps g2
    rw [uShowScaled_eq i _ hsuf]
    have := compact_of_loop (σ := 1) (Or.inl rfl) hσx hx1 g3 g4 g5 g6 hsuf
    rw [one_mul] at this
    exact ⟨_, rfl, this⟩

/-! ### integers -/

theorem isIntVal_cases {d : Dyn} {t : Ty} {x : ℤ} (h : IsIntVal d t x) :
    (t.isInt = true ∧ d.int = some x ∧ InI64 x) ∨
    (t.isInt = false ∧ t.isUint = true ∧ d.uint = some x.toNat ∧ 0 ≤ x ∧ x < 18446744073709551616) := by
  rcases h with ⟨n, k, rfl, hk, ht⟩ | ⟨n, rfl, hx, ht⟩
  · cases k <;> simp only [elemType, Option.some.injEq] at ht <;> subst ht <;>
      simp [Dyn.int, Dyn.uint, IntKind.signed, IntKind.InRange, IntKind.bits, Ty.isInt, Ty.isUint, InI64] at hk ⊢ <;> omega
  · simp only [elemType, Option.some.injEq] at ht
    subst ht
    exact Or.inl ⟨rfl, rfl, hx⟩

theorem text_eq (fm : Fmts) {d : Dyn} {t : Ty} {x : ℤ} (u : MUnit) (h : IsIntVal d t x) :
    valueToTextString fm d t u false = some (fmtInt x) := by
  unfold valueToTextString
  rcases isIntVal_cases h with ⟨h1, h2, -⟩ | ⟨h1, h2, h3, h4, -⟩
  · have hb : t ≠ .bool := by rintro rfl; simp [Ty.isInt] at h1
    rw [if_neg hb, if_pos ⟨h1, rfl⟩, h2]; rfl
  · have hb : t ≠ .bool := by rintro rfl; simp [Ty.isUint] at h2
    rw [if_neg hb, if_neg (by simp [h1]), if_pos ⟨h2, rfl⟩, h3]
    simp only [Option.map_some, fmtInt]
    rw [if_neg (by omega)]
    congr 2; omega

end Tricorder
