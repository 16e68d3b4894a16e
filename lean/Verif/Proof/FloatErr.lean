import Verif.Proof.Float
import Mathlib.Tactic.Linarith
import Mathlib.Tactic.NormNum
import Mathlib.Tactic.Positivity
import Mathlib.Tactic.FieldSimp
import Mathlib.Tactic.Ring
/-! Error bounds and exactness of rounding. -/

namespace Go

/-- the form of a representable number -/
theorem rep_form (fmt : Fmt) (q : ℚ) (h : rnd fmt q = .fin q) :
    ∃ (m e : ℤ), fmt.emin ≤ e ∧ |m| ≤ 2 ^ fmt.prec ∧ q = m * p2 e ∧ (q ≠ 0 → |q| < p2 fmt.emax) ∧
      (q ≠ 0 → e = fmt.ulpExp |q|) := by
  by_cases h0 : q = 0
  · exact ⟨0, fmt.emin, le_refl _, by simp, by simp [h0], fun h => absurd h0 h, fun h => absurd h0 h⟩
  · have hpos : 0 < |q| := abs_pos.2 h0
    have hv : fmt.rndAbs |q| = |q| ∧ |q| < p2 fmt.emax := by
      unfold rnd at h
      rw [if_neg h0] at h
      simp only at h
      split at h
      · cases h
      · rename_i hlt
        split at h
        · split at h
          · cases h
          · simp only [Fl.fin.injEq] at h; exact absurd h.symm h0
        · simp only [Fl.fin.injEq] at h
          have : fmt.rndAbs |q| = |q| := by
            split at h
            · rename_i hn; rw [abs_of_neg hn] at h ⊢; linarith
            · rename_i hn; rw [abs_of_nonneg (not_lt.1 hn)] at h ⊢; linarith
          exact ⟨this, by rw [this] at hlt; exact not_le.1 hlt⟩
    have hp := p2_pos (fmt.ulpExp |q|)
    have hform : |q| = (rne (|q| / p2 (fmt.ulpExp |q|)) : ℚ) * p2 (fmt.ulpExp |q|) := hv.1.symm
    set n := rne (|q| / p2 (fmt.ulpExp |q|)) with hn
    have hn0 : 0 ≤ n := rne_nonneg (div_nonneg hpos.le hp.le)
    have hnle : n ≤ 2 ^ fmt.prec := by
      have h2 := (ilog2_spec hpos).2
      have h3 : p2 (ilog2 |q| + 1) ≤ p2 (fmt.prec + fmt.ulpExp |q|) := by
        apply p2_le; unfold Fmt.ulpExp; omega
      rw [p2_add (fmt.prec : ℤ), p2_nat] at h3
      have h4 : (n : ℚ) * p2 (fmt.ulpExp |q|) < ((2 ^ fmt.prec : ℕ) : ℚ) * p2 (fmt.ulpExp |q|) := by
        rw [← hform]; exact lt_of_lt_of_le h2 h3
      have h5 := lt_of_mul_lt_mul_right h4 hp.le
      have : (n : ℚ) < ((2 ^ fmt.prec : ℤ) : ℚ) := by push_cast at h5 ⊢; exact h5
      exact le_of_lt (by exact_mod_cast this)
    rcases lt_or_ge q 0 with hneg | hge
    · refine ⟨-n, fmt.ulpExp |q|, fmt.ulpExp_ge_emin _, ?_, ?_, fun _ => hv.2, fun _ => rfl⟩
      · rw [abs_neg, abs_of_nonneg hn0]; exact hnle
      · rw [abs_of_neg hneg] at hform ⊢; push_cast; linarith
    · refine ⟨n, fmt.ulpExp |q|, fmt.ulpExp_ge_emin _, ?_, ?_, fun _ => hv.2, fun _ => rfl⟩
      · rw [abs_of_nonneg hn0]; exact hnle
      · rw [abs_of_nonneg hge] at hform ⊢; exact hform

/-- every `float32` is a `float64` -/
theorem rep32_rep64 (q : ℚ) (h : rnd b32 q = .fin q) : rnd b64 q = .fin q := by
  by_cases h0 : q = 0
  · subst h0; rfl
  obtain ⟨m, e, h1, h2, h3, h4, _⟩ := rep_form b32 q h
  refine rnd_exact b64 (by decide) q m e ?_ ?_ h3 ?_
  · show (-1074 : ℤ) ≤ e
    have : (-149 : ℤ) ≤ e := h1
    omega
  · exact le_trans h2 (by show (2:ℤ)^24 ≤ 2^53; norm_num)
  · exact lt_trans (h4 h0) (p2_lt (by show (128:ℤ) < 1024; norm_num))

theorem p2_sub (a b : ℤ) : p2 (a - b) = p2 a / p2 b := by
  rw [p2_eq, p2_eq, p2_eq, zpow_sub₀ (by norm_num)]

/-- absolute error of rounding, relative to the argument and to the least subnormal -/
theorem rndAbs_err (fmt : Fmt) {a : ℚ} (ha : 0 < a) :
    |fmt.rndAbs a - a| ≤ a * p2 (-fmt.prec) + p2 fmt.emin / 2 := by
  have h := fmt.rndAbs_error a
  have h1 := (ilog2_spec ha).1
  have hp := p2_pos fmt.emin
  have hq := p2_pos (-fmt.prec : ℤ)
  have key : p2 (fmt.ulpExp a) ≤ max (2 * (a * p2 (-fmt.prec))) (p2 fmt.emin) := by
    unfold Fmt.ulpExp
    rcases le_total (ilog2 a - (fmt.prec - 1)) fmt.emin with hl | hl
    · rw [max_eq_right hl]; exact le_max_right _ _
    · rw [max_eq_left hl]
      refine le_trans ?_ (le_max_left _ _)
      have e : ilog2 a - ((fmt.prec : ℤ) - 1) = ilog2 a + (1 + -fmt.prec) := by ring
      rw [e, p2_add, p2_add]
      have : p2 1 = 2 := rfl
      rw [this]
      nlinarith
  rcases le_max_iff.1 key with hk | hk
  · linarith
  · have := mul_pos ha hq
    linarith

/-- rounding a number of moderate size gives a finite number close to it -/
theorem rnd_err (q : ℚ) (h : |q| ≤ p2 1000) :
    ∃ v, (rnd b64 q).toQ? = some v ∧ |v - q| ≤ |q| * p2 (-53) + p2 (-1075) ∧
      (0 ≤ q → 0 ≤ v) ∧ (q ≤ 0 → v ≤ 0) := by
  by_cases h0 : q = 0
  · refine ⟨0, by rw [h0]; rfl, ?_, fun _ => le_refl _, fun _ => le_refl _⟩
    rw [h0]; simp; exact (p2_pos _).le
  · have hpos : 0 < |q| := abs_pos.2 h0
    have he := rndAbs_err b64 hpos
    have e1 : (b64.prec : ℤ) = 53 := rfl
    have e2 : b64.emin = -1074 := rfl
    have e3 : p2 (-1074) / 2 = p2 (-1075) := by
      rw [show (-1075 : ℤ) = -1074 - 1 by norm_num, p2_sub]; rfl
    rw [e1, e2, e3] at he
    have hnn := b64.rndAbs_nonneg hpos.le
    have hlt : ¬ p2 b64.emax ≤ b64.rndAbs |q| := by
      rw [not_le]
      have hb := b64.rndAbs_le_p2 (e := 1000) hpos h (by decide) (by decide)
      exact lt_of_le_of_lt hb (p2_lt (by decide))
    unfold rnd
    rw [if_neg h0]
    simp only
    rw [if_neg hlt]
    by_cases hz : b64.rndAbs |q| = 0
    · rw [if_pos hz]
      rw [hz] at he
      refine ⟨0, by split <;> rfl, ?_, fun _ => le_refl _, fun _ => le_refl _⟩
      rw [zero_sub, abs_neg] at he ⊢
      rwa [abs_abs] at he
    · rw [if_neg hz]
      refine ⟨_, rfl, ?_, ?_, ?_⟩
      · split
        · rename_i hn
          rw [abs_of_neg hn] at he ⊢
          rw [show -b64.rndAbs (-q) - q = -(b64.rndAbs (-q) - -q) by ring, abs_neg]; exact he
        · rename_i hn
          rw [abs_of_nonneg (not_lt.1 hn)] at he ⊢; exact he
      · intro hq; rw [if_neg (not_lt.2 hq)]; exact hnn
      · intro hq
        rw [if_pos (lt_of_le_of_ne hq h0)]; linarith

theorem rnd_toQ_mono {q r a b : ℚ} (h : q ≤ r) (ha : (rnd b64 q).toQ? = some a)
    (hb : (rnd b64 r).toQ? = some b) : a ≤ b := by
  have hm := rnd_mono b64 (by decide) h
  have hk : ∀ {x : Fl} {v : ℚ}, x.toQ? = some v → x.key = ((v : ℚ) : WithTop ℚ) := by
    intro x v hx
    cases x <;> simp [Fl.toQ?] at hx <;> subst hx <;> rfl
  rw [hk ha, hk hb] at hm
  simpa using hm

/-- adding one half to a representable integer of magnitude at least `2^53` changes nothing, and
to an even one of magnitude at least `2^52` neither -/
theorem rndAbs_add_half {n : ℕ} (hn : 2 ^ 52 ≤ n) (hrep : b64.rndAbs (n : ℚ) = n)
    (hpar : n < 2 ^ 53 → n % 2 = 0) : b64.rndAbs ((n : ℚ) + 1/2) = n := by
  have hnpos : (0 : ℚ) < n := by
    have : 0 < n := by omega
    exact_mod_cast this
  have hpos : (0 : ℚ) < (n : ℚ) + 1/2 := by linarith
  obtain ⟨a1, a2⟩ := ilog2_spec hnpos
  have hk52 : 52 ≤ ilog2 (n : ℚ) := by
    rw [le_ilog2_iff hnpos]
    have : p2 52 = ((2 ^ 52 : ℕ) : ℚ) := rfl
    rw [this]; exact_mod_cast hn
  -- same exponent
  have hlog : ilog2 ((n : ℚ) + 1/2) = ilog2 (n : ℚ) := by
    apply le_antisymm
    · have : ilog2 ((n : ℚ) + 1/2) < ilog2 (n : ℚ) + 1 := by
        rw [ilog2_lt_iff hpos]
        obtain ⟨k, hk⟩ : ∃ k : ℕ, ilog2 (n : ℚ) + 1 = (k : ℤ) := ⟨(ilog2 (n : ℚ) + 1).toNat, by omega⟩
        rw [hk, p2_nat] at a2 ⊢
        have : n < 2 ^ k := by exact_mod_cast a2
        have h2 : n + 1 ≤ 2 ^ k := this
        have h3 : (n : ℚ) + 1 ≤ ((2 ^ k : ℕ) : ℚ) := by exact_mod_cast h2
        linarith
      omega
    · exact ilog2_mono hnpos (by linarith)
  have hulp : b64.ulpExp ((n : ℚ) + 1/2) = b64.ulpExp (n : ℚ) := by unfold Fmt.ulpExp; rw [hlog]
  have hul : b64.ulpExp (n : ℚ) = ilog2 (n : ℚ) - 52 := by
    unfold Fmt.ulpExp
    show max (ilog2 (n : ℚ) - (53 - 1)) (-1074) = _
    omega
  have hp := p2_pos (b64.ulpExp (n : ℚ))
  have hform : (n : ℚ) = (rne (n / p2 (b64.ulpExp (n : ℚ))) : ℚ) * p2 (b64.ulpExp (n : ℚ)) := hrep.symm
  set u := p2 (b64.ulpExp (n : ℚ)) with hu
  set m := rne ((n : ℚ) / u) with hm
  have hdiv : (n : ℚ) / u = m := by rw [div_eq_iff hp.ne']; exact hform
  have goalr : rne (((n : ℚ) + 1/2) / u) = m := by
    rw [add_div, hdiv]
    rcases lt_or_ge n (2 ^ 53) with hlt | hge
    · -- u = 1, n even
      have hi : ilog2 (n : ℚ) < 53 := by
        rw [ilog2_lt_iff hnpos]
        have : p2 53 = ((2 ^ 53 : ℕ) : ℚ) := rfl
        rw [this]; exact_mod_cast hlt
      have hu1 : u = 1 := by
        rw [hu, hul, show ilog2 (n : ℚ) - 52 = 0 by omega]; rfl
      have hmn : (m : ℤ) = n := by
        rw [hu1, div_one] at hdiv
        exact_mod_cast hdiv.symm
      have hev := hpar hlt
      rw [hu1]
      unfold rne
      have hfl : ⌊(m : ℚ) + 1 / 2 / 1⌋ = m := by
        rw [Int.floor_eq_iff]; constructor <;> norm_num
      simp only [hfl]
      have : (m : ℚ) + 1 / 2 / 1 - m = 1/2 := by ring
      rw [this]
      simp only [lt_irrefl, if_false]
      rw [if_pos (by omega)]
    · have hi : 53 ≤ ilog2 (n : ℚ) := by
        rw [le_ilog2_iff hnpos]
        have : p2 53 = ((2 ^ 53 : ℕ) : ℚ) := rfl
        rw [this]; exact_mod_cast hge
      have hu2 : 2 ≤ u := by
        rw [hu, hul]
        have : p2 1 ≤ p2 (ilog2 (n : ℚ) - 52) := p2_le (by omega)
        exact this
      have hsm : 1 / 2 / u ≤ 1/4 := by
        rw [div_le_iff₀ (by linarith)]; linarith
      have hsm0 : 0 < 1 / 2 / u := by positivity
      unfold rne
      have hfl : ⌊(m : ℚ) + 1 / 2 / u⌋ = m := by
        rw [Int.floor_eq_iff]; constructor <;> linarith
      simp only [hfl]
      have : (m : ℚ) + 1 / 2 / u - m = 1 / 2 / u := by ring
      rw [this, if_pos (by linarith)]
  unfold Fmt.rndAbs
  rw [hulp, ← hu, goalr]
  exact hform.symm

/-- absolute error allowed for a result of magnitude `a` -/
def errB (a : ℚ) : ℚ := a * p2 (-53) + p2 (-1075)

theorem mul_err {x y : Fl} {a b : ℚ} (hx : x.toQ? = some a) (hy : y.toQ? = some b)
    (h : |a * b| ≤ p2 1000) :
    ∃ v, (Fl.mul b64 x y).toQ? = some v ∧ |v - a * b| ≤ errB |a * b| ∧
      (0 ≤ a * b → 0 ≤ v) ∧ (a * b ≤ 0 → v ≤ 0) := by
  unfold Fl.mul
  rw [hx, hy]
  simp only
  by_cases h0 : a * b = 0
  · rw [if_pos h0, h0]
    refine ⟨0, by unfold Fl.zero; split <;> rfl, ?_, fun _ => le_refl _, fun _ => le_refl _⟩
    simp [errB]; exact (p2_pos _).le
  · rw [if_neg h0]; exact rnd_err _ h

theorem div_err {x y : Fl} {a b : ℚ} (hx : x.toQ? = some a) (hy : y.toQ? = some b) (hb : b ≠ 0)
    (h : |a / b| ≤ p2 1000) :
    ∃ v, (Fl.div b64 x y).toQ? = some v ∧ |v - a / b| ≤ errB |a / b| ∧
      (0 ≤ a / b → 0 ≤ v) ∧ (a / b ≤ 0 → v ≤ 0) := by
  unfold Fl.div
  rw [hx, hy]
  simp only
  rw [if_neg hb]
  by_cases h0 : a = 0
  · rw [if_pos h0, h0]
    refine ⟨0, by unfold Fl.zero; split <;> rfl, ?_, fun _ => le_refl _, fun _ => le_refl _⟩
    simp [errB]; exact (p2_pos _).le
  · rw [if_neg h0]; exact rnd_err _ h

/-- a sum has the value of the rounded exact sum, up to the sign of zero -/
theorem add_toQ {x y : Fl} {a b : ℚ} (hx : x.toQ? = some a) (hy : y.toQ? = some b)
    (rx : x.Rep b64) (ry : y.Rep b64) : (Fl.add b64 x y).toQ? = (rnd b64 (a + b)).toQ? := by
  cases x <;> simp [Fl.toQ?] at hx <;> cases y <;> simp [Fl.toQ?] at hy <;> subst hx <;> subst hy
  · simp [Fl.add, Fl.toQ?, rnd]
  · simp only [Fl.add, zero_add]
    have : rnd b64 _ = _ := ry
    rw [this]
  · simp only [Fl.add, add_zero]
    have : rnd b64 _ = _ := rx
    rw [this]
  · rfl

theorem add_err {x y : Fl} {a b : ℚ} (hx : x.toQ? = some a) (hy : y.toQ? = some b)
    (rx : x.Rep b64) (ry : y.Rep b64) (h : |a + b| ≤ p2 1000) :
    ∃ v, (Fl.add b64 x y).toQ? = some v ∧ |v - (a + b)| ≤ errB |a + b| ∧
      (0 ≤ a + b → 0 ≤ v) ∧ (a + b ≤ 0 → v ≤ 0) := by
  rw [add_toQ hx hy rx ry]; exact rnd_err _ h

theorem rndAbs_idem (fmt : Fmt) (hprec : 1 ≤ fmt.prec) {a : ℚ} (ha : 0 < a)
    (hv : fmt.rndAbs a ≠ 0) : fmt.rndAbs (fmt.rndAbs a) = fmt.rndAbs a := by
  have hpos : 0 < fmt.rndAbs a := lt_of_le_of_ne (fmt.rndAbs_nonneg ha.le) (Ne.symm hv)
  refine fmt.rndAbs_exact hprec hpos (rne (a / p2 (fmt.ulpExp a))) (fmt.ulpExp a)
    (fmt.ulpExp_ge_emin a) ?_ rfl
  have h2 := (ilog2_spec ha).2
  have h3 : p2 (ilog2 a + 1) ≤ p2 (fmt.prec + fmt.ulpExp a) := by
    apply p2_le; unfold Fmt.ulpExp; omega
  rw [p2_add (fmt.prec : ℤ), p2_nat] at h3
  apply rne_le_of_le_int
  rw [div_le_iff₀ (p2_pos _)]
  push_cast at h3 ⊢
  linarith

/-- results of rounding are representable -/
theorem rnd_rep (fmt : Fmt) (hprec : 1 ≤ fmt.prec) (q : ℚ) : (rnd fmt q).Rep fmt := by
  by_cases h0 : q = 0
  · subst h0; simp [rnd, Fl.Rep]
  · have hpos : 0 < |q| := abs_pos.2 h0
    have hnn := fmt.rndAbs_nonneg hpos.le
    unfold rnd
    rw [if_neg h0]
    simp only
    split
    · trivial
    · rename_i hlt
      split
      · split
        · trivial
        · show rnd fmt 0 = _; simp [rnd]
      · rename_i hz
        have hid := rndAbs_idem fmt hprec hpos hz
        have hp : 0 < fmt.rndAbs |q| := lt_of_le_of_ne hnn (Ne.symm hz)
        split
        · show rnd fmt _ = _
          unfold rnd
          rw [if_neg (by simpa using hz), abs_neg, abs_of_pos hp]
          simp only [hid]
          rw [if_neg hlt, if_neg hz, if_pos (by linarith)]
        · show rnd fmt _ = _
          unfold rnd
          rw [if_neg hz, abs_of_pos hp]
          simp only [hid]
          rw [if_neg hlt, if_neg hz, if_neg (by linarith)]

theorem mul_rep (x y : Fl) : (Fl.mul b64 x y).Rep b64 := by
  unfold Fl.mul
  have hz : ∀ b, (Fl.zero b).Rep b64 := by intro b; cases b <;> simp [Fl.zero, Fl.Rep, rnd]
  split
  · split
    · exact hz _
    · exact rnd_rep _ (by decide) _
  · split
    · trivial
    · split <;> trivial
  · split
    · trivial
    · split <;> trivial
  · split
    · trivial
    · split <;> trivial

theorem div_rep (x y : Fl) : (Fl.div b64 x y).Rep b64 := by
  unfold Fl.div
  have hz : ∀ b, (Fl.zero b).Rep b64 := by intro b; cases b <;> simp [Fl.zero, Fl.Rep, rnd]
  split
  · split
    · split <;> trivial
    · split
      · exact hz _
      · exact rnd_rep _ (by decide) _
  · split
    · trivial
    · exact hz _
  · split <;> trivial
  · trivial

theorem add_rep {x y : Fl} (rx : x.Rep b64) (ry : y.Rep b64) : (Fl.add b64 x y).Rep b64 := by
  unfold Fl.add
  split
  · trivial
  · trivial
  · split <;> trivial
  · trivial
  · trivial
  · trivial
  · exact ry
  · exact rx
  · exact rnd_rep _ (by decide) _

end Go
