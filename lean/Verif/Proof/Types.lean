import Verif.Proof.FloatErr
import Verif.Proof.Duration
import Verif.Model.Types
/-! Lemmas about package `types`. -/

namespace Tricorder
open Go Spec Dur

theorem trunc_of_toQ {x : Fl} {v : ℚ} {n : ℤ} (h : x.toQ? = some v)
    (h1 : 0 ≤ n → (n : ℚ) ≤ v ∧ v < n + 1) (h2 : n < 0 → v ≤ n ∧ (n : ℚ) - 1 < v) :
    x.trunc = some n := by
  unfold Fl.trunc
  rw [h]
  simp only [Option.some.injEq]
  rcases lt_or_ge n 0 with hn | hn
  · obtain ⟨a, b⟩ := h2 hn
    have hnq : (n : ℚ) < 0 := by exact_mod_cast hn
    rw [if_pos (by linarith)]
    have : ⌊-v⌋ = -n := by
      rw [Int.floor_eq_iff]; push_cast; constructor <;> linarith
    rw [this]; omega
  · obtain ⟨a, b⟩ := h1 hn
    have hnq : (0 : ℚ) ≤ n := by exact_mod_cast hn
    rw [if_neg (by linarith)]
    rw [Int.floor_eq_iff]; exact ⟨a, b⟩

/-- the value is representable and `FromFloat`'s rounding does not move it -/
def SafeInt (x : ℤ) : Prop := 2 ^ 52 ≤ |x| → |x| < 2 ^ 53 → x % 2 = 0

theorem rnd_nat_rep {n : ℕ} (h : b64.rndAbs (n : ℚ) = n) (hlt : (n : ℚ) < p2 b64.emax) (hn : n ≠ 0) :
    rnd b64 (n : ℚ) = .fin n := by
  have hq : (n : ℚ) ≠ 0 := by exact_mod_cast hn
  have hnn : (0 : ℚ) ≤ n := by positivity
  unfold rnd
  rw [if_neg hq, abs_of_nonneg hnn]
  simp only [h]
  rw [if_neg (not_le.2 hlt), if_neg hq, if_neg (not_lt.2 hnn)]

/-- `round` then truncate gives the integer back -/
theorem roundF_trunc (x : ℤ) (hrep : rnd b64 (x : ℚ) = .fin (x : ℚ)) (hs : SafeInt x)
    (hb : |x| < 2 ^ 64) : (roundF (.fin (x : ℚ))).trunc = some x := by
  have half : (Fl.fin (1/2)).neg = .fin (-(1/2)) := by decide +kernel
  have e1 : p2 (-1) = 1/2 := by decide +kernel
  rcases lt_or_ge |x| (2 ^ 52) with hsmall | hbig
  · -- exactly representable
    rcases lt_or_ge x 0 with hx | hx
    · have hxq : (x : ℚ) < 0 := by exact_mod_cast hx
      have hl : Fl.lt (.fin (x : ℚ)) (.fin 0) = true := by simp [Fl.lt, hx]
      have hr : roundF (.fin (x : ℚ)) = .fin ((x : ℚ) - 1/2) := by
        unfold roundF
        rw [hl, if_pos rfl]
        unfold Fl.sub
        rw [half]
        show rnd b64 ((x : ℚ) + -(1/2)) = _
        rw [← sub_eq_add_neg]
        refine rnd_exact b64 (by decide) _ (2 * x - 1) (-1) (by decide) ?_ ?_ ?_
        · show |2 * x - 1| ≤ 2 ^ 53
          rw [abs_lt] at hsmall; rw [abs_le]; omega
        · rw [e1]; push_cast; ring
        · have : |(x : ℚ) - 1/2| ≤ p2 53 := by
            rw [show p2 53 = ((2 ^ 53 : ℤ) : ℚ) from rfl]
            rw [abs_lt] at hsmall
            have h1 : (-(2 ^ 52 : ℤ) : ℚ) < x := by exact_mod_cast hsmall.1
            rw [abs_le]; constructor <;> (norm_num at h1 ⊢; linarith)
          exact lt_of_le_of_lt this (p2_lt (by decide))
      rw [hr]
      exact trunc_of_toQ rfl (fun h => absurd hx (by omega))
        (fun _ => ⟨by linarith, by linarith⟩)
    · have hxq : (0 : ℚ) ≤ x := by exact_mod_cast hx
      have hl : Fl.lt (.fin (x : ℚ)) (.fin 0) = false := by simp [Fl.lt]; exact hx
      have hr : roundF (.fin (x : ℚ)) = .fin ((x : ℚ) + 1/2) := by
        unfold roundF
        rw [hl, if_neg (by simp)]
        show rnd b64 ((x : ℚ) + (1/2)) = _
        refine rnd_exact b64 (by decide) _ (2 * x + 1) (-1) (by decide) ?_ ?_ ?_
        · show |2 * x + 1| ≤ 2 ^ 53
          rw [abs_lt] at hsmall; rw [abs_le]; omega
        · rw [e1]; push_cast; ring
        · have : |(x : ℚ) + 1/2| ≤ p2 53 := by
            rw [show p2 53 = ((2 ^ 53 : ℤ) : ℚ) from rfl]
            rw [abs_lt] at hsmall
            have h1 : (x : ℚ) < (2 ^ 52 : ℤ) := by exact_mod_cast hsmall.2
            rw [abs_le]; constructor <;> (norm_num at h1 ⊢; linarith)
          exact lt_of_le_of_lt this (p2_lt (by decide))
      rw [hr]
      exact trunc_of_toQ rfl (fun _ => ⟨by linarith, by linarith⟩) (fun h => absurd hx (by omega))
  · -- the addition rounds back
    obtain ⟨n, hn⟩ : ∃ n : ℕ, (n : ℤ) = |x| := ⟨x.natAbs, (Int.abs_eq_natAbs x).symm⟩
    have hn52 : 2 ^ 52 ≤ n := by omega
    have hnx : (n : ℚ) = |(x : ℚ)| := by
      have : ((n : ℤ) : ℚ) = ((|x| : ℤ) : ℚ) := by rw [hn]
      push_cast at this; exact this
    have hxne : (x : ℚ) ≠ 0 := by
      intro h0
      have : x = 0 := by exact_mod_cast h0
      subst this; simp at hbig
    have hnpos : (0 : ℚ) < n := by rw [hnx]; exact abs_pos.2 hxne
    have hrepn : b64.rndAbs (n : ℚ) = n := by
      unfold rnd at hrep
      rw [if_neg hxne, ← hnx] at hrep
      simp only at hrep
      split at hrep
      · cases hrep
      · split at hrep
        · split at hrep
          · cases hrep
          · simp only [Fl.fin.injEq] at hrep; exact absurd hrep.symm hxne
        · simp only [Fl.fin.injEq] at hrep
          split at hrep
          · rename_i hneg; rw [abs_of_neg hneg] at hnx; linarith
          · rename_i hneg; rw [abs_of_nonneg (not_lt.1 hneg)] at hnx; linarith
    have hhalf := rndAbs_add_half hn52 hrepn (by
      intro h
      have := hs (by omega) (by omega)
      rcases abs_cases x with ⟨e, _⟩ | ⟨e, _⟩ <;> omega)
    have hltm : (n : ℚ) < p2 b64.emax := by
      have h1 : (n : ℚ) < p2 64 := by
        rw [show p2 64 = ((2 ^ 64 : ℕ) : ℚ) from rfl]
        have : n < 2 ^ 64 := by omega
        exact_mod_cast this
      exact lt_trans h1 (p2_lt (by decide))
    rcases lt_or_ge x 0 with hx | hx
    · have hxq : (x : ℚ) < 0 := by exact_mod_cast hx
      have hl : Fl.lt (.fin (x : ℚ)) (.fin 0) = true := by simp [Fl.lt, hx]
      rw [abs_of_neg hxq] at hnx
      have hr : roundF (.fin (x : ℚ)) = .fin (x : ℚ) := by
        unfold roundF
        rw [hl, if_pos rfl]
        unfold Fl.sub
        rw [half]
        show rnd b64 ((x : ℚ) + -(1/2)) = _
        have hneg : (x : ℚ) + -(1/2) < 0 := by linarith
        unfold rnd
        rw [if_neg hneg.ne, abs_of_neg hneg, show -((x : ℚ) + -(1/2)) = n + 1/2 by rw [hnx]; ring]
        simp only [hhalf]
        rw [if_neg (not_le.2 hltm), if_neg hnpos.ne', if_pos hneg, hnx]; simp
      rw [hr]
      exact trunc_of_toQ rfl (fun h => absurd hx (by omega)) (fun _ => ⟨le_refl _, by linarith⟩)
    · have hxq : (0 : ℚ) ≤ x := by exact_mod_cast hx
      have hl : Fl.lt (.fin (x : ℚ)) (.fin 0) = false := by simp [Fl.lt]; exact hx
      rw [abs_of_nonneg hxq] at hnx
      have hr : roundF (.fin (x : ℚ)) = .fin (x : ℚ) := by
        unfold roundF
        rw [hl, if_neg (by simp)]
        show rnd b64 ((x : ℚ) + (1/2)) = _
        have hpos : 0 < (x : ℚ) + (1/2) := by linarith
        unfold rnd
        rw [if_neg hpos.ne', abs_of_pos hpos, ← hnx]
        simp only [hhalf]
        rw [if_neg (not_le.2 hltm), if_neg hnpos.ne', if_neg]
        rw [hnx]; linarith
      rw [hr]
      exact trunc_of_toQ rfl (fun _ => ⟨le_refl _, by linarith⟩) (fun h => absurd hx (by omega))

theorem inRange_abs (k : IntKind) (x : ℤ) (h : k.InRange x) : |x| < 2 ^ 64 := by
  unfold IntKind.InRange at h
  cases k <;> simp [IntKind.signed, IntKind.bits] at h <;> rw [abs_lt] <;> omega

theorem fromFloatInt_ofInt (k : IntKind) (x : ℤ) (hr : k.InRange x)
    (hrep : rnd b64 (x : ℚ) = .fin (x : ℚ)) (hs : SafeInt x) :
    fromFloatInt k (Fl.ofInt b64 x) = .ok (.scalar none (.int k x)) := by
  unfold fromFloatInt Fl.ofInt Fl.toIntKind
  rw [hrep, roundF_trunc x hrep hs (inRange_abs k x hr)]
  simp [hr]

theorem small_int (k : IntKind) (x : ℤ) (h : k.InRange x) (hb : k.bits ≤ 32) :
    rnd b64 (x : ℚ) = .fin (x : ℚ) ∧ SafeInt x := by
  have hx : |x| < 2 ^ 32 := by
    unfold IntKind.InRange at h
    cases k <;> simp [IntKind.signed, IntKind.bits] at h hb <;> rw [abs_lt] <;> omega
  refine ⟨rnd_int x (by omega), ?_⟩
  unfold SafeInt; intro h1; omega

theorem eps_val : p2 (-53) = 1 / 9007199254740992 := by decide +kernel
theorem tiny_le : p2 (-1075) ≤ 1 / 1000000000000000000000000000000 := by
  have h : p2 (-1075) ≤ p2 (-100) := p2_le (by norm_num)
  have : p2 (-100) ≤ 1 / 1000000000000000000000000000000 := by decide +kernel
  linarith
theorem big_le : (1000000000000000000000000000000 : ℚ) ≤ p2 1000 := by
  have h : p2 100 ≤ p2 1000 := p2_le (by norm_num)
  have : (1000000000000000000000000000000 : ℚ) ≤ p2 100 := by decide +kernel
  linarith

theorem errB_le {a b : ℚ} (h : a ≤ b) :
    errB a ≤ b * (1 / 9007199254740992) + 1 / 1000000000000000000000000000000 := by
  unfold errB
  have h1 := tiny_le
  rw [eps_val]
  linarith

/-- the scaled back seconds of a duration -/
theorem dur_scaled (d : ℤ) (h : |d| ≤ 9223372036854775808) :
    ∃ v2, (Fl.mul b64 (durToFloat d) f1e9).toQ? = some v2 ∧
      |v2 - d| ≤ |(d : ℚ)| * (4 / 9007199254740992) + 1 / 1000000 ∧
      (|d| ≤ 9007199254740992 →
        |v2 - d| ≤ |(d : ℚ)| * (5 / 2 / 9007199254740992) + 1 / 1000000) := by
  have hdq : |(d : ℚ)| ≤ 9223372036854775808 := by exact_mod_cast h
  have hbig := big_le
  -- the conversion to float
  obtain ⟨v0, h0, e0, _, _⟩ := rnd_err (d : ℚ) (by linarith)
  have e0 : |v0 - d| ≤ errB |(d : ℚ)| := e0
  have b0 := errB_le (le_refl |(d : ℚ)|)
  have a0 := abs_sub_abs_le_abs_sub v0 (d : ℚ)
  have ab0 : |v0| ≤ |(d : ℚ)| * (1 + 1 / 9007199254740992) +
      1 / 1000000000000000000000000000000 := by linarith
  have exact0 : |d| ≤ 9007199254740992 → v0 = d := by
    intro hd
    have := rnd_int d (by omega)
    rw [this] at h0
    simp only [Fl.toQ?, Option.some.injEq] at h0
    exact h0.symm
  have hf : f1e9.toQ? = some 1000000000 := rfl
  have nn0 := abs_nonneg v0
  have nnd := abs_nonneg (d : ℚ)
  have ad1 : |v0 / 1000000000| = |v0| / 1000000000 := by rw [abs_div]; norm_num
  obtain ⟨v1, h1, e1, _, _⟩ := div_err (x := Fl.ofInt b64 d) h0 hf (by norm_num)
    (by rw [ad1]; linarith)
  have b1 := errB_le (le_of_eq ad1)
  have ad2 : |v1 * 1000000000| = |v1| * 1000000000 := by rw [abs_mul]; norm_num
  have a1 := abs_sub_abs_le_abs_sub v1 (v0 / 1000000000)
  have ab1 : |v1| ≤ |v0| / 1000000000 * (1 + 1 / 9007199254740992) +
      1 / 1000000000000000000000000000000 := by linarith
  obtain ⟨v2, h2, e2, _, _⟩ := mul_err (x := durToFloat d) h1 hf (by rw [ad2]; linarith)
  have b2 := errB_le (le_of_eq ad2)
  refine ⟨v2, h2, ?_, ?_⟩
  · rw [abs_le] at e0 e1 e2 ⊢
    constructor <;> linarith
  · intro hd
    have hv := exact0 hd
    rw [hv] at e1 b1 ab1 ad1 a1
    rw [abs_le] at e1 e2 ⊢
    constructor <;> linarith

theorem durToFloat_rep (d : ℤ) : (durToFloat d).Rep b64 := div_rep _ _

theorem half_rep : (Fl.fin (1/2)).Rep b64 := by
  show rnd b64 (1/2) = _; decide +kernel

/-- round trip of durations below about 13 days: exact when not negative, one nanosecond too high
when negative -/
theorem dur_roundtrip (d : ℤ) (h : |d| < 2 ^ 50) :
    durFromFloat (durToFloat d) = some (if d < 0 then d + 1 else d) := by
  have h50 : |d| < 1125899906842624 := by simpa using h
  obtain ⟨v2, h2, _, e2⟩ := dur_scaled d (by omega)
  have e2 := e2 (by omega)
  have hdq : |(d : ℚ)| ≤ 1125899906842624 := by
    have : |d| ≤ 1125899906842624 := by omega
    exact_mod_cast this
  have e3 : |v2 - d| ≤ 3/8 := by linarith
  rw [abs_le] at e3
  have ex : ∀ j : ℤ, 0 ≤ j → j ≤ 7 → (rnd b64 ((d : ℚ) + j / 8)).toQ? = some ((d : ℚ) + j / 8) := by
    intro j j0 j7
    have : rnd b64 ((d : ℚ) + j / 8) = .fin ((d : ℚ) + j / 8) := by
      refine rnd_exact b64 (by decide) _ (8 * d + j) (-3) (by decide) ?_ ?_ ?_
      · show |8 * d + j| ≤ 2 ^ 53
        rw [abs_lt] at h50; rw [abs_le]; constructor <;> omega
      · have : p2 (-3) = 1/8 := by decide +kernel
        rw [this]; push_cast; ring
      · have hb := big_le
        have hjq : (0 : ℚ) ≤ j := by exact_mod_cast j0
        have hjq7 : (j : ℚ) ≤ 7 := by exact_mod_cast j7
        have : |(d : ℚ) + j / 8| ≤ p2 1000 := by
          rw [abs_le] at hdq ⊢; constructor <;> linarith
        exact lt_of_le_of_lt this (p2_lt (by decide))
    rw [this]; rfl
  obtain ⟨v3, h3, _, _, _⟩ := add_err h2 (b := 1/2) rfl (mul_rep _ _) half_rep (by
    have hb := big_le
    rw [abs_le] at hdq ⊢; constructor <;> linarith)
  have h3' := h3
  rw [add_toQ h2 (b := 1/2) rfl (mul_rep _ _) half_rep] at h3'
  have lo := rnd_toQ_mono (q := (d : ℚ) + (1 : ℤ) / 8) (r := v2 + 1/2) (by push_cast; linarith)
    (ex 1 (by norm_num) (by norm_num)) h3'
  have hi := rnd_toQ_mono (q := v2 + 1/2) (r := (d : ℚ) + (7 : ℤ) / 8) (by push_cast; linarith)
    h3' (ex 7 (by norm_num) (by norm_num))
  push_cast at lo hi
  have htr : (Fl.add b64 (Fl.mul b64 (durToFloat d) f1e9) (.fin (1/2))).trunc =
      some (if d < 0 then d + 1 else d) := by
    unfold Fl.trunc
    rw [h3]
    simp only [Option.some.injEq]
    rcases lt_or_ge d 0 with hd | hd
    · have hdq' : (d : ℚ) + 1 ≤ 0 := by exact_mod_cast hd
      rw [if_pos hd, if_pos (by linarith)]
      have : ⌊-v3⌋ = -d - 1 := by
        rw [Int.floor_eq_iff]; push_cast; constructor <;> linarith
      rw [this]; ring
    · have hdq' : (0 : ℚ) ≤ d := by exact_mod_cast hd
      rw [if_neg (not_lt.2 hd), if_neg (by linarith)]
      rw [Int.floor_eq_iff]; constructor <;> linarith
  unfold durFromFloat Fl.toIntKind
  rw [htr]
  simp only
  rw [if_pos]
  rw [abs_lt] at h50
  unfold IntKind.InRange
  simp only [IntKind.signed, IntKind.bits, if_true]
  split <;> omega

theorem trunc_close {x : Fl} {v : ℚ} (h : x.toQ? = some v) :
    ∃ n : ℤ, x.trunc = some n ∧ |(n : ℚ) - v| < 1 ∧ (0 ≤ v → 0 ≤ n) ∧ (v ≤ 0 → n ≤ 0) := by
  unfold Fl.trunc
  rw [h]
  refine ⟨_, rfl, ?_, ?_, ?_⟩
  · split
    · have h1 := Int.floor_le (-v); have h2 := Int.lt_floor_add_one (-v)
      push_cast; rw [abs_lt]; constructor <;> linarith
    · have h1 := Int.floor_le v; have h2 := Int.lt_floor_add_one v
      rw [abs_lt]; constructor <;> linarith
  · intro h0; rw [if_neg (not_lt.2 h0)]; exact Int.floor_nonneg.2 h0
  · intro h0
    split
    · have : 0 ≤ ⌊-v⌋ := Int.floor_nonneg.2 (by linarith)
      omega
    · rename_i hv
      have : v = 0 := le_antisymm h0 (not_lt.1 hv)
      rw [this]; simp

theorem i64range {n : ℤ} (h : |(n : ℚ)| ≤ 9000000000000000000) : IntKind.int64.InRange n := by
  have : |n| ≤ 9000000000000000000 := by exact_mod_cast h
  rw [abs_le] at this
  unfold IntKind.InRange
  simp only [IntKind.signed, IntKind.bits, if_true]
  omega

theorem i32range {n : ℤ} (h : |(n : ℚ)| ≤ 2000000000) : IntKind.int32.InRange n := by
  have : |n| ≤ 2000000000 := by exact_mod_cast h
  rw [abs_le] at this
  unfold IntKind.InRange
  simp only [IntKind.signed, IntKind.bits, if_true]
  omega

/-- durations up to 146 years keep 50 significant bits -/
theorem dur_close (d : ℤ) (h : |d| ≤ 2 ^ 62) :
    ∃ r, durFromFloat (durToFloat d) = some r ∧
      |(r : ℚ) - d| ≤ 2 + |(d : ℚ)| / 2 ^ 50 := by
  have h62 : |d| ≤ 4611686018427387904 := by simpa using h
  obtain ⟨v2, h2, e2, _⟩ := dur_scaled d (by omega)
  have hdq : |(d : ℚ)| ≤ 4611686018427387904 := by exact_mod_cast h62
  have hb := big_le
  have nnd := abs_nonneg (d : ℚ)
  have a2 := abs_sub_abs_le_abs_sub v2 (d : ℚ)
  have av2 : |v2| ≤ |(d : ℚ)| * (1 + 4 / 9007199254740992) + 1 / 1000000 := by linarith
  have ab2 : |v2 + 1/2| ≤ |v2| + 1/2 := by
    refine le_trans (abs_add_le _ _) ?_
    norm_num
  obtain ⟨v3, h3, e3, _, _⟩ := add_err h2 (b := 1/2) rfl (mul_rep _ _) half_rep (by linarith)
  have b3 := errB_le ab2
  obtain ⟨n, hn, en, _, _⟩ := trunc_close h3
  have hclose : |(n : ℚ) - d| ≤ 2 + |(d : ℚ)| / 2 ^ 50 := by
    norm_num
    rw [abs_le] at e2 e3 ⊢
    rw [abs_lt] at en
    constructor <;> linarith
  refine ⟨n, ?_, hclose⟩
  unfold durFromFloat Fl.toIntKind
  rw [hn]
  simp only
  rw [if_pos]
  apply i64range
  have an := abs_sub_abs_le_abs_sub (n : ℚ) (d : ℚ)
  norm_num at hclose
  linarith

/-- value of the constant `1e-9` -/
theorem f1em9_val : ∃ c, f1em9 = .fin c ∧ |c - 1 / 1000000000| ≤ 1 / 1000000000000000000000000 := by
  refine ⟨_, (by decide +kernel : f1em9 = .fin (4835703278458517 / 4835703278458516698824704)), ?_⟩
  rw [abs_le]; constructor <;> norm_num

theorem unix_ns (s n : ℤ) (hs : |s| ≤ 9000000000000000000) (hn : |n| ≤ 2000000000) :
    instantNs (Time.unix s n) = s * 1000000000 + n ∧ (Time.unix s n).Valid := by
  rw [abs_le] at hs hn
  unfold Time.unix
  have hq : quo n 1000000000 = if 0 ≤ n then n / 1000000000 else -((-n) / 1000000000) := by
    split
    · rename_i h; rw [quo_nonneg _ h]
    · rename_i h; rw [quo_neg _ (by omega)]
  unfold instantNs Time.Valid InI64
  split
  · simp only
    have e1 : i64 (s + quo n 1000000000) = s + quo n 1000000000 := i64_eq (by unfold InI64; omega)
    rw [e1]
    have e2 : i64 (s + quo n 1000000000 - 1) = s + quo n 1000000000 - 1 :=
      i64_eq (by unfold InI64; omega)
    split
    · simp only [e2]; omega
    · simp only; omega
  · refine ⟨rfl, ?_⟩
    show (-9223372036854775808 ≤ s ∧ s ≤ 9223372036854775807) ∧ 0 ≤ n ∧ n < 1000000000
    omega

theorem ofInt_toQ (x : ℤ) (h : |x| ≤ 2 ^ 53) : Fl.ofInt b64 x = .fin (x : ℚ) := rnd_int x h

/-- seconds since the epoch as a float -/
theorem timeToFloat_close (t : Time) (hv : t.Valid) (ht : |t.sec| ≤ 2 ^ 52) :
    ∃ v, (timeToFloat t).toQ? = some v ∧
      |v - (instantNs t : ℚ) / 1000000000| ≤
        |(instantNs t : ℚ) / 1000000000| * (1 / 9007199254740992) + 1 / 1000000000000 := by
  obtain ⟨h1, h2, _, _⟩ := sinceEpoch_spec t hv
  have hb := big_le
  unfold timeToFloat Dur.asFloat
  rw [← h2]
  set d := Dur.sinceEpoch t with hd
  have hsec : |d.sec| ≤ 4503599627370497 := by
    have : |t.sec| ≤ 4503599627370496 := by simpa using ht
    have hh : t.sec ≤ d.sec ∧ d.sec ≤ t.sec + 1 := by
      unfold Coherent at h1; unfold ns instantNs at h2; unfold Time.Valid at hv
      omega
    rw [abs_le] at *; omega
  have hnsec : |d.nsec| ≤ 999999999 := by
    unfold Coherent at h1; rw [abs_le]; omega
  obtain ⟨c, hc, ec⟩ := f1em9_val
  rw [ofInt_toQ d.sec (by omega), ofInt_toQ d.nsec (by omega), hc]
  have hsq : |(d.sec : ℚ)| ≤ 4503599627370497 := by exact_mod_cast hsec
  have hnq : |(d.nsec : ℚ)| ≤ 999999999 := by exact_mod_cast hnsec
  have hcabs : |c| ≤ 1 / 500000000 := by rw [abs_le] at ec ⊢; constructor <;> linarith
  have hnc : |(d.nsec : ℚ) * c| ≤ 2 := by
    rw [abs_mul]
    calc |(d.nsec : ℚ)| * |c| ≤ 999999999 * (1 / 500000000) :=
          mul_le_mul hnq hcabs (abs_nonneg _) (by norm_num)
      _ ≤ 2 := by norm_num
  have hprod : |(d.nsec : ℚ) * c - d.nsec / 1000000000| ≤ 1 / 1000000000000000 := by
    have : (d.nsec : ℚ) * c - d.nsec / 1000000000 = d.nsec * (c - 1 / 1000000000) := by ring
    rw [this, abs_mul]
    calc |(d.nsec : ℚ)| * |c - 1 / 1000000000| ≤ 999999999 * (1 / 1000000000000000000000000) :=
          mul_le_mul hnq ec (abs_nonneg _) (by norm_num)
      _ ≤ _ := by norm_num
  obtain ⟨v1, g1, e1, _, _⟩ := mul_err (x := .fin (d.nsec : ℚ)) (y := .fin c) rfl rfl (by linarith)
  have b1 := errB_le hnc
  have hsr : (Fl.fin (d.sec : ℚ)).Rep b64 := rnd_int d.sec (by omega)
  have hv1 : |v1 - d.nsec / 1000000000| ≤ 1 / 100000000000000 := by
    rw [abs_le] at e1 hprod ⊢; constructor <;> linarith
  have hX : (ns d : ℚ) / 1000000000 = d.sec + d.nsec / 1000000000 := by
    unfold ns; push_cast; ring
  rw [hX]
  set X : ℚ := d.sec + d.nsec / 1000000000 with hXd
  have hcl : |(d.sec + v1) - X| ≤ 1 / 100000000000000 := by
    rw [hXd]; rw [show (d.sec : ℚ) + v1 - (d.sec + d.nsec / 1000000000) = v1 - d.nsec / 1000000000 by ring]
    exact hv1
  have hab := abs_sub_abs_le_abs_sub ((d.sec : ℚ) + v1) X
  have hXabs : |X| ≤ 4503599627370498 := by
    rw [hXd]; rw [abs_le] at hsq hnq ⊢; constructor <;> linarith
  obtain ⟨v2, g2, e2, _, _⟩ := add_err (x := .fin (d.sec : ℚ)) rfl g1 hsr (mul_rep _ _) (by linarith)
  have b2 := errB_le (a := |(d.sec : ℚ) + v1|) (b := |X| + 1 / 100000000000000) (by linarith)
  refine ⟨v2, g2, ?_⟩
  rw [abs_le] at e2 hcl ⊢
  constructor <;> linarith

/-- converting seconds back to an instant truncates to the nanosecond -/
theorem floatToTime_close {f : Fl} {v : ℚ} (hf : f.toQ? = some v) (hv : |v| ≤ 8000000000000000000) :
    ∃ t, floatToTime f = some t ∧ t.Valid ∧ |(instantNs t : ℚ) - v * 1000000000| ≤ 2 := by
  unfold floatToTime Dur.sinceEpochFloat
  rw [hf]
  simp only
  have htr := trunc_close hf
  unfold Fl.trunc at htr
  rw [hf] at htr
  simp only [Option.some.injEq] at htr
  obtain ⟨ii, hii, c1, c2, c3⟩ := htr
  rw [hii]
  have hb := big_le
  have h64 : Fl.toIntKind .int64 (.fin (ii : ℚ)) = some ii := by
    unfold Fl.toIntKind
    rw [trunc_of_toQ (n := ii) rfl (fun _ => ⟨le_refl _, by linarith⟩)
      (fun _ => ⟨le_refl _, by linarith⟩)]
    simp only
    rw [if_pos]
    apply i64range
    rw [abs_lt] at c1; rw [abs_le] at hv ⊢; constructor <;> linarith
  rw [h64]
  set ff : Fl := if v - (ii : ℚ) = 0 then Fl.zero f.sign else .fin (v - ii) with hff
  have hffQ : ff.toQ? = some (v - ii) := by
    rw [hff]; split
    · rename_i h0; rw [h0]; unfold Fl.zero; split <;> rfl
    · rfl
  have habs : |(v - ii) * 1000000000| ≤ 1000000000 := by
    rw [abs_mul]
    have : |v - (ii : ℚ)| < 1 := by rw [abs_sub_comm]; exact c1
    have e : |(1000000000 : ℚ)| = 1000000000 := by norm_num
    rw [e]; linarith
  obtain ⟨w, hw, ew, _, _⟩ := mul_err hffQ (y := f1e9) (b := 1000000000) rfl (by linarith)
  have bw := errB_le habs
  obtain ⟨n, hn, en, _, _⟩ := trunc_close hw
  have hnabs : |(n : ℚ)| ≤ 2000000000 := by
    rw [abs_lt] at en; rw [abs_le] at ew habs ⊢; constructor <;> linarith
  have h32 : Fl.toIntKind .int32 (Fl.mul b64 ff f1e9) = some n := by
    unfold Fl.toIntKind
    rw [hn]
    simp only
    rw [if_pos (i32range hnabs)]
  rw [h32]
  simp only [Option.map_some, Dur.asGoTime]
  have hii9 : |ii| ≤ 9000000000000000000 := by
    have : |(ii : ℚ)| ≤ 9000000000000000000 := by
      rw [abs_lt] at c1; rw [abs_le] at hv ⊢; constructor <;> linarith
    exact_mod_cast this
  have hn2 : |n| ≤ 2000000000 := by exact_mod_cast hnabs
  obtain ⟨u1, u2⟩ := unix_ns ii n hii9 hn2
  refine ⟨_, rfl, u2, ?_⟩
  rw [u1]
  push_cast
  rw [abs_lt] at en; rw [abs_le] at ew ⊢
  constructor <;> linarith

end Tricorder
