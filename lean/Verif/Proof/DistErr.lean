import Verif.Proof.DistApi
/-! # Rounding errors of sum, average and median -/

namespace Tricorder
open Go Arith Spec

/-- sum of the exact values -/
def sumQ (vs : List Fl) : ℚ := (vs.map val).sum
/-- sum of the magnitudes -/
def magQ (vs : List Fl) : ℚ := (vs.map fun v => |val v|).sum

theorem sumQ_cons (v : Fl) (vs : List Fl) : sumQ (v :: vs) = val v + sumQ vs := by simp [sumQ]
theorem magQ_cons (v : Fl) (vs : List Fl) : magQ (v :: vs) = |val v| + magQ vs := by simp [magQ]

theorem sum_erase_q {α : Type} [DecidableEq α] (f : α → ℚ) {vs : List α} {v : α} (h : v ∈ vs) :
    ((vs.erase v).map f).sum + f v = (vs.map f).sum := by
  induction vs with
  | nil => simp at h
  | cons w vs ih =>
    by_cases hwv : w = v
    · subst hwv; simp [add_comm]
    · have : v ∈ vs := by rcases List.mem_cons.1 h with h | h; exact absurd h.symm hwv; exact h
      rw [List.erase_cons_tail (by simpa using hwv)]
      simp only [List.map_cons, List.sum_cons]
      have := ih this
      linarith

theorem abs_sumQ_le (vs : List Fl) : |sumQ vs| ≤ magQ vs := by
  induction vs with
  | nil => simp [sumQ, magQ]
  | cons v vs ih =>
    rw [sumQ_cons, magQ_cons]
    exact le_trans (abs_add_le _ _) (by linarith)

theorem magQ_nonneg (vs : List Fl) : 0 ≤ magQ vs := le_trans (abs_nonneg _) (abs_sumQ_le vs)

theorem magQ_erase {v : Fl} {vs : List Fl} (h : v ∈ vs) : magQ (vs.erase v) + |val v| = magQ vs :=
  sum_erase_q (fun v => |val v|) h

theorem sumQ_erase {v : Fl} {vs : List Fl} (h : v ∈ vs) : sumQ (vs.erase v) + val v = sumQ vs :=
  sum_erase_q val h

/-- finite and representable -/
def Finite (v : Fl) : Prop := v.Rep b64 ∧ v.toQ? ≠ none

theorem Finite.val {v : Fl} (h : Finite v) : v.toQ? = some (val v) := by
  obtain ⟨_, h⟩ := h
  unfold Tricorder.val
  cases hv : v.toQ? with
  | none => exact absurd hv h
  | some q => rfl

theorem fin_of {v : Fl} {q : ℚ} (hr : v.Rep b64) (h : v.toQ? = some q) : Finite v ∧ val v = q := by
  refine ⟨⟨hr, by rw [h]; simp⟩, ?_⟩
  unfold val; rw [h]; rfl

/-- error of one operation on the total when the magnitudes involved are at most `M` -/
def stepErr (M : ℚ) : ℚ := M * p2 (-50) + p2 (-1073)

theorem p2_53 : p2 (-53) = 1 / 9007199254740992 := by rw [p2_eq]; norm_num
theorem p2_50 : p2 (-50) = 1 / 1125899906842624 := by rw [p2_eq]; norm_num
theorem p2_1073 : p2 (-1073) = 4 * p2 (-1075) := by
  rw [show (-1073 : ℤ) = 2 + -1075 by norm_num, p2_add]
  congr 1
theorem p2_small : p2 (-1075) ≤ 1 / 1125899906842624 := by
  rw [← p2_50]; exact p2_le (by norm_num)

theorem add_fin {x y : Fl} (hx : Finite x) (hy : Finite y) (h : |val x + val y| ≤ p2 1000) :
    Finite (Fl.add b64 x y) ∧
      |val (Fl.add b64 x y) - (val x + val y)| ≤ |val x + val y| * p2 (-53) + p2 (-1075) := by
  obtain ⟨v, h1, h2, _⟩ := add_err hx.val hy.val hx.1 hy.1 h
  obtain ⟨h3, h4⟩ := fin_of (add_rep hx.1 hy.1) h1
  exact ⟨h3, by rw [h4]; exact h2⟩

theorem neg_fin {x : Fl} (hx : Finite x) : Finite x.neg ∧ val x.neg = -val x :=
  fin_of (neg_rep hx.1) (neg_toQ x _ hx.val)

theorem sub_fin {x y : Fl} (hx : Finite x) (hy : Finite y) (h : |val x - val y| ≤ p2 1000) :
    Finite (Fl.sub b64 x y) ∧
      |val (Fl.sub b64 x y) - (val x - val y)| ≤ |val x - val y| * p2 (-53) + p2 (-1075) := by
  obtain ⟨h1, h2⟩ := neg_fin hy
  have := add_fin hx h1 (by rw [h2, ← sub_eq_add_neg]; exact h)
  rw [h2, ← sub_eq_add_neg] at this
  exact this

theorem total_step {M t s e x : ℚ} {T X : Fl} (hM : 0 ≤ M) (hM2 : M ≤ p2 900) (he : e ≤ M / 4 + 1)
    (hT : Finite T) (hX : Finite X) (ht : val T = t) (hx : |val X - x| ≤ 2 * M * p2 (-53) + p2 (-1075))
    (hs : |s| ≤ M) (hx2 : |x| ≤ 2 * M) (hd : |t - s| ≤ e) (hd2 : e ≤ M / 4 + p2 (-1025)) :
    Finite (Fl.add b64 T X) ∧ |val (Fl.add b64 T X) - (s + x)| ≤ e + stepErr M := by
  have p53 := p2_53
  have p50 := p2_50
  have psm := p2_small
  have p1073 := p2_1073
  have ppos := p2_pos (-1075)
  have p1025 : p2 (-1025) = 1125899906842624 * p2 (-1075) := by
    rw [show (-1025 : ℤ) = 50 + -1075 by norm_num, p2_add]
    congr 1
  have p900 : p2 900 * 1024 ≤ p2 1000 := by
    rw [show (1024 : ℚ) = p2 10 by rw [p2_eq]; norm_num, ← p2_add]
    exact p2_le (by norm_num)
  have hone : (1 : ℚ) ≤ p2 900 := by
    rw [show (1 : ℚ) = p2 0 by rfl]; exact p2_le (by norm_num)
  unfold stepErr
  rw [p50, p1073]
  rw [p53] at hx
  set δ := p2 (-1075) with hδ
  have hX2 : |val X| ≤ |val X - x| + |x| := by
    have := abs_add_le (val X - x) x; simpa using this
  have ht2 : |val T| ≤ |t - s| + |s| := by
    rw [ht]; have := abs_add_le (t - s) s; simpa using this
  have hTX : |val T + val X| ≤ 4 * M + 1125899906842626 * δ := by
    have := abs_add_le (val T) (val X)
    linarith
  have hTX2 : |val T + val X| ≤ p2 1000 := by linarith
  obtain ⟨f1, f2⟩ := add_fin hT hX hTX2
  refine ⟨f1, ?_⟩
  rw [p53] at f2
  have e1 : val (Fl.add b64 T X) - (s + x) =
      (val (Fl.add b64 T X) - (val T + val X)) + ((t - s) + (val X - x)) := by rw [ht]; ring
  rw [e1]
  have a1 := abs_add_le (val (Fl.add b64 T X) - (val T + val X)) ((t - s) + (val X - x))
  have a2 := abs_add_le (t - s) (val X - x)
  linarith

theorem ops_sum_err {M : ℚ} (hM2 : M ≤ p2 900) (n : ℕ) (hn : n ≤ 2 ^ 48) {d : Dist Fl} {vs ws : List Fl}
    (ops : List (DOp Fl)) (k : ℕ) (hk : k + ops.length ≤ n) (h : CInv d vs)
    (hb : vs.length + ops.length < 18446744073709551615)
    (hnc : d.isNotCumulative = true ∨ ops.all isAddOp = true) (hcur : current vs ops = some ws)
    (hg0 : ∀ v ∈ vs, Finite v) (hg : ∀ v ∈ mentioned ops, Finite v)
    (hbud : magQ vs + magQ (mentioned ops) ≤ M)
    (hrep : Finite d.total) (htot : |val d.total - sumQ vs| ≤ k * stepErr M) :
    Finite (d.ops ops).total ∧
      |val (d.ops ops).total - sumQ ws| ≤ (k + ops.length : ℕ) * stepErr M ∧
      (∀ v ∈ ws, Finite v) ∧ magQ ws ≤ M := by
  induction ops generalizing d vs k with
  | nil =>
    simp only [current, Option.some.injEq] at hcur
    subst hcur
    refine ⟨hrep, by simpa [Dist.ops] using htot, hg0, ?_⟩
    have := magQ_nonneg (mentioned ([] : List (DOp Fl))); linarith
  | cons op ops ih =>
    obtain ⟨vs', h1, h2⟩ := current_cons vs op ops ws hcur
    simp only [List.length_cons] at hb hk
    have hnc1 : d.isNotCumulative = true ∨ isAddOp op = true := by
      rcases hnc with hnc | hnc
      · exact Or.inl hnc
      · simp at hnc; exact Or.inr hnc.1
    obtain ⟨g1, g2, g3, g4, g5⟩ := op_good h (by omega) op hnc1 h1
    have hl := current_length vs op vs' h1
    have hc := op_const d op
    have hnc2 : (d.op op).1.isNotCumulative = true ∨ ops.all isAddOp = true := by
      rw [hc.2.1]
      rcases hnc with hnc | hnc
      · exact Or.inl hnc
      · simp at hnc; exact Or.inr (by simpa using hnc.2)
    have hsv := abs_sumQ_le vs
    have hmv := magQ_nonneg vs
    have hmo := magQ_nonneg (mentioned ops)
    have hM : 0 ≤ M := by have := magQ_nonneg (mentioned (op :: ops)); linarith
    have hkq : ((k : ℕ) : ℚ) ≤ 281474976710656 := by
      have h48 : k ≤ 281474976710656 := by omega
      have : ((k : ℕ) : ℚ) ≤ ((281474976710656 : ℕ) : ℚ) := Nat.cast_le.2 h48
      rwa [Nat.cast_ofNat] at this
    have hk0 : (0 : ℚ) ≤ k := Nat.cast_nonneg k
    have hke : (k : ℚ) * stepErr M ≤ M / 4 + p2 (-1025) := by
      unfold stepErr
      have p1025 : p2 (-1025) = 1125899906842624 * p2 (-1075) := by
        rw [show (-1025 : ℤ) = 50 + -1075 by norm_num, p2_add]
        congr 1
      rw [p2_50, p2_1073, p1025]
      have ppos := p2_pos (-1075)
      have h1 : (k : ℚ) * (M * (1 / 1125899906842624)) ≤ 281474976710656 * (M * (1 / 1125899906842624)) :=
        mul_le_mul_of_nonneg_right hkq (by positivity)
      have h2 : (k : ℚ) * (4 * p2 (-1075)) ≤ 281474976710656 * (4 * p2 (-1075)) :=
        mul_le_mul_of_nonneg_right hkq (by linarith)
      rw [mul_add]; linarith
    have hke1 : (k : ℚ) * stepErr M ≤ M / 4 + 1 := by
      have : p2 (-1025) ≤ p2 0 := p2_le (by norm_num)
      have e : p2 0 = 1 := rfl
      linarith
    have hstep : ∀ (T : Fl) (vs' : List Fl), (d.op op).1.total = T → Finite T →
        |val T - sumQ vs'| ≤ k * stepErr M + stepErr M →
        Finite (d.op op).1.total ∧ |val (d.op op).1.total - sumQ vs'| ≤ (k + 1 : ℕ) * stepErr M := by
      intro T vs' hT hf he
      rw [hT]; refine ⟨hf, ?_⟩
      push_cast; linarith
    have hlen : (k + (op :: ops).length : ℕ) = (k + 1) + ops.length := by simp; omega
    rw [hlen]
    show Finite ((d.op op).1.ops ops).total ∧ |val ((d.op op).1.ops ops).total - _| ≤ _ ∧ _
    cases op with
    | add v ts =>
      simp only [current, Option.some.injEq] at h1
      subst h1
      simp only [mentioned, List.mem_cons, magQ_cons] at hg hbud
      have hv := hg v (Or.inl rfl)
      have hav := abs_nonneg (val v)
      have hnn : 0 ≤ 2 * M * p2 (-53) + p2 (-1075) :=
        add_nonneg (mul_nonneg (by linarith) (p2_pos _).le) (p2_pos _).le
      obtain ⟨r1, r2⟩ := total_step hM hM2 hke1 hrep hv rfl (x := val v)
        (by rw [sub_self, abs_zero]; exact hnn) (by linarith) (by linarith) htot hke
      obtain ⟨t1, t2⟩ := hstep _ (v :: vs) g3 r1 (by rw [sumQ_cons, add_comm (val v)]; exact r2)
      refine ih (k + 1) (by omega) g2 (by omega) hnc2 h2 ?_ (fun x hx => hg x (Or.inr hx)) ?_ t1 t2
      · intro x hx; rcases List.mem_cons.1 hx with rfl | hx
        · exact hv
        · exact hg0 x hx
      · rw [magQ_cons]; linarith
    | remove v ts =>
      simp only [current] at h1
      split at h1 <;> simp at h1
      next hm =>
      subst h1
      simp only [mentioned] at hg hbud
      have hv := hg0 v hm
      have hse := sumQ_erase hm
      have hme := magQ_erase hm
      have hmn := magQ_nonneg (vs.erase v)
      have hav := abs_nonneg (val v)
      have hnn : 0 ≤ 2 * M * p2 (-53) + p2 (-1075) :=
        add_nonneg (mul_nonneg (by linarith) (p2_pos _).le) (p2_pos _).le
      obtain ⟨n1, n2⟩ := neg_fin hv
      obtain ⟨r1, r2⟩ := total_step hM hM2 hke1 hrep n1 rfl (x := -val v)
        (by rw [n2, sub_self, abs_zero]; exact hnn) (by linarith) (by rw [abs_neg]; linarith) htot hke
      obtain ⟨t1, t2⟩ := hstep (Fl.add b64 d.total v.neg) (vs.erase v) g3 r1
        (by rw [show sumQ (vs.erase v) = sumQ vs + -val v by linarith]; exact r2)
      exact ih (k + 1) (by omega) g2 (by omega) hnc2 h2 (fun x hx => hg0 x (List.mem_of_mem_erase hx))
        hg (by linarith) t1 t2
    | update o n' ts =>
      simp only [current] at h1
      split at h1 <;> simp at h1
      next hm =>
      subst h1
      simp only [mentioned, List.mem_cons, magQ_cons] at hg hbud
      have ho := hg0 o hm
      have hn' := hg n' (Or.inl rfl)
      have hse := sumQ_erase hm
      have hme := magQ_erase hm
      have hmn := magQ_nonneg (vs.erase o)
      have hav := abs_nonneg (val o)
      have han := abs_nonneg (val n')
      have hpp2 := p2_pos (-53)
      have hdiff : |val n' - val o| ≤ 2 * M := by
        have := abs_sub (val n') (val o); linarith
      have p900 : p2 900 * 1024 ≤ p2 1000 := by
        rw [show (1024 : ℚ) = p2 10 by rw [p2_eq]; norm_num, ← p2_add]
        exact p2_le (by norm_num)
      have hp9 := p2_pos 900
      obtain ⟨s1, s2⟩ := sub_fin hn' ho (by linarith)
      obtain ⟨r1, r2⟩ := total_step hM hM2 hke1 hrep s1 rfl (x := val n' - val o)
        (by nlinarith) (by linarith) hdiff htot hke
      obtain ⟨t1, t2⟩ := hstep (Fl.add b64 d.total (Fl.sub b64 n' o)) (n' :: vs.erase o) g3 r1
        (by rw [show sumQ (n' :: vs.erase o) = sumQ vs + (val n' - val o) by rw [sumQ_cons]; linarith]
            exact r2)
      refine ih (k + 1) (by omega) g2 (by omega) hnc2 h2 ?_ (fun x hx => hg x (Or.inr hx)) ?_ t1 t2
      · intro x hx; rcases List.mem_cons.1 hx with rfl | hx
        · exact hn'
        · exact hg0 x (List.mem_of_mem_erase hx)
      · rw [magQ_cons]; linarith

/-! ### median -/

theorem key_fin {v : Fl} (h : Finite v) : v.key = ((val v : ℚ) : WithTop ℚ) := by
  have := h.val
  cases v with
  | nan => exact absurd rfl h.2
  | inf => exact absurd rfl h.2
  | negZero => rfl
  | fin q => rfl

theorem ne_nan_fin {v : Fl} (h : Finite v) : v ≠ .nan := by rintro rfl; exact h.2 rfl

theorem key_le_fin {v w : Fl} (h : Finite v) (h2 : Finite w) : v.key ≤ w.key ↔ val v ≤ val w := by
  rw [key_fin h, key_fin h2, WithBot.coe_le_coe, WithTop.coe_le_coe]

theorem Fl.min_cases (x y : Fl) : Fl.min x y = x ∨ Fl.min x y = y ∨ Fl.min x y = .nan := by
  unfold Fl.min
  split
  · next h => rcases h with h | h <;> simp [h]
  · split
    · simp
    · split
      · split <;> simp
      · split <;> simp

/-- the smaller one of a bound that is not NaN and a finite number -/
theorem fmin_fin {x y : Fl} (hx : x ≠ .nan) (hxr : x.Rep b64) (hy : Finite y) {m : ℚ}
    (hm : ((m : ℚ) : WithTop ℚ) ≤ x.key) (hm2 : m ≤ val y) :
    Finite (Fl.min x y) ∧ m ≤ val (Fl.min x y) ∧ val (Fl.min x y) ≤ val y := by
  have hyn := ne_nan_fin hy
  have hyi : y ≠ .inf true := by rintro rfl; exact hy.2 rfl
  have hxi : x ≠ .inf true := by
    rintro rfl
    simp [Fl.key] at hm
  unfold Fl.min
  rw [if_neg (by simp [hxi, hyi]), if_neg (by simp [hx, hyn])]
  have hxf : x.toQ? ≠ none → Finite x := fun h => ⟨hxr, h⟩
  have hmx : ∀ h : Finite x, m ≤ val x := by
    intro h; rw [key_fin h, WithBot.coe_le_coe, WithTop.coe_le_coe] at hm; exact hm
  split
  · next h =>
    have fx := hxf (by rw [h.1]; simp)
    have := (Fl.eq_iff hx hyn).1 h.2
    rw [key_fin fx, key_fin hy] at this
    have hvv : val x = val y := by simpa using this
    split
    · exact ⟨fx, hmx fx, hvv.le⟩
    · exact ⟨hy, hm2, le_refl _⟩
  · split
    · next h =>
      have hlt := (Fl.lt_iff hx hyn).1 h
      have fx : Finite x := by
        apply hxf
        rcases x with _ | (_ | _) | _ | q
        · exact absurd rfl hx
        · rw [key_fin hy] at hlt; simp [Fl.key] at hlt
        · exact absurd rfl hxi
        · simp [Fl.toQ?]
        · simp [Fl.toQ?]
      exact ⟨fx, hmx fx, (key_le_fin fx hy).1 hlt.le⟩
    · exact ⟨hy, hm2, le_refl _⟩

/-- the greater one of a bound that is not NaN and a finite number -/
theorem fmax_fin {x y : Fl} (hx : x ≠ .nan) (hxr : x.Rep b64) (hy : Finite y) {M : ℚ}
    (hm : x.key ≤ ((M : ℚ) : WithTop ℚ)) (hm2 : val y ≤ M) :
    Finite (Fl.max x y) ∧ val y ≤ val (Fl.max x y) ∧ val (Fl.max x y) ≤ M := by
  have hyn := ne_nan_fin hy
  have hyi : y ≠ .inf false := by rintro rfl; exact hy.2 rfl
  have hxi : x ≠ .inf false := by
    rintro rfl
    simp [Fl.key] at hm
  unfold Fl.max
  rw [if_neg (by simp [hxi, hyi]), if_neg (by simp [hx, hyn])]
  have hxf : x.toQ? ≠ none → Finite x := fun h => ⟨hxr, h⟩
  have hmx : ∀ h : Finite x, val x ≤ M := by
    intro h; rw [key_fin h, WithBot.coe_le_coe, WithTop.coe_le_coe] at hm; exact hm
  split
  · next h =>
    have fx := hxf (by rw [h.1]; simp)
    have := (Fl.eq_iff hx hyn).1 h.2
    rw [key_fin fx, key_fin hy] at this
    have hvv : val x = val y := by simpa using this
    split
    · exact ⟨hy, le_refl _, hm2⟩
    · exact ⟨fx, hvv.ge, hmx fx⟩
  · split
    · next h =>
      have hlt := (Fl.lt_iff hyn hx).1 h
      have fx : Finite x := by
        apply hxf
        rcases x with _ | (_ | _) | _ | q
        · exact absurd rfl hx
        · exact absurd rfl hxi
        · rw [key_fin hy] at hlt; simp [Fl.key] at hlt
        · simp [Fl.toQ?]
        · simp [Fl.toQ?]
      exact ⟨fx, (key_le_fin hy fx).1 hlt.le, hmx fx⟩
    · exact ⟨hy, le_refl _, hm2⟩

theorem mul_fin {x y : Fl} (hx : Finite x) (hy : Finite y) (h : |val x * val y| ≤ p2 1000) :
    Finite (Fl.mul b64 x y) ∧
      |val (Fl.mul b64 x y) - val x * val y| ≤ |val x * val y| * p2 (-53) + p2 (-1075) := by
  obtain ⟨v, h1, h2, _⟩ := mul_err hx.val hy.val h
  obtain ⟨h3, h4⟩ := fin_of (mul_rep x y) h1
  exact ⟨h3, by rw [h4]; exact h2⟩

theorem div_fin {x y : Fl} (hx : Finite x) (hy : Finite y) (h0 : val y ≠ 0)
    (h : |val x / val y| ≤ p2 1000) : Finite (Fl.div b64 x y) ∧
      |val (Fl.div b64 x y) - val x / val y| ≤ |val x / val y| * p2 (-53) + p2 (-1075) := by
  obtain ⟨v, h1, h2, _⟩ := div_err hx.val hy.val h0 h
  obtain ⟨h3, h4⟩ := fin_of (div_rep x y) h1
  exact ⟨h3, by rw [h4]; exact h2⟩

theorem one_fin : Finite (.fin 1) ∧ val (.fin 1) = 1 := ⟨⟨by decide +kernel, by simp [Fl.toQ?]⟩, rfl⟩

theorem p2_1000_big : (1152921504606846976 : ℚ) * 1152921504606846976 ≤ p2 1000 := by
  have : p2 120 ≤ p2 1000 := p2_le (by norm_num)
  have e : p2 120 = 1152921504606846976 * 1152921504606846976 := by rw [p2_eq]; norm_num
  linarith

theorem rnd_finite {q : ℚ} (h : |q| ≤ p2 1000) : Finite (rnd b64 q) := by
  obtain ⟨v, h1, _⟩ := rnd_err q h
  exact ⟨rnd_rep b64 (by decide) q, by rw [h1]; simp⟩

theorem val_rnd_mono {q r : ℚ} (h : q ≤ r) (h1 : |q| ≤ p2 1000) (h2 : |r| ≤ p2 1000) :
    val (rnd b64 q) ≤ val (rnd b64 r) :=
  rnd_toQ_mono h (rnd_finite h1).val (rnd_finite h2).val

/-- the fraction lies between 0 and 1 -/
theorem frac_fin {a b : ℕ} (h : a ≤ b) (hb : b < 18446744073709551616) (hb0 : 0 < b) :
    Finite (Fl.div b64 (Fl.ofInt b64 a) (Fl.ofInt b64 b)) ∧
      0 ≤ val (Fl.div b64 (Fl.ofInt b64 a) (Fl.ofInt b64 b)) ∧
      val (Fl.div b64 (Fl.ofInt b64 a) (Fl.ofInt b64 b)) ≤ 1 := by
  have big := p2_1000_big
  have hbq : ((b : ℤ) : ℚ) ≤ 18446744073709551616 := by
    have : ((b : ℕ) : ℚ) ≤ ((18446744073709551616 : ℕ) : ℚ) := Nat.cast_le.2 (by omega)
    rw [Nat.cast_ofNat] at this
    exact_mod_cast this
  have haq : ((a : ℤ) : ℚ) ≤ ((b : ℤ) : ℚ) := by exact_mod_cast h
  have ha0 : (0 : ℚ) ≤ ((a : ℤ) : ℚ) := by exact_mod_cast Nat.zero_le a
  have hb1 : (1 : ℚ) ≤ ((b : ℤ) : ℚ) := by exact_mod_cast hb0
  have ba : |((a : ℤ) : ℚ)| ≤ p2 1000 := by rw [abs_of_nonneg ha0]; linarith
  have bb : |((b : ℤ) : ℚ)| ≤ p2 1000 := by rw [abs_of_nonneg (by linarith)]; linarith
  have b1 : |(1 : ℚ)| ≤ p2 1000 := by rw [abs_one]; linarith
  have b0 : |(0 : ℚ)| ≤ p2 1000 := by rw [abs_zero]; linarith
  have fa := rnd_finite ba
  have fb := rnd_finite bb
  have r1 : val (rnd b64 1) = 1 := by decide +kernel
  have r0 : val (rnd b64 0) = 0 := by decide +kernel
  have hab := val_rnd_mono haq ba bb
  have h1b := val_rnd_mono hb1 b1 bb
  have h0a := val_rnd_mono ha0 b0 ba
  rw [r1] at h1b; rw [r0] at h0a
  have hpos : 0 < val (rnd b64 ((b : ℤ) : ℚ)) := by linarith
  have hq1 : val (rnd b64 ((a : ℤ) : ℚ)) / val (rnd b64 ((b : ℤ) : ℚ)) ≤ 1 :=
    div_le_one_of_le₀ hab hpos.le
  have hq0 : 0 ≤ val (rnd b64 ((a : ℤ) : ℚ)) / val (rnd b64 ((b : ℤ) : ℚ)) := div_nonneg h0a hpos.le
  have hqb : |val (rnd b64 ((a : ℤ) : ℚ)) / val (rnd b64 ((b : ℤ) : ℚ))| ≤ p2 1000 := by
    rw [abs_of_nonneg hq0]; linarith
  have hdiv : (Fl.div b64 (Fl.ofInt b64 a) (Fl.ofInt b64 b)).toQ? =
      (rnd b64 (val (rnd b64 ((a : ℤ) : ℚ)) / val (rnd b64 ((b : ℤ) : ℚ)))).toQ? := by
    unfold Fl.div Fl.ofInt
    rw [fa.val, fb.val]
    simp only
    rw [if_neg hpos.ne']
    split
    · next hz => rw [hz, zero_div]; unfold Fl.zero; split <;> simp [Fl.toQ?, rnd]
    · rfl
  have hfin := rnd_finite hqb
  have hval : val (Fl.div b64 (Fl.ofInt b64 a) (Fl.ofInt b64 b)) =
      val (rnd b64 (val (rnd b64 ((a : ℤ) : ℚ)) / val (rnd b64 ((b : ℤ) : ℚ)))) := by
    unfold val; rw [hdiv]; rfl
  refine ⟨⟨div_rep _ _, by rw [hdiv]; exact hfin.2⟩, ?_, ?_⟩
  · rw [hval, ← r0]; exact val_rnd_mono hq0 b0 hqb
  · rw [hval, ← r1]; exact val_rnd_mono hq1 hqb b1

/-- error of the interpolation -/
theorem interp_err {a b f : Fl} {B : ℚ} (ha : Finite a) (hb : Finite b) (hf : Finite f)
    (h0 : 0 ≤ val f) (h1 : val f ≤ 1) (hB : B ≤ p2 900) (haB : |val a| ≤ B) (hbB : |val b| ≤ B) :
    Finite (interpolate a b f) ∧
    |val (interpolate a b f) - ((1 - val f) * val a + val f * val b)| ≤ B * p2 (-49) + p2 (-1072) := by
  have p53 := p2_53
  have p49 : p2 (-49) = 1 / 562949953421312 := by rw [p2_eq]; norm_num
  have psm := p2_small
  have ppos := p2_pos (-1075)
  have big := p2_1000_big
  have p1072 : p2 (-1072) = 8 * p2 (-1075) := by
    rw [show (-1072 : ℤ) = 3 + -1075 by norm_num, p2_add]
    congr 1
  have p900 : p2 900 * 1024 ≤ p2 1000 := by
    rw [show (1024 : ℚ) = p2 10 by rw [p2_eq]; norm_num, ← p2_add]
    exact p2_le (by norm_num)
  have hone : (1 : ℚ) ≤ p2 900 := by
    rw [show (1 : ℚ) = p2 0 by rfl]; exact p2_le (by norm_num)
  have hB0 : 0 ≤ B := le_trans (abs_nonneg _) haB
  obtain ⟨of, ov⟩ := one_fin
  have hd : |(1 : ℚ) - val f| ≤ 1 := by rw [abs_le]; constructor <;> linarith
  obtain ⟨g1, g2⟩ := sub_fin of hf (by rw [ov]; linarith)
  rw [ov] at g2
  -- 1 - f
  set g := Fl.sub b64 (.fin 1) f with hg
  have hg1 : |val g| ≤ 2 := by
    have := abs_add_le (val g - (1 - val f)) (1 - val f)
    simp only [sub_add_cancel] at this
    rw [p53] at g2
    nlinarith
  have hga : |val g * val a| ≤ 2 * B := by rw [abs_mul]; nlinarith [abs_nonneg (val g), abs_nonneg (val a)]
  have hfa : |val f| ≤ 1 := by rw [abs_of_nonneg h0]; exact h1
  have hfb : |val f * val b| ≤ B := by rw [abs_mul]; nlinarith [abs_nonneg (val f), abs_nonneg (val b)]
  obtain ⟨m1, m2⟩ := mul_fin g1 ha (by linarith)
  obtain ⟨n1, n2⟩ := mul_fin hf hb (by linarith)
  set p := Fl.mul b64 g a with hp
  set q := Fl.mul b64 f b with hq
  rw [p53] at g2 m2 n2
  have hpp : |val p| ≤ 2 * B + 2 * B * (1 / 9007199254740992) + p2 (-1075) := by
    have := abs_add_le (val p - val g * val a) (val g * val a)
    simp only [sub_add_cancel] at this
    linarith
  have hqq : |val q| ≤ B + B * (1 / 9007199254740992) + p2 (-1075) := by
    have := abs_add_le (val q - val f * val b) (val f * val b)
    simp only [sub_add_cancel] at this
    linarith
  have hsum := abs_add_le (val p) (val q)
  obtain ⟨s1, s2⟩ := add_fin m1 n1 (by linarith)
  rw [p53] at s2
  refine ⟨s1, ?_⟩
  show |val (Fl.add b64 p q) - _| ≤ _
  have hga2 : |val g * val a - (1 - val f) * val a| ≤ B * (1 / 9007199254740992 + p2 (-1075)) := by
    rw [← sub_mul, abs_mul]
    have hx : |val g - (1 - val f)| ≤ 1 / 9007199254740992 + p2 (-1075) := by
      have : |(1 : ℚ) - val f| * (1 / 9007199254740992) ≤ 1 * (1 / 9007199254740992) :=
        mul_le_mul_of_nonneg_right hd (by norm_num)
      linarith
    calc |val g - (1 - val f)| * |val a| ≤ (1 / 9007199254740992 + p2 (-1075)) * B :=
          mul_le_mul hx haB (abs_nonneg _) (by linarith)
      _ = _ := by ring
  have hBs : B * p2 (-1075) ≤ B * (1 / 9007199254740992) := by
    have : p2 (-1075) ≤ 1 / 9007199254740992 := by rw [← p53]; exact p2_le (by norm_num)
    exact mul_le_mul_of_nonneg_left this hB0
  have e : val (Fl.add b64 p q) - ((1 - val f) * val a + val f * val b) =
      (val (Fl.add b64 p q) - (val p + val q)) + ((val p - val g * val a) +
        ((val g * val a - (1 - val f) * val a) + (val q - val f * val b))) := by ring
  rw [e]
  have a1 := abs_add_le (val (Fl.add b64 p q) - (val p + val q)) ((val p - val g * val a) +
        ((val g * val a - (1 - val f) * val a) + (val q - val f * val b)))
  have a2 := abs_add_le (val p - val g * val a)
        ((val g * val a - (1 - val f) * val a) + (val q - val f * val b))
  have a3 := abs_add_le (val g * val a - (1 - val f) * val a) (val q - val f * val b)
  rw [p49, p1072]
  linarith

/-- a computed number is at most `e` outside the interval -/
def Near (m M e : ℚ) (r : Fl) : Prop := Finite r ∧ m - e ≤ val r ∧ val r ≤ M + e

theorem indexToValue_near {l : List Fl} {pieces : List (Piece Fl)} (hl : fromEndpoints l = .ok pieces)
    (hl0 : ∀ e ∈ l, e ≠ .nan ∧ e.Rep b64)
    {d : Dist Fl} {vs : List Fl} (hp : d.pieces = pieces) (hc : CInv d vs) (hbd : Bounds d.min d.max vs)
    (hfm : Finite d.min) (hfM : Finite d.max) (hfv : ∀ v ∈ vs, Finite v) {B : ℚ} (hB : B ≤ p2 900)
    (hmB : |val d.min| ≤ B) (hMB : |val d.max| ≤ B)
    (valueIdx : ℕ) (h2 : valueIdx < d.counts.sum) (h3 : d.counts.sum < 18446744073709551615) :
    ∃ r, d.indexToValue valueIdx = some r ∧
      Near (val d.min) (val d.max) (B * p2 (-49) + p2 (-1072)) r := by
  obtain ⟨i, k, c, p, g1, g2, g3, g4, g5⟩ := indexToValue_some hc.shape valueIdx h2 h3
  refine ⟨_, g5, ?_⟩
  have hi : i < d.pieces.length := by
    by_contra hcc; rw [List.getElem?_eq_none (by omega)] at g4; cases g4
  have hcnt := hc.counts i hi
  rw [g1] at hcnt
  simp only [Option.some.injEq] at hcnt
  have hpos : 0 < vs.countP fun v => decide (findIndex d.pieces v = i) := by omega
  obtain ⟨v, hv, hvi⟩ := List.countP_pos_iff.1 hpos
  simp only [decide_eq_true_eq] at hvi
  obtain ⟨_, _, hbb⟩ := hbd (List.ne_nil_of_mem hv)
  obtain ⟨_, k1, k2⟩ := hbb v hv
  have hvf := hfv v hv
  have b1 : val d.min ≤ val v := (key_le_fin hfm hvf).1 k1
  have b2 : val v ≤ val d.max := (key_le_fin hvf hfM).1 k2
  have hmm : val d.min ≤ val d.max := le_trans b1 b2
  rw [hp] at hvi g4
  obtain ⟨p', hp', e1, e2⟩ := findIndex_piece hl v
  rw [hvi, g4] at hp'; cases hp'
  rw [fromEndpoints_get hl] at g4
  obtain ⟨f1, f2⟩ := range_flags g4
  have hlen := (fromEndpoints_length hl).1
  have hlpos : 0 < l.length := List.length_pos_iff.2 (fromEndpoints_length hl).2
  have hstart : i ≠ 0 → p.start ∈ l := by
    intro h0
    obtain ⟨j, rfl⟩ := Nat.exists_eq_succ_of_ne_zero h0
    simp only [range] at g4
    split at g4 <;> cases g4
    · next a _ ha _ => exact List.mem_of_getElem? ha
    · next a ha _ => exact List.mem_of_getElem? ha
  have hstop : i ≠ l.length → p.stop ∈ l := by
    intro h0
    cases i with
    | zero =>
      simp only [range, Option.map_eq_some_iff] at g4
      obtain ⟨e, he, rfl⟩ := g4
      exact List.mem_of_mem_head? he
    | succ j =>
      simp only [range] at g4
      split at g4 <;> cases g4
      · next a b _ hb => exact List.mem_of_getElem? hb
      · next a ha hb =>
        have : j < l.length := by
          by_contra hcc; rw [List.getElem?_eq_none (by omega)] at ha; cases ha
        have : j + 1 ≥ l.length := by
          by_contra hcc; rw [List.getElem?_eq_getElem (by omega)] at hb; cases hb
        omega
  have hvn := ne_nan_fin hvf
  have e1' : i ≠ 0 → p.start.key ≤ ((val v : ℚ) : WithTop ℚ) := by
    intro h0
    rcases e1 with e | e
    · exact absurd (f1 e) h0
    · have : Fl.le p.start v = true := (Fl.not_lt hvn (hl0 _ (hstart h0)).1).1 e
      rw [← key_fin hvf]; exact (Fl.le_iff (hl0 _ (hstart h0)).1 hvn).1 this
  have e2' : i ≠ l.length → ((val v : ℚ) : WithTop ℚ) ≤ p.stop.key := by
    intro h0
    rcases e2 with e | e
    · exact absurd (f2 e) h0
    · rw [← key_fin hvf]; exact ((Fl.lt_iff hvn (hl0 _ (hstop h0)).1).1 e).le
  have hcast : ∀ {x y : ℚ}, x ≤ y → ((x : ℚ) : WithBot (WithTop ℚ)) ≤ ((y : ℚ) : WithTop ℚ) :=
    fun h => WithBot.coe_le_coe.2 (WithTop.coe_le_coe.2 h)
  -- lower end of the interpolation
  have hlo : ∀ A, A = (if i = 0 then d.min else Fl.max p.start d.min) →
      Finite A ∧ val d.min ≤ val A ∧ val A ≤ val d.max := by
    rintro A rfl
    split
    · exact ⟨hfm, le_refl _, hmm⟩
    · next h0 =>
      exact fmax_fin (hl0 _ (hstart h0)).1 (hl0 _ (hstart h0)).2 hfm
        (le_trans (e1' h0) (hcast b2)) hmm
  have hhi : ∀ A, A = (if i = 0 then Fl.min p.stop d.max else if i = d.pieces.length - 1 then d.max
      else Fl.min p.stop d.max) → Finite A ∧ val d.min ≤ val A ∧ val A ≤ val d.max := by
    rintro A rfl
    split
    · next h0 =>
      have h0' : i ≠ l.length := by omega
      exact fmin_fin (hl0 _ (hstop h0')).1 (hl0 _ (hstop h0')).2 hfM
        (le_trans (hcast b1) (e2' h0')) hmm
    · split
      · exact ⟨hfM, hmm, le_refl _⟩
      · next h0 h1 =>
        rw [hp, hlen] at h1
        have h0' : i ≠ l.length := by omega
        exact fmin_fin (hl0 _ (hstop h0')).1 (hl0 _ (hstop h0')).2 hfM
          (le_trans (hcast b1) (e2' h0')) hmm
  obtain ⟨la, lb, lc⟩ := hlo _ rfl
  obtain ⟨ua, ub, uc⟩ := hhi _ rfl
  obtain ⟨fa, fb, fc⟩ := frac_fin (a := k + 1) (b := c + 1) (by omega) (by omega) (by omega)
  have hbnd : ∀ {x : ℚ}, val d.min ≤ x → x ≤ val d.max → |x| ≤ B := by
    intro x h1 h2
    have := abs_le.1 hmB; have := abs_le.1 hMB
    exact abs_le.2 ⟨by linarith, by linarith⟩
  obtain ⟨r1, r2⟩ := interp_err la ua fa fb fc hB (hbnd lb lc) (hbnd ub uc)
  refine ⟨r1, ?_, ?_⟩
  · have h := (abs_le.1 r2).1
    set A := val (if i = 0 then d.min else Fl.max p.start d.min)
    set C := val (if i = 0 then Fl.min p.stop d.max else if i = d.pieces.length - 1 then d.max
      else Fl.min p.stop d.max)
    set F := val (Fl.div b64 (Fl.ofInt b64 ((k + 1 : ℕ) : ℤ)) (Fl.ofInt b64 ((c + 1 : ℕ) : ℤ)))
    have hin : val d.min ≤ (1 - F) * A + F * C := by
      nlinarith [mul_nonneg fb (sub_nonneg.2 ub), mul_nonneg (sub_nonneg.2 fc) (sub_nonneg.2 lb)]
    have := le_trans (by linarith : val d.min - (B * p2 (-49) + p2 (-1072)) ≤
      (1 - F) * A + F * C - (B * p2 (-49) + p2 (-1072))) (by linarith)
    exact this
  · have h := (abs_le.1 r2).2
    set A := val (if i = 0 then d.min else Fl.max p.start d.min)
    set C := val (if i = 0 then Fl.min p.stop d.max else if i = d.pieces.length - 1 then d.max
      else Fl.min p.stop d.max)
    set F := val (Fl.div b64 (Fl.ofInt b64 ((k + 1 : ℕ) : ℤ)) (Fl.ofInt b64 ((c + 1 : ℕ) : ℤ)))
    have hin : (1 - F) * A + F * C ≤ val d.max := by
      nlinarith [mul_nonneg fb (sub_nonneg.2 uc), mul_nonneg (sub_nonneg.2 fc) (sub_nonneg.2 lc)]
    have := le_trans (by linarith) (by linarith : (1 - F) * A + F * C + (B * p2 (-49) + p2 (-1072)) ≤
      val d.max + (B * p2 (-49) + p2 (-1072)))
    exact this

theorem median_near {l : List Fl} {pieces : List (Piece Fl)} (hl : fromEndpoints l = .ok pieces)
    (hl0 : ∀ e ∈ l, e ≠ .nan ∧ e.Rep b64)
    {d : Dist Fl} {vs : List Fl} (hp : d.pieces = pieces) (hc : CInv d vs) (hbd : Bounds d.min d.max vs)
    (hfm : Finite d.min) (hfM : Finite d.max) (hfv : ∀ v ∈ vs, Finite v) {B : ℚ} (hB : B ≤ p2 900)
    (hmB : |val d.min| ≤ B) (hMB : |val d.max| ≤ B) (h3 : 3 ≤ vs.length)
    (hb : vs.length < 18446744073709551615) {r : Fl} (hr : d.calculateMedian = some r) :
    Near (val d.min) (val d.max) (B * p2 (-48) + p2 (-1071)) r := by
  have hs := hc.sum
  have hcnt := hc.count
  have ppos := p2_pos (-1075)
  have p1072 : p2 (-1072) = 8 * p2 (-1075) := by
    rw [show (-1072 : ℤ) = 3 + -1075 by norm_num, p2_add]; congr 1
  have p1071 : p2 (-1071) = 16 * p2 (-1075) := by
    rw [show (-1071 : ℤ) = 4 + -1075 by norm_num, p2_add]; congr 1
  have p49 : p2 (-49) = 1 / 562949953421312 := by rw [p2_eq]; norm_num
  have p48 : p2 (-48) = 1 / 281474976710656 := by rw [p2_eq]; norm_num
  have hB0 : 0 ≤ B := le_trans (abs_nonneg _) hmB
  have hwk : ∀ r, Near (val d.min) (val d.max) (B * p2 (-49) + p2 (-1072)) r →
      Near (val d.min) (val d.max) (B * p2 (-48) + p2 (-1071)) r := by
    rintro r ⟨a, b, c⟩
    rw [p49, p1072] at b c
    rw [p48, p1071]
    exact ⟨a, by linarith, by linarith⟩
  unfold Dist.calculateMedian at hr
  rw [if_neg (by omega)] at hr
  split at hr
  · obtain ⟨a, ha, a1, a2, a3⟩ := indexToValue_near hl hl0 hp hc hbd hfm hfM hfv hB hmB hMB
      (d.count / 2 - 1) (by omega) (by omega)
    obtain ⟨b, hb', b1, b2, b3⟩ := indexToValue_near hl hl0 hp hc hbd hfm hfM hfv hB hmB hMB
      (d.count / 2) (by omega) (by omega)
    rw [ha, hb'] at hr
    simp only [Option.some.injEq] at hr
    have psm := p2_small
    have big := p2_1000_big
    have p53 := p2_53
    have p900 : p2 900 * 1024 ≤ p2 1000 := by
      rw [show (1024 : ℚ) = p2 10 by rw [p2_eq]; norm_num, ← p2_add]
      exact p2_le (by norm_num)
    have hone : (1 : ℚ) ≤ p2 900 := by
      rw [show (1 : ℚ) = p2 0 by rfl]; exact p2_le (by norm_num)
    rw [p49, p1072] at a2 a3 b2 b3
    have := abs_le.1 hmB; have := abs_le.1 hMB
    have hab : |val a + val b| ≤ 3 * B + 16 * p2 (-1075) := abs_le.2 ⟨by linarith, by linarith⟩
    obtain ⟨s1, s2⟩ := add_fin a1 b1 (by linarith)
    have h2f : Finite (.fin 2) ∧ val (.fin 2) = 2 := ⟨⟨by decide +kernel, by simp [Fl.toQ?]⟩, rfl⟩
    rw [p53] at s2
    have hs2 := abs_le.1 s2
    have habl := abs_le.1 hab
    have hsum : |val (Fl.add b64 a b)| ≤ 4 * B + 32 * p2 (-1075) := abs_le.2 ⟨by linarith, by linarith⟩
    have hhalf : |val (Fl.add b64 a b) / 2| ≤ 2 * B + 16 * p2 (-1075) := by
      rw [abs_div, abs_two]; linarith
    obtain ⟨t1, t2⟩ := div_fin s1 h2f.1 (by rw [h2f.2]; norm_num) (by rw [h2f.2]; linarith)
    rw [h2f.2, p53] at t2
    have ht2 := abs_le.1 t2
    have hr' : r = Fl.div b64 (Fl.add b64 a b) (.fin 2) := by
      rw [← hr]; rfl
    rw [hr']
    refine ⟨t1, ?_, ?_⟩
    · rw [p48, p1071]; linarith
    · rw [p48, p1071]; linarith
  · obtain ⟨b, hb', h⟩ := indexToValue_near hl hl0 hp hc hbd hfm hfM hfv hB hmB hMB
      (d.count / 2) (by omega) (by omega)
    rw [hb'] at hr; cases hr; exact hwk _ h

/-! ### after registration -/

theorem reg_cinv {l : List Fl} {pieces : List (Piece Fl)} (h : fromEndpoints l = .ok pieces)
    (nc : Bool) (ts : Time) (gid : ℕ) (u : MUnit) :
    CInv ({ newDist pieces nc ts gid with unitSet := true, unit := u } : Dist Fl) [] := by
  obtain ⟨a, b, c⟩ := newDist_cinv (pieces_ne h) nc ts gid
  exact ⟨⟨a.len, a.ne⟩, b, c⟩

theorem grid_fin {e : ℤ} {v : Fl} (h : OnGrid e v) : Finite v := by
  obtain ⟨h1, m, h2⟩ := h
  exact ⟨h1, by rw [h2]; simp⟩

theorem grid_val {e : ℤ} {v : Fl} (h : OnGrid e v) : val v = mult e v * p2 e := by
  unfold val; rw [mult_spec h]; rfl

theorem grid_magn {e : ℤ} {vs : List Fl} (h : ∀ v ∈ vs, OnGrid e v) :
    magQ vs = magn e vs * p2 e ∧ sumQ vs = ((vs.map (mult e)).sum : ℤ) * p2 e := by
  induction vs with
  | nil => simp [magQ, sumQ, magn]
  | cons v vs ih =>
    obtain ⟨a, b⟩ := ih fun x hx => h x (by simp [hx])
    rw [magQ_cons, sumQ_cons, magn_cons, a, b, grid_val (h v (by simp)), abs_mul,
      abs_of_pos (p2_pos e)]
    simp only [List.map_cons, List.sum_cons]
    push_cast
    constructor <;> ring

theorem grid_total (e : ℤ) (he : -1074 ≤ e) (he2 : e ≤ 970) {d : Dist Fl} (h : CInv d [])
    (hr : d.total.Rep b64) (ht : d.total.toQ? = some 0) {ops : List (DOp Fl)} {vs : List Fl}
    (hb : ops.length < 18446744073709551615)
    (hnc : d.isNotCumulative = true ∨ ops.all isAddOp = true) (hcur : current [] ops = some vs)
    (hg : ∀ v ∈ mentioned ops, OnGrid e v) (hmag : magQ (mentioned ops) ≤ 2 ^ 53 * p2 e) :
    CInv (d.ops ops) vs ∧ (d.ops ops).total.Rep b64 ∧ (d.ops ops).total.toQ? = some (sumQ vs) := by
  have hc := (ops_bounds h hb hnc hcur (fun v hv => ne_nan_fin (grid_fin (hg v hv)))).1
  have hm : magn e (mentioned ops) ≤ 2 ^ 53 := by
    rw [(grid_magn hg).1] at hmag
    have := le_of_mul_le_mul_right hmag (p2_pos e)
    exact_mod_cast this
  obtain ⟨r1, r2, r3⟩ := ops_sum_grid he he2 ops h (by simpa using hb) hnc hcur (by simp) hg
    (by simpa [magn] using hm) hr (by rw [ht]; simp)
  exact ⟨hc, r1, by rw [r2, (grid_magn r3).2]⟩

theorem reg_sum_close {l : List Fl} {pieces : List (Piece Fl)} (h : fromEndpoints l = .ok pieces)
    (nc : Bool) (ts : Time) (gid : ℕ) (u : MUnit) {ops : List (DOp Fl)} {vs : List Fl}
    (hlen : ops.length ≤ 2 ^ 48) (hnc : nc = true ∨ ops.all isAddOp = true)
    (hcur : current [] ops = some vs) (hg : ∀ v ∈ mentioned ops, Finite v)
    (hmag : magQ (mentioned ops) ≤ p2 900) :
    let d := ({ newDist pieces nc ts gid with unitSet := true, unit := u } : Dist Fl).ops ops
    CInv d vs ∧ Finite d.total ∧
      |val d.total - sumQ vs| ≤ ops.length * (magQ (mentioned ops) * p2 (-50) + p2 (-1073)) := by
  intro d
  have h0 := reg_cinv h nc ts gid u
  have hc := (ops_bounds h0 (by omega) hnc hcur (fun v hv => ne_nan_fin (hg v hv))).1
  have hz : Finite ({ newDist pieces nc ts gid with unitSet := true, unit := u } : Dist Fl).total :=
    ⟨by show Fl.Rep b64 (.fin ((0 : ℤ) : ℚ)); decide +kernel, by simp [newDist, Arith.lit, Fl.toQ?]⟩
  have hv : val ({ newDist pieces nc ts gid with unitSet := true, unit := u } : Dist Fl).total = 0 := by
    simp [newDist, Arith.lit, val, Fl.toQ?]
  obtain ⟨r1, r2, _⟩ := ops_sum_err hmag ops.length hlen ops 0 (by omega) h0 (by simp; omega) hnc hcur
    (by simp) hg (by simp [magQ]) hz (by rw [hv]; simp [sumQ])
  refine ⟨hc, r1, ?_⟩
  simpa [stepErr] using r2

/-- a property of all values mentioned holds of all current ones -/
theorem current_mem {F : Type} [DecidableEq F] {P : F → Prop} {vs ws : List F} {ops : List (DOp F)}
    (hcur : current vs ops = some ws) (h0 : ∀ v ∈ vs, P v) (hg : ∀ v ∈ mentioned ops, P v) :
    ∀ v ∈ ws, P v := by
  induction ops generalizing vs with
  | nil => simp only [current, Option.some.injEq] at hcur; subst hcur; exact h0
  | cons op ops ih =>
    cases op with
    | add v ts =>
      simp only [current, mentioned] at hcur hg
      refine ih hcur ?_ (fun x hx => hg x (by simp [hx]))
      intro x hx; rcases List.mem_cons.1 hx with rfl | hx
      · exact hg x (by simp)
      · exact h0 x hx
    | remove v ts =>
      simp only [current, mentioned] at hcur hg
      split at hcur
      · exact ih hcur (fun x hx => h0 x (List.mem_of_mem_erase hx)) hg
      · cases hcur
    | update o n ts =>
      simp only [current, mentioned] at hcur hg
      split at hcur
      · refine ih hcur ?_ (fun x hx => hg x (by simp [hx]))
        intro x hx; rcases List.mem_cons.1 hx with rfl | hx
        · exact hg x (by simp)
        · exact h0 x (List.mem_of_mem_erase hx)
      · cases hcur

theorem current_le {F : Type} [DecidableEq F] {vs ws : List F} {ops : List (DOp F)}
    (hcur : current vs ops = some ws) : ws.length ≤ vs.length + ops.length := by
  induction ops generalizing vs with
  | nil => simp only [current, Option.some.injEq] at hcur; subst hcur; simp
  | cons op ops ih =>
    cases op with
    | add v ts => have := ih hcur; simp only [List.length_cons] at *; omega
    | remove v ts =>
      simp only [current] at hcur
      split at hcur
      · have := ih hcur
        have := (List.erase_sublist (a := v) (l := vs)).length_le
        simp only [List.length_cons] at *; omega
      · cases hcur
    | update o n ts =>
      simp only [current] at hcur
      split at hcur
      · next hm =>
        have := ih hcur
        have := List.length_erase_of_mem hm
        have := List.length_pos_of_mem hm
        simp only [List.length_cons] at *; omega
      · cases hcur

theorem current_mag {vs ws : List Fl} {ops : List (DOp Fl)}
    (hcur : current vs ops = some ws) : magQ ws ≤ magQ vs + magQ (mentioned ops) := by
  induction ops generalizing vs with
  | nil =>
    simp only [current, Option.some.injEq] at hcur; subst hcur
    have := magQ_nonneg (mentioned ([] : List (DOp Fl))); linarith
  | cons op ops ih =>
    cases op with
    | add v ts =>
      have := ih hcur; simp only [mentioned, magQ_cons] at *; linarith
    | remove v ts =>
      simp only [current] at hcur
      split at hcur
      · next hm =>
        have := ih hcur
        have := magQ_erase hm
        have := abs_nonneg (val v)
        simp only [mentioned]; linarith
      · cases hcur
    | update o n ts =>
      simp only [current] at hcur
      split at hcur
      · next hm =>
        have := ih hcur
        have := magQ_erase hm
        have := abs_nonneg (val o)
        simp only [mentioned, magQ_cons] at *; linarith
      · cases hcur

/-- Min and Max are finite when all values are -/
theorem ops_minmax_fin {d0 : Dist Fl} (h0 : CInv d0 [])
    {ops : List (DOp Fl)} {vs : List Fl} (hb : ops.length < 18446744073709551615)
    (hnc : d0.isNotCumulative = true ∨ ops.all isAddOp = true) (hcur : current [] ops = some vs)
    (hg : ∀ v ∈ mentioned ops, Finite v) (hne : vs ≠ []) :
    Finite (d0.ops ops).min ∧ Finite (d0.ops ops).max := by
  have h := ops_good (P := fun d vs => vs ≠ [] → Finite d.min ∧ Finite d.max) ops h0
    (fun h => absurd rfl h) (by simpa using hb) hnc hcur ?_
  · exact h.2.1 hne
  · intro d d' vs vs' op ho hc hp hcur _ hmin hmax _ hne'
    rw [hmin, hmax]
    have hnew : ∀ v, opValue op = some v → Finite v := fun v hv => hg v (mem_mentioned ho hv)
    cases op with
    | add v ts =>
      have hv := hnew v rfl
      simp only [opMin, opMax]
      by_cases hvs : vs = []
      · simp [hvs, hv]
      · obtain ⟨a, b⟩ := hp hvs
        simp only [hvs, decide_false, Bool.false_eq_true, if_false]
        constructor
        · split
          · exact hv
          · exact a
        · split
          · exact b
          · split
            · exact hv
            · exact b
    | remove v ts =>
      simp only [opMin, opMax]
      apply hp
      rintro rfl
      simp [current] at hcur
    | update o n ts =>
      have hv := hnew n rfl
      have hvs : vs ≠ [] := by rintro rfl; simp [current] at hcur
      obtain ⟨a, b⟩ := hp hvs
      simp only [opMin, opMax]
      constructor
      · split
        · exact hv
        · exact a
      · split
        · exact b
        · split
          · exact hv
          · exact b

theorem ofInt_count {n : ℕ} (h : n ≤ 2 ^ 53) : Fl.ofInt b64 (n : ℤ) = .fin (n : ℚ) := by
  have := ofInt_lit (n : ℤ) (by rw [abs_of_nonneg (by omega)]; exact_mod_cast h)
  simpa using this

theorem avg_between {m M T : Fl} {S : ℚ} {n : ℕ} (hm : Finite m) (hM : Finite M) (hT : T.Rep b64)
    (hS : T.toQ? = some S) (hn : n ≤ 2 ^ 53) (hn0 : 0 < n)
    (hb : val m ≤ S / (n : ℚ) ∧ S / (n : ℚ) ≤ val M) :
    Fl.le m (Arith.div T (Arith.ofNat n)) = true ∧ Fl.le (Arith.div T (Arith.ofNat n)) M = true := by
  have hnq : (n : ℚ) ≠ 0 := by exact_mod_cast hn0.ne'
  have hkey : (Fl.div b64 T (.fin (n : ℚ))).key = (rnd b64 (S / n)).key := by
    unfold Fl.div
    rw [hS]
    simp only [Fl.toQ?]
    rw [if_neg hnq]
    split
    · next h => rw [h, zero_div]; unfold Fl.zero; split <;> simp [Fl.key, rnd]
    · rfl
  have hnan : Fl.div b64 T (.fin (n : ℚ)) ≠ .nan := by
    unfold Fl.div
    rw [hS]
    simp only [Fl.toQ?]
    rw [if_neg hnq]
    split
    · unfold Fl.zero; split <;> simp
    · exact rnd_ne_nan _ _
  have hrep : ∀ {x : Fl}, Finite x → (rnd b64 (val x)).key = x.key := by
    intro x hx
    rw [key_fin hx]
    cases x with
    | nan => exact absurd rfl hx.2
    | inf => exact absurd rfl hx.2
    | negZero => simp [val, Fl.toQ?, rnd, Fl.key]
    | fin q =>
      have : rnd b64 q = .fin q := hx.1
      simp only [val, Fl.toQ?, Option.getD_some, this]; rfl
  show Fl.le m (Fl.div b64 T (Fl.ofInt b64 (n : ℤ))) = true ∧ Fl.le (Fl.div b64 T (Fl.ofInt b64 (n : ℤ))) M = true
  rw [ofInt_count hn]
  rw [Fl.le_iff (ne_nan_fin hm) hnan, Fl.le_iff hnan (ne_nan_fin hM), hkey, ← hrep hm, ← hrep hM]
  exact ⟨rnd_mono b64 (by decide) hb.1, rnd_mono b64 (by decide) hb.2⟩

theorem avg_err {T : Fl} {vs : List Fl} {n : ℕ} {M : ℚ} (hT : Finite T) (hne : vs ≠ [])
    (hn : n ≤ 2 ^ 48) (hv : vs.length ≤ n) (hM0 : 0 ≤ M) (hM : M ≤ p2 900) (hS : |sumQ vs| ≤ M)
    (he : |val T - sumQ vs| ≤ n * (M * p2 (-50) + p2 (-1073))) :
    Finite (Arith.div T (Arith.ofNat vs.length)) ∧
    |val (Arith.div T (Arith.ofNat vs.length)) - sumQ vs / vs.length| ≤
      (n + 1) * (M * p2 (-50) + p2 (-1073)) := by
  have hl0 : 0 < vs.length := List.length_pos_iff.2 hne
  have hlq : (1 : ℚ) ≤ vs.length := by exact_mod_cast hl0
  have hlp : (0 : ℚ) < vs.length := by linarith
  have hnq : (n : ℚ) ≤ 281474976710656 := by
    have h48 : n ≤ 281474976710656 := by omega
    have : ((n : ℕ) : ℚ) ≤ ((281474976710656 : ℕ) : ℚ) := Nat.cast_le.2 h48
    rwa [Nat.cast_ofNat] at this
  have ppos := p2_pos (-1075)
  have psm := p2_small
  have big := p2_1000_big
  have p900 : p2 900 * 1024 ≤ p2 1000 := by
    rw [show (1024 : ℚ) = p2 10 by rw [p2_eq]; norm_num, ← p2_add]
    exact p2_le (by norm_num)
  have hone : (1 : ℚ) ≤ p2 900 := by
    rw [show (1 : ℚ) = p2 0 by rfl]; exact p2_le (by norm_num)
  rw [p2_50, p2_1073] at he ⊢
  set E := M * (1 / 1125899906842624) + 4 * p2 (-1075) with hE
  have hE0 : 0 ≤ E := by
    have : 0 ≤ M * (1 / 1125899906842624) := mul_nonneg hM0 (by norm_num)
    linarith
  have hnE : (n : ℚ) * E ≤ 281474976710656 * E := mul_le_mul_of_nonneg_right hnq hE0
  have hT1 : |val T| ≤ 2 * M + 1125899906842624 * p2 (-1075) := by
    have := abs_add_le (val T - sumQ vs) (sumQ vs)
    simp only [sub_add_cancel] at this
    linarith
  have hdivle : ∀ x : ℚ, |x / (vs.length : ℚ)| ≤ |x| := by
    intro x
    rw [abs_div, abs_of_pos hlp]
    exact div_le_self (abs_nonneg _) hlq
  have hcf : Finite (.fin (vs.length : ℚ)) ∧ val (.fin (vs.length : ℚ)) = vs.length := by
    refine fin_of (q := vs.length) ?_ rfl
    have := ofInt_count (n := vs.length) (by omega)
    exact (by simpa [Fl.ofInt] using this : rnd b64 (vs.length : ℚ) = .fin (vs.length : ℚ))
  have hq := hdivle (val T)
  obtain ⟨d1, d2⟩ := div_fin hT hcf.1 (by rw [hcf.2]; exact hlp.ne') (by rw [hcf.2]; linarith)
  have heq : (Arith.div T (Arith.ofNat vs.length) : Fl) = Fl.div b64 T (.fin (vs.length : ℚ)) := by
    show Fl.div b64 T (Fl.ofInt b64 (vs.length : ℤ)) = _
    rw [ofInt_count (by omega)]
  rw [heq]
  refine ⟨d1, ?_⟩
  rw [hcf.2, p2_53] at d2
  have a1 := abs_add_le (val (Fl.div b64 T (.fin (vs.length : ℚ))) - val T / vs.length)
    (val T / vs.length - sumQ vs / vs.length)
  simp only [sub_add_sub_cancel] at a1
  have a2 : |val T / (vs.length : ℚ) - sumQ vs / vs.length| ≤ n * E := by
    rw [← sub_div]; exact le_trans (hdivle _) he
  linarith

end Tricorder
