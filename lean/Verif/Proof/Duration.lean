import Verif.Spec.Duration
import Verif.Proof.Num
/-! Lemmas about durations. -/

namespace Tricorder.Dur
open Go Spec

theorem ext_ns {a b : Dur} (ha : Coherent a) (hb : Coherent b) (h : ns a = ns b) : a = b := by
  obtain ⟨s, n⟩ := a; obtain ⟨s', n'⟩ := b
  simp only [Coherent, ns, Dur.mk.injEq] at *
  omega

theorem new_coherent (d : Int) (h : InI64 d) :
    Coherent (new d) ∧ ns (new d) = d ∧ (new d).Typed := by
  unfold InI64 at h
  have e1 : quo (rem d 1000000000) 1 = rem d 1000000000 := Int.tdiv_one _
  have hb : InI64 (quo d 1000000000) ∧ InI32 (rem d 1000000000) := by
    rcases Int.le_total 0 d with h0 | h0
    · rw [quo_nonneg _ h0, rem_nonneg _ h0]; unfold InI64 InI32; omega
    · rw [quo_neg _ h0, rem_neg _ h0]; unfold InI64 InI32; omega
  have e : new d = ⟨quo d 1000000000, rem d 1000000000⟩ := by
    unfold new; rw [e1, i64_eq hb.1, i32_eq hb.2]
  rw [e]
  refine ⟨?_, ?_, hb⟩
  · rcases Int.le_total 0 d with h0 | h0
    · rw [quo_nonneg _ h0, rem_nonneg _ h0]; unfold Coherent; simp only; omega
    · rw [quo_neg _ h0, rem_neg _ h0]; unfold Coherent; simp only; omega
  · rcases Int.le_total 0 d with h0 | h0
    · rw [quo_nonneg _ h0, rem_nonneg _ h0]; unfold ns; simp only; omega
    · rw [quo_neg _ h0, rem_neg _ h0]; unfold ns; simp only; omega

theorem asGoDuration_eq (d : Dur) (h : InI64 (ns d)) (hc : Coherent d) :
    asGoDuration d = ns d := by
  unfold asGoDuration
  unfold InI64 at h; unfold ns at *; unfold Coherent at hc
  unfold i64; omega

/-- magnitude of seconds for which multiplication by `k` is exact -/
def MultOk (d : Dur) (k : Int) : Prop :=
  k = 1 ∧ InI64 d.sec ∨
  k = -1 ∧ -9223372036854775807 ≤ d.sec ∧ d.sec ≤ 9223372036854775807 ∨
  k = 1000 ∧ -9223372036854774 ≤ d.sec ∧ d.sec ≤ 9223372036854774

theorem mult_spec (d : Dur) (k : Int) (hc : Coherent d) (hk : MultOk d k) :
    Coherent (d.mult k) ∧ ns (d.mult k) = ns d * k := by
  obtain ⟨s, n⟩ := d
  unfold mult Coherent ns at *
  unfold MultOk InI64 at hk
  simp only at *
  rcases hk with ⟨rfl, hk⟩ | ⟨rfl, hk⟩ | ⟨rfl, hk⟩
  · have e : i64 (n * 1) = n := by rw [Int.mul_one, i64_eq]; unfold InI64; omega
    rw [e]
    rcases Int.le_total 0 n with h0 | h0
    · rw [quo_nonneg _ h0, rem_nonneg _ h0]; unfold i64 i32; omega
    · rw [quo_neg _ h0, rem_neg _ h0]; unfold i64 i32; omega
  · have e : i64 (n * -1) = -n := by unfold i64; omega
    rw [e]
    rcases Int.le_total 0 (-n) with h0 | h0
    · rw [quo_nonneg _ h0, rem_nonneg _ h0]; unfold i64 i32; omega
    · rw [quo_neg _ h0, rem_neg _ h0]; unfold i64 i32; omega
  · have e : i64 (n * 1000) = n * 1000 := by unfold i64; omega
    rw [e]
    rcases Int.le_total 0 (n * 1000) with h0 | h0
    · rw [quo_nonneg _ h0, rem_nonneg _ h0]
      have e1 : i32 (n * 1000 % 1000000000) = n * 1000 % 1000000000 :=
        i32_eq (by unfold InI32; omega)
      have e2 : i64 (s * 1000) = s * 1000 := i64_eq (by unfold InI64; omega)
      have e3 : i64 (s * 1000 + n * 1000 / 1000000000) = s * 1000 + n * 1000 / 1000000000 :=
        i64_eq (by unfold InI64; omega)
      rw [e1, e2, e3]; omega
    · rw [quo_neg _ h0, rem_neg _ h0]
      have e1 : i32 (-(-(n * 1000) % 1000000000)) = -(-(n * 1000) % 1000000000) :=
        i32_eq (by unfold InI32; omega)
      have e2 : i64 (s * 1000) = s * 1000 := i64_eq (by unfold InI64; omega)
      have e3 : i64 (s * 1000 + -(-(n * 1000) / 1000000000)) = s * 1000 + -(-(n * 1000) / 1000000000) :=
        i64_eq (by unfold InI64; omega)
      rw [e1, e2, e3]; omega

theorem div_spec (d : Dur) (k : Int) (hc : Coherent d) (hs : InI64 d.sec) (hk : k = 1 ∨ k = 1000) :
    Coherent (d.div k) ∧ ns (d.div k) = quo (ns d) k := by
  obtain ⟨s, n⟩ := d
  unfold div Coherent ns at *
  unfold InI64 at hs
  simp only at *
  by_cases hneg : s < 0 ∨ n < 0
  · have hs0 : s ≤ 0 := by omega
    have hn0 : n ≤ 0 := by omega
    rcases hk with rfl | rfl
    · rw [quo_neg _ hs0, rem_neg _ hs0]
      have e : i64 (n + i64 (-(-s % 1) * 1000000000)) = n := by unfold i64; omega
      rw [e, quo_neg _ hn0, quo_neg _ (by omega)]
      unfold i64 i32; omega
    · rw [quo_neg _ hs0, rem_neg _ hs0]
      have e : i64 (n + i64 (-(-s % 1000) * 1000000000)) = n - (-s % 1000) * 1000000000 := by
        unfold i64; omega
      rw [e, quo_neg _ (by omega), quo_neg _ (by omega)]
      clear e
      generalize hr : -s % 1000 = r at *
      have hr' : 0 ≤ r ∧ r ≤ 999 := by omega
      have e1 : i64 (-(-(n - r * 1000000000) / 1000)) = -(-(n - r * 1000000000) / 1000) :=
        i64_eq (by unfold InI64; omega)
      have e2 : i32 (-(-(n - r * 1000000000) / 1000)) = -(-(n - r * 1000000000) / 1000) :=
        i32_eq (by unfold InI32; omega)
      have e3 : i64 (-(-s / 1000)) = -(-s / 1000) := i64_eq (by unfold InI64; omega)
      rw [e1, e2, e3]
      omega
  · have hs0 : 0 ≤ s := by omega
    have hn0 : 0 ≤ n := by omega
    rcases hk with rfl | rfl
    · rw [quo_nonneg _ hs0, rem_nonneg _ hs0]
      have e : i64 (n + i64 ((s % 1) * 1000000000)) = n := by unfold i64; omega
      rw [e, quo_nonneg _ hn0, quo_nonneg _ (by omega)]
      unfold i64 i32; omega
    · rw [quo_nonneg _ hs0, rem_nonneg _ hs0]
      have e : i64 (n + i64 ((s % 1000) * 1000000000)) = n + (s % 1000) * 1000000000 := by
        unfold i64; omega
      rw [e, quo_nonneg _ (by omega), quo_nonneg _ (by omega)]
      clear e
      generalize hr : s % 1000 = r at *
      have hr' : 0 ≤ r ∧ r ≤ 999 := by omega
      have e1 : i64 ((n + r * 1000000000) / 1000) = (n + r * 1000000000) / 1000 :=
        i64_eq (by unfold InI64; omega)
      have e2 : i32 ((n + r * 1000000000) / 1000) = (n + r * 1000000000) / 1000 :=
        i32_eq (by unfold InI32; omega)
      have e3 : i64 (s / 1000) = s / 1000 := i64_eq (by unfold InI64; omega)
      rw [e1, e2, e3]
      omega

/-- seconds for which conversion to `u` is exact -/
def ConvOk (d : Dur) (u : MUnit) : Prop := MultOk d (perSecond u)

theorem mult_sec_in (d : Dur) (k : Int) : InI64 (d.mult k).sec := i64_in _

theorem div_one (d : Dur) (hc : Coherent d) (hs : InI64 d.sec) : d.div 1 = d := by
  obtain ⟨h1, h2⟩ := div_spec d 1 hc hs (Or.inl rfl)
  exact ext_ns h1 hc (by rw [h2]; exact Int.tdiv_one _)

theorem mult_one (d : Dur) (hc : Coherent d) (hs : InI64 d.sec) : d.mult 1 = d := by
  obtain ⟨h1, h2⟩ := mult_spec d 1 hc (Or.inl ⟨rfl, hs⟩)
  exact ext_ns h1 hc (by rw [h2, Int.mul_one])

theorem convert_to (d : Dur) (u : MUnit) (hc : Coherent d) (h : ConvOk d u) :
    d.convert .second u = d.mult (perSecond u) := by
  have e : d.convert .second u = (d.mult (perSecond u)).div 1 := by
    cases u <;> rfl
  rw [e, div_one _ (mult_spec d _ hc h).1 (mult_sec_in _ _)]

theorem convert_from (d : Dur) (u : MUnit) (hc : Coherent d) (hs : InI64 d.sec) :
    d.convert u .second = d.div (perSecond u) := by
  have e : d.convert u .second = (d.mult 1).div (perSecond u) := by
    cases u <;> rfl
  rw [e, mult_one d hc hs]

theorem perSecond_cases (u : MUnit) : perSecond u = 1 ∨ perSecond u = 1000 := by
  cases u <;> simp [perSecond]

theorem div_mult (d : Dur) (u : MUnit) (hc : Coherent d) (h : ConvOk d u) :
    (d.mult (perSecond u)).div (perSecond u) = d := by
  obtain ⟨h1, h2⟩ := mult_spec d (perSecond u) hc h
  obtain ⟨h3, h4⟩ := div_spec _ _ h1 (mult_sec_in _ _) (perSecond_cases u)
  apply ext_ns h3 hc
  rw [h4, h2]
  apply Int.mul_tdiv_cancel
  rcases perSecond_cases u with h | h <;> omega

/-! ### text -/

/-- text is exact: away from the most negative second, `toString` is the canonical numeral -/
theorem toString_spec (d : Dur) (hc : Coherent d)
    (hs : -9223372036854775807 ≤ d.sec ∧ d.sec ≤ 9223372036854775807) :
    Denotes9 d.toString (ns d) := by
  have pos : ∀ p : Dur, Coherent p → 0 ≤ p.sec → 0 ≤ p.nsec →
      ∃ ws fs : Str, AllDigits ws ∧ NoLeadingZero ws ∧ AllDigits fs ∧ fs.length = 9 ∧
        (ns p).natAbs = numVal ws * 1000000000 + numVal fs ∧
        fmtInt p.sec ++ 46 :: fmtIntPad 9 p.nsec = ws ++ [46] ++ fs := by
    intro p hp h0 h1
    unfold Coherent at hp
    obtain ⟨a1, a2, a3⟩ := fmtNat_spec p.sec.natAbs
    obtain ⟨b1, b2, b3⟩ := zeroPad_spec 8 p.nsec.natAbs (by omega)
    refine ⟨_, _, a1, a2, b1, b2, ?_, ?_⟩
    · rw [a3, b3]; unfold ns; omega
    · unfold fmtInt fmtIntPad
      rw [if_neg (by omega), if_neg (by omega)]; simp
  unfold toString
  have hneg : d.isNegative = true ↔ ns d < 0 := by
    unfold isNegative ns; unfold Coherent at hc; simp; omega
  by_cases hn : d.isNegative = true
  · rw [if_pos hn]
    have hlt := hneg.1 hn
    obtain ⟨h1, h2⟩ := mult_spec d (-1) hc (Or.inr (Or.inl ⟨rfl, hs.1, hs.2⟩))
    have hge : 0 ≤ (d.mult (-1)).sec ∧ 0 ≤ (d.mult (-1)).nsec := by
      unfold Coherent at h1; unfold ns at h2 hlt; omega
    obtain ⟨ws, fs, c1, c2, c3, c4, c5, c6⟩ := pos _ h1 hge.1 hge.2
    refine ⟨ws, fs, c1, c2, c3, c4, ?_, ?_⟩
    · rw [← c5, h2]; omega
    · rw [if_pos hlt]; simp only; rw [c6]; simp
  · rw [if_neg hn]
    have hge : ¬ ns d < 0 := fun h => hn (hneg.2 h)
    have : 0 ≤ d.sec ∧ 0 ≤ d.nsec := by
      unfold isNegative at hn; simp at hn; omega
    obtain ⟨ws, fs, c1, c2, c3, c4, c5, c6⟩ := pos d hc this.1 this.2
    exact ⟨ws, fs, c1, c2, c3, c4, c5, by rw [if_neg hge, c6]; simp⟩

/-! ### parsing -/

theorem splitN2_digits (ws r : Str) (h : AllDigits ws) :
    splitN2 46 (ws ++ 46 :: r) = (ws, some r) ∧ splitN2 46 ws = (ws, none) := by
  induction ws with
  | nil => exact ⟨rfl, rfl⟩
  | cons c cs ih =>
    have hc := h c (by simp)
    have hne : c ≠ 46 := by intro e; subst e; simp at hc
    obtain ⟨i1, i2⟩ := ih (fun d hd => h d (by simp [hd]))
    constructor
    · simp only [List.cons_append, splitN2, if_neg hne]; rw [i1]
    · simp only [splitN2, if_neg hne]; rw [i2]

theorem splitN2_eq (s : Str) :
    (∃ a r, splitN2 46 s = (a, some r) ∧ s = a ++ 46 :: r) ∨ splitN2 46 s = (s, none) := by
  induction s with
  | nil => right; rfl
  | cons c cs ih =>
    by_cases hc : c = 46
    · subst hc; left; exact ⟨[], cs, by simp [splitN2], rfl⟩
    · rcases ih with ⟨a, r, h1, h2⟩ | h
      · left; exact ⟨c :: a, r, by simp [splitN2, hc, h1], by simp [h2]⟩
      · right; simp [splitN2, hc, h]

/-- the value read from the digits after the point: nine digits, zero filled, rest dropped -/
def fracOf (fs : Str) : Nat := numVal ((fs ++ List.replicate 9 48).take 9)

theorem numVal_lt (ds : Str) (h : AllDigits ds) : numVal ds < 10 ^ ds.length := by
  induction ds with
  | nil => decide
  | cons c cs ih =>
    have hc := h c (by simp)
    have := ih (fun d hd => h d (by simp [hd]))
    have e : c :: cs = [c] ++ cs := rfl
    rw [e, numVal_append, numVal_singleton, List.length_append, Nat.add_comm, Nat.pow_add]
    generalize 10 ^ cs.length = p at *
    have h2 : (c.toNat - 48) * p ≤ 9 * p := Nat.mul_le_mul_right _ (by omega)
    simp; omega

theorem padTake (fs : Str) :
    (if fs.length < 9 then fs ++ List.replicate (9 - fs.length) 48 else fs.take 9) =
      (fs ++ List.replicate 9 48).take 9 := by
  by_cases h : fs.length < 9
  · rw [if_pos h, List.take_append, List.take_of_length_le (by omega), List.take_replicate]
    congr 2; omega
  · rw [if_neg h, List.take_append_of_le_length (by omega)]

theorem padTake_length (fs : Str) : ((fs ++ List.replicate 9 48).take 9).length = 9 := by
  simp

theorem allDigits_take (n : Nat) {ds : Str} (h : AllDigits ds) : AllDigits (ds.take n) :=
  fun d hd => h d (List.mem_of_mem_take hd)

/-- Full characterisation of what `parse` accepts and returns. -/
theorem parse_iff (s : Str) (d : Dur) :
    parse s = some d ↔
      ∃ (neg : Bool) (body number0 : Str) (number1 : Option Str) (whole : Int) (frac : Nat),
        (neg = true ∧ s = 45 :: body ∨ neg = false ∧ s = body ∧ cutByte 45 s = none) ∧
        splitN2 46 body = (number0, number1) ∧
        parseInt64 number0 = some whole ∧ 0 ≤ whole ∧
        (number1 = none ∧ frac = 0 ∨ ∃ fs, number1 = some fs ∧
          AllDigits ((fs ++ List.replicate 9 48).take 9) ∧ frac = fracOf fs) ∧
        d = if neg then ⟨-whole, -(frac : Int)⟩ else ⟨whole, frac⟩ := by
  have hparse : ∀ (neg : Bool) (body : Str),
      cutMinus s = (neg, body) ↔
      (neg = true ∧ s = 45 :: body ∨ neg = false ∧ s = body ∧ cutByte 45 s = none) := by
    intro neg body
    cases s with
    | nil => simp [cutMinus, cutByte]
    | cons c cs =>
      by_cases hc : c = 45
      · subst hc; simp [cutMinus, cutByte]
      · simp [cutMinus, cutByte, hc]
  unfold parse
  generalize hm : cutMinus s = m at *
  obtain ⟨neg, body⟩ := m
  have h0 := (hparse neg body).1 rfl
  have huniq : ∀ neg' body', (neg' = true ∧ s = 45 :: body' ∨ neg' = false ∧ s = body' ∧ cutByte 45 s = none) →
      neg' = neg ∧ body' = body := by
    intro neg' body' h
    have := (hparse neg' body').2 h
    simp at this; exact ⟨this.1.symm, this.2.symm⟩
  simp only
  obtain ⟨number0, number1, hsp⟩ : ∃ a b, splitN2 46 body = (a, b) := ⟨_, _, rfl⟩
  simp only [hsp]
  have fraclt : ∀ fs, AllDigits ((fs ++ List.replicate 9 48).take 9) → fracOf fs < 1000000000 := by
    intro fs hfs
    have := numVal_lt _ hfs
    rw [padTake_length] at this
    exact this
  have hfr : ∀ frac : Nat, parseFrac number1 = some frac ↔
      (number1 = none ∧ frac = 0 ∨ ∃ fs, number1 = some fs ∧
          AllDigits ((fs ++ List.replicate 9 48).take 9) ∧ frac = fracOf fs) := by
    intro frac
    cases number1 with
    | none => simp [parseFrac]; omega
    | some fs =>
      simp only [parseFrac, padTake, parseUint_iff]
      constructor
      · rintro ⟨_, h2, h3, _⟩
        exact Or.inr ⟨fs, rfl, h2, h3.symm⟩
      · rintro (⟨h, _⟩ | ⟨fs', h1, h2, h3⟩)
        · cases h
        · cases h1
          refine ⟨?_, h2, h3.symm, ?_⟩
          · intro he
            have := padTake_length fs
            rw [he] at this; simp at this
          · have := fraclt fs h2; omega
  cases hw : parseInt64 number0 with
  | none =>
    simp only [reduceCtorEq, false_iff]
    rintro ⟨neg', body', n0, n1, whole, frac, h1, h2, h3, _⟩
    obtain ⟨rfl, rfl⟩ := huniq _ _ h1
    rw [hsp] at h2; cases h2
    rw [hw] at h3; cases h3
  | some whole =>
    simp only
    by_cases hneg : whole < 0
    · rw [if_pos hneg]
      simp only [reduceCtorEq, false_iff]
      rintro ⟨neg', body', n0, n1, whole', frac, h1, h2, h3, h4, _⟩
      obtain ⟨rfl, rfl⟩ := huniq _ _ h1
      rw [hsp] at h2; cases h2
      rw [hw] at h3; cases h3; omega
    · rw [if_neg hneg]
      have hwin : whole ≤ 9223372036854775807 := by
        obtain ⟨ds, _, _, h⟩ := (parseInt64_iff _ _).1 hw
        omega
      constructor
      · intro h
        split at h
        · cases h
        · rename_i frac hf
          have hf' := (hfr frac).1 hf
          have hlt : frac < 1000000000 := by
            rcases hf' with ⟨_, h⟩ | ⟨fs, _, h2, h3⟩
            · omega
            · rw [h3]; exact fraclt fs h2
          refine ⟨neg, body, number0, number1, whole, frac, h0, hsp, hw, by omega, hf', ?_⟩
          rw [if_neg (by omega)] at h
          cases neg
          · simp at h ⊢
            rw [← h, Dur.mk.injEq]; unfold i32; omega
          · simp at h ⊢
            rw [← h, Dur.mk.injEq]; unfold i64 i32; omega
      · rintro ⟨neg', body', n0, n1, whole', frac, h1, h2, h3, h4, h5, h6⟩
        obtain ⟨rfl, rfl⟩ := huniq _ _ h1
        rw [hsp] at h2; cases h2
        rw [hw] at h3; cases h3
        have hlt : frac < 1000000000 := by
          rcases h5 with ⟨_, h⟩ | ⟨fs, _, h2, h3⟩
          · omega
          · rw [h3]; exact fraclt fs h2
        rw [(hfr frac).2 h5]
        simp only
        rw [if_neg (by omega), h6]
        cases neg'
        · simp; unfold i32; omega
        · simp; unfold i64 i32; omega

/-- `fracOf` is truncation of the fraction to nine decimals. -/
theorem fracOf_eq (fs : Str) (h : AllDigits fs) :
    fracOf fs = numVal (fs ++ List.replicate 9 48) / 10 ^ fs.length := by
  unfold fracOf
  have e : fs ++ List.replicate 9 48 = (fs ++ List.replicate 9 48).take 9 ++ (fs ++ List.replicate 9 48).drop 9 :=
    (List.take_append_drop 9 _).symm
  have hl : ((fs ++ List.replicate 9 (48:UInt8)).drop 9).length = fs.length := by simp
  have hd : AllDigits ((fs ++ List.replicate 9 (48:UInt8)).drop 9) := fun d hd =>
    allDigits_append.2 ⟨h, allDigits_zeros 9⟩ d (List.mem_of_mem_drop hd)
  have hlt := numVal_lt _ hd
  rw [hl] at hlt
  conv => rhs; rw [e]
  rw [numVal_append, hl]
  have hp : 0 < 10 ^ fs.length := Nat.pow_pos (by omega)
  rw [Nat.mul_comm, Nat.mul_add_div hp, Nat.div_eq_of_lt hlt, Nat.add_zero]

theorem parseInt64_digits (ws : Str) (h0 : ws ≠ []) (h : AllDigits ws)
    (hlt : numVal ws < 9223372036854775808) : parseInt64 ws = some (numVal ws : Int) :=
  (parseInt64_iff _ _).2 ⟨ws, h0, h, Or.inl ⟨Or.inl rfl, rfl, hlt⟩⟩

theorem cut_digits (ws r : Str) (h0 : ws ≠ []) (h : AllDigits ws) : cutByte 45 (ws ++ r) = none := by
  cases ws with
  | nil => exact absurd rfl h0
  | cons c cs =>
    have hc := h c (by simp)
    have hne : c ≠ 45 := by intro e; subst e; simp at hc
    simp [cutByte, hne]

/-- every plain decimal is accepted, with the right value -/
theorem parse_plain (s : Str) (v : Int) (h : PlainDecimal s v) :
    ∃ d, parse s = some d ∧ Coherent d ∧ d.Typed ∧ ns d = v := by
  obtain ⟨neg, ws, fs, h1, h2, h3, h4, h5, h6⟩ := h
  have hfr := fracOf_eq fs h3
  have hfd : AllDigits ((fs ++ List.replicate 9 48).take 9) :=
    allDigits_take 9 (allDigits_append.2 ⟨h3, allDigits_zeros 9⟩)
  have hlt : fracOf fs < 1000000000 := by
    have := numVal_lt _ hfd
    rw [padTake_length] at this; exact this
  rw [← hfr] at h6
  refine ⟨if neg then ⟨-(numVal ws : Int), -(fracOf fs : Int)⟩ else ⟨numVal ws, fracOf fs⟩, ?_, ?_, ?_, ?_⟩
  · rw [parse_iff]
    rcases h5 with h5 | ⟨hfs, h5⟩
    · refine ⟨neg, ws ++ 46 :: fs, ws, some fs, numVal ws, fracOf fs, ?_,
        (splitN2_digits ws fs h2).1, parseInt64_digits ws h1 h2 h4, by omega,
        Or.inr ⟨fs, rfl, hfd, rfl⟩, rfl⟩
      cases neg
      · right; simp at h5; exact ⟨rfl, h5, by rw [h5]; exact cut_digits _ _ h1 h2⟩
      · left; simp at h5; exact ⟨rfl, h5⟩
    · subst hfs
      have h0 : fracOf [] = 0 := by decide
      refine ⟨neg, ws, ws, none, numVal ws, 0, ?_,
        (splitN2_digits ws [] h2).2, parseInt64_digits ws h1 h2 h4, by omega,
        Or.inl ⟨rfl, rfl⟩, ?_⟩
      · cases neg
        · right; simp at h5
          refine ⟨rfl, h5, ?_⟩
          have := cut_digits ws [] h1 h2
          rw [List.append_nil] at this; rw [h5]; exact this
        · left; simp at h5; exact ⟨rfl, h5⟩
      · rw [h0]
  · cases neg <;> simp [Coherent] <;> omega
  · cases neg <;> simp [Typed, InI64, InI32] <;> omega
  · rw [h6]; cases neg <;> simp [ns] <;> omega

theorem denotes_plain (s : Str) (v : Int) (h : Denotes9 s v) (hv : v.natAbs < 9223372036854775808 * 1000000000) :
    PlainDecimal s v := by
  obtain ⟨ws, fs, h1, h2, h3, h4, h5, h6⟩ := h
  have hne : ws ≠ [] := by
    rcases h2 with h2 | ⟨d, r, h2, _⟩ <;> rw [h2] <;> simp
  have hf : numVal (fs ++ List.replicate 9 48) / 10 ^ fs.length = numVal fs := by
    rw [h4, numVal_append, numVal_zeros]
    simp
  refine ⟨decide (v < 0), ws, fs, hne, h1, h3, by omega, Or.inl ?_, ?_⟩
  · by_cases h : v < 0 <;> simp [h] at h6 ⊢ <;> exact h6
  · rw [hf, ← h5]
    by_cases h : v < 0 <;> simp [h] <;> omega

/-- round trip of the text form -/
theorem parse_toString (d : Dur) (hc : Coherent d)
    (hs : -9223372036854775807 ≤ d.sec ∧ d.sec ≤ 9223372036854775807) :
    parse d.toString = some d := by
  have h := toString_spec d hc hs
  have hp := denotes_plain _ _ h (by unfold ns; unfold Coherent at hc; omega)
  obtain ⟨d', h1, h2, _, h4⟩ := parse_plain _ _ hp
  rw [h1, ext_ns h2 hc h4]

theorem mult_sec_bound (d : Dur) (u : MUnit) (hc : Coherent d) (h : ConvOk d u)
    (hs : -9223372036854775807 ≤ d.sec) :
    -9223372036854775807 ≤ (d.mult (perSecond u)).sec ∧ (d.mult (perSecond u)).sec ≤ 9223372036854775807 := by
  obtain ⟨h1, h2⟩ := mult_spec d _ hc h
  have h3 := mult_sec_in d (perSecond u)
  unfold InI64 at h3
  unfold ConvOk MultOk InI64 at h
  unfold Coherent at h1 hc
  unfold ns at h2
  rcases perSecond_cases u with e | e <;> rw [e] at h h1 h2 h3 ⊢ <;> omega

theorem parseWithUnit_stringUsingUnits (d : Dur) (u : MUnit) (hc : Coherent d) (h : ConvOk d u)
    (hs : -9223372036854775807 ≤ d.sec) :
    parseWithUnit (stringUsingUnits d u) u = some d ∧
    Denotes9 (stringUsingUnits d u) (ns d * perSecond u) := by
  unfold parseWithUnit stringUsingUnits
  rw [convert_to d u hc h]
  obtain ⟨h1, h2⟩ := mult_spec d (perSecond u) hc h
  have hb := mult_sec_bound d u hc h hs
  rw [parse_toString _ h1 hb]
  refine ⟨?_, ?_⟩
  · simp only
    rw [convert_from _ u h1 (mult_sec_in _ _), div_mult d u hc h]
  · rw [← h2]; exact toString_spec _ h1 hb

theorem new_convOk (x : Int) (hx : InI64 x) (u : MUnit) :
    ConvOk (new x) u ∧ -9223372036854775807 ≤ (new x).sec := by
  obtain ⟨h1, h2, h3⟩ := new_coherent x hx
  unfold ConvOk MultOk
  unfold Coherent at h1; unfold ns at h2; unfold Typed at h3; unfold InI64 at *
  rcases perSecond_cases u with e | e <;> rw [e] <;> omega

/-! ### instants -/

theorem sinceEpoch_spec (t : Time) (h : t.Valid) :
    Coherent (sinceEpoch t) ∧ ns (sinceEpoch t) = instantNs t ∧ (sinceEpoch t).Typed ∧
    asGoTime (sinceEpoch t) = t := by
  obtain ⟨s, n⟩ := t
  unfold Time.Valid InI64 at h
  simp only at h
  have e : i32 n = n := by unfold i32; omega
  unfold sinceEpoch
  simp only [e]
  split
  · rename_i hc
    have e1 : i64 (s + 1) = s + 1 := by unfold i64; omega
    have e2 : i32 (n - 1000000000) = n - 1000000000 := by unfold i32; omega
    rw [e1, e2]
    refine ⟨by unfold Coherent; simp only; omega, by unfold ns instantNs; simp only; omega,
      by unfold Typed InI64 InI32; simp only; omega, ?_⟩
    unfold asGoTime Time.unix
    simp only
    have e3 : quo (n - 1000000000) 1000000000 = 0 := by
      rw [quo_neg _ (by omega)]; omega
    rw [if_pos (by omega), e3]
    have e4 : i64 (s + 1 + 0) = s + 1 := by unfold i64; omega
    rw [e4, if_pos (by omega)]
    have e5 : i64 (s + 1 - 1) = s := by unfold i64; omega
    rw [e5]; congr 1; omega
  · refine ⟨by unfold Coherent; simp only; omega, by unfold ns instantNs; simp only,
      by unfold Typed InI64 InI32; simp only; omega, ?_⟩
    unfold asGoTime Time.unix
    simp only
    rw [if_neg (by omega)]

end Tricorder.Dur
