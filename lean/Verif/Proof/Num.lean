import Verif.Go.Num
import Verif.Spec.Decimal
/-! Lemmas about decimal formatting and parsing. -/

namespace Go
open Spec

theorem digitByte_toNat {d : Nat} (h : d < 10) : (digitByte d).toNat = 48 + d := by
  unfold digitByte; simp; omega

theorem isDigit_iff (b : UInt8) : isDigit b = true ↔ 48 ≤ b.toNat ∧ b.toNat ≤ 57 := by
  simp [isDigit, UInt8.le_iff_toNat_le]

theorem isDigit_digitByte {d : Nat} (h : d < 10) : isDigit (digitByte d) = true := by
  rw [isDigit_iff, digitByte_toNat h]; omega

theorem digitsAux_fuel (f g n : Nat) (hf : n < f) (hg : n < g) : digitsAux f n = digitsAux g n := by
  induction f generalizing g n with
  | zero => omega
  | succ f ih =>
    cases g with
    | zero => omega
    | succ g =>
      simp only [digitsAux]
      split
      · rfl
      · rw [ih g (n / 10) (by omega) (by omega)]

theorem fmtNat_eq (n : Nat) :
    fmtNat n = if n < 10 then [digitByte n] else fmtNat (n / 10) ++ [digitByte (n % 10)] := by
  unfold fmtNat
  rw [digitsAux]
  split
  · rfl
  · rw [digitsAux_fuel n (n / 10 + 1) (n / 10) (by omega) (by omega)]

theorem numVal_append (a b : Str) : numVal (a ++ b) = numVal a * 10 ^ b.length + numVal b := by
  unfold numVal
  rw [List.foldl_append]
  generalize List.foldl (fun a d => 10 * a + (UInt8.toNat d - 48)) 0 a = x
  induction b generalizing x with
  | nil => simp
  | cons c cs ih =>
    simp only [List.foldl_cons, List.length_cons]
    rw [ih (10 * x + (c.toNat - 48)), ih (10 * 0 + (c.toNat - 48))]
    rw [Nat.pow_succ]
    generalize 10 ^ cs.length = p
    generalize List.foldl (fun a d => 10 * a + (UInt8.toNat d - 48)) 0 cs = y
    rw [Nat.add_mul, Nat.mul_zero, Nat.zero_add, Nat.mul_comm p 10, ← Nat.mul_assoc,
      Nat.mul_comm 10 x, Nat.add_assoc]

@[simp] theorem numVal_nil : numVal [] = 0 := rfl
theorem numVal_singleton (c : UInt8) : numVal [c] = c.toNat - 48 := by simp [numVal]

theorem fmtNat_spec (n : Nat) :
    AllDigits (fmtNat n) ∧ NoLeadingZero (fmtNat n) ∧ numVal (fmtNat n) = n := by
  induction n using Nat.strongRecOn with
  | _ n ih =>
    rw [fmtNat_eq]
    split
    · rename_i h
      refine ⟨?_, ?_, ?_⟩
      · intro d hd
        simp at hd; subst hd
        rw [digitByte_toNat h]; omega
      · by_cases h0 : n = 0
        · subst h0; left; rfl
        · right; refine ⟨digitByte n, [], rfl, ?_⟩
          intro hc
          have := congrArg UInt8.toNat hc
          rw [digitByte_toNat h] at this
          simp at this; omega
      · rw [numVal_singleton, digitByte_toNat h]; omega
    · rename_i h
      obtain ⟨h1, h2, h3⟩ := ih (n / 10) (by omega)
      have hm : n % 10 < 10 := by omega
      refine ⟨?_, ?_, ?_⟩
      · intro d hd
        rw [List.mem_append] at hd
        rcases hd with hd | hd
        · exact h1 d hd
        · simp at hd; subst hd
          rw [digitByte_toNat hm]; omega
      · right
        rcases h2 with h2 | ⟨d, r, h2, h4⟩
        · exfalso
          have : numVal (fmtNat (n / 10)) = 0 := by rw [h2]; rfl
          omega
        · exact ⟨d, r ++ [digitByte (n % 10)], by rw [h2]; rfl, h4⟩
      · rw [numVal_append, h3, numVal_singleton, digitByte_toNat hm]
        simp; omega

theorem fmtNat_ne_nil (n : Nat) : fmtNat n ≠ [] := by
  rw [fmtNat_eq]; split <;> simp

theorem fmtNat_length_le (k n : Nat) (h : n < 10 ^ (k + 1)) : (fmtNat n).length ≤ k + 1 := by
  induction k generalizing n with
  | zero => rw [fmtNat_eq]; simp at h; simp [h]
  | succ k ih =>
    rw [fmtNat_eq]
    split
    · simp
    · have := ih (n / 10) (by rw [Nat.pow_succ] at h; omega)
      simp; omega

theorem allDigits_append {a b : Str} : AllDigits (a ++ b) ↔ AllDigits a ∧ AllDigits b := by
  unfold AllDigits; simp only [List.mem_append]
  constructor
  · intro h; exact ⟨fun d hd => h d (Or.inl hd), fun d hd => h d (Or.inr hd)⟩
  · rintro ⟨h1, h2⟩ d (hd | hd)
    · exact h1 d hd
    · exact h2 d hd

theorem allDigits_zeros (k : Nat) : AllDigits (List.replicate k 48) := by
  intro d hd; rw [List.mem_replicate] at hd; rw [hd.2]; decide

theorem numVal_zeros (k : Nat) : numVal (List.replicate k 48) = 0 := by
  induction k with
  | zero => rfl
  | succ k ih =>
    have : List.replicate (k + 1) (48 : UInt8) = [48] ++ List.replicate k 48 := rfl
    rw [this, numVal_append, ih]; simp [numVal]

theorem zeroPad_spec (k n : Nat) (h : n < 10 ^ (k + 1)) :
    AllDigits (zeroPad (k + 1) (fmtNat n)) ∧ (zeroPad (k + 1) (fmtNat n)).length = k + 1 ∧
    numVal (zeroPad (k + 1) (fmtNat n)) = n := by
  obtain ⟨h1, _, h3⟩ := fmtNat_spec n
  have h4 := fmtNat_length_le k n h
  unfold zeroPad
  refine ⟨allDigits_append.2 ⟨allDigits_zeros _, h1⟩, by simp; omega, ?_⟩
  rw [numVal_append, numVal_zeros, h3]; omega

/-- `fmtInt` is the canonical numeral. -/
theorem fmtInt_spec (x : Int) : DenotesInt (fmtInt x) x := by
  obtain ⟨h1, h2, h3⟩ := fmtNat_spec x.natAbs
  refine ⟨fmtNat x.natAbs, h1, h2, h3.symm, ?_⟩
  unfold fmtInt; split <;> rfl

theorem parseDigits_eq (acc : Nat) (s : Str) (h : AllDigits s) :
    parseDigits acc s = some (acc * 10 ^ s.length + numVal s) := by
  induction s generalizing acc with
  | nil => simp [parseDigits]
  | cons c cs ih =>
    have hc := h c (by simp)
    have hcs : AllDigits cs := fun d hd => h d (by simp [hd])
    rw [parseDigits, if_pos ((isDigit_iff c).2 hc), ih _ hcs]
    have : c :: cs = [c] ++ cs := rfl
    rw [this, numVal_append, numVal_singleton]
    simp only [List.length_append, List.length_cons, List.length_nil]
    rw [Nat.add_comm (0 + 1), Nat.pow_succ]
    generalize 10 ^ cs.length = p
    rw [Nat.add_mul, Nat.mul_assoc, Nat.mul_comm 10 p, Nat.add_assoc]

theorem parseDigits_some {acc : Nat} {s : Str} {n : Nat} (h : parseDigits acc s = some n) :
    AllDigits s := by
  induction s generalizing acc with
  | nil => intro d hd; simp at hd
  | cons c cs ih =>
    rw [parseDigits] at h
    split at h
    · rename_i hc
      intro d hd
      rcases List.mem_cons.1 hd with hd | hd
      · subst hd; exact (isDigit_iff _).1 hc
      · exact ih h d hd
    · cases h

theorem parseUint_iff (bits : Nat) (s : Str) (n : Nat) :
    parseUint bits s = some n ↔ s ≠ [] ∧ AllDigits s ∧ numVal s = n ∧ n < 2 ^ bits := by
  unfold parseUint
  split
  · rename_i h; simp [h]
  · rename_i h
    constructor
    · intro h1
      cases hp : parseDigits 0 s with
      | none => rw [hp] at h1; cases h1
      | some m =>
        rw [hp] at h1
        have hd := parseDigits_some hp
        rw [parseDigits_eq 0 s hd] at hp
        simp at hp
        simp only at h1
        split at h1
        · simp at h1; subst h1; subst hp; rename_i hlt; exact ⟨h, hd, rfl, hlt⟩
        · cases h1
    · rintro ⟨_, hd, hv, hlt⟩
      rw [parseDigits_eq 0 s hd]
      simp [hv, hlt]

/-- the sign handling and range of `strconv.ParseInt(s, 10, 64)` -/
theorem parseInt64_iff (s : Str) (x : Int) :
    parseInt64 s = some x ↔
      ∃ ds : Str, ds ≠ [] ∧ AllDigits ds ∧
        ((s = ds ∨ s = 43 :: ds) ∧ x = numVal ds ∧ numVal ds < 9223372036854775808 ∨
         s = 45 :: ds ∧ x = -(numVal ds : Int) ∧ numVal ds ≤ 9223372036854775808) := by
  cases s with
  | nil =>
    constructor
    · intro h; cases h
    · rintro ⟨ds, hne, _, ⟨h | h, _⟩ | ⟨h, _⟩⟩
      · exact absurd h.symm hne
      · cases h
      · cases h
  | cons c cs =>
    have key : ∀ ds : Str, AllDigits ds → ds ≠ [] → ∀ e es, ds = e :: es → e ≠ 43 ∧ e ≠ 45 := by
      intro ds hds _ e es he
      have := hds e (by rw [he]; simp)
      constructor <;> (intro hc; subst hc; simp at this)
    constructor
    · intro h
      simp only [parseInt64] at h
      by_cases hp : c = 43
      · subst hp
        simp at h
        cases hu : parseUint 64 cs with
        | none => rw [hu] at h; cases h
        | some n =>
          rw [hu] at h; simp at h
          obtain ⟨h1, h2, h3, h4⟩ := (parseUint_iff _ _ _).1 hu
          refine ⟨cs, h1, h2, Or.inl ⟨Or.inr rfl, ?_, ?_⟩⟩ <;> omega
      · by_cases hm : c = 45
        · subst hm
          simp at h
          cases hu : parseUint 64 cs with
          | none => rw [hu] at h; cases h
          | some n =>
            rw [hu] at h; simp at h
            obtain ⟨h1, h2, h3, h4⟩ := (parseUint_iff _ _ _).1 hu
            refine ⟨cs, h1, h2, Or.inr ⟨rfl, ?_, ?_⟩⟩ <;> omega
        · simp [hp, hm] at h
          cases hu : parseUint 64 (c :: cs) with
          | none => rw [hu] at h; cases h
          | some n =>
            rw [hu] at h; simp at h
            obtain ⟨h1, h2, h3, h4⟩ := (parseUint_iff _ _ _).1 hu
            refine ⟨c :: cs, h1, h2, Or.inl ⟨Or.inl rfl, ?_, ?_⟩⟩ <;> omega
    · rintro ⟨ds, hne, hd, h⟩
      rcases h with ⟨hs | hs, hx, hr⟩ | ⟨hs, hx, hr⟩
      · obtain ⟨h43, h45⟩ := key ds hd hne c cs hs.symm
        subst hs
        have hu : parseUint 64 (c :: cs) = some (numVal (c :: cs)) :=
          (parseUint_iff _ _ _).2 ⟨hne, hd, rfl, by omega⟩
        simp [parseInt64, h43, h45, hu, hx]; omega
      · simp at hs; obtain ⟨hc, hcs⟩ := hs; subst hc; subst hcs
        have hu : parseUint 64 cs = some (numVal cs) :=
          (parseUint_iff _ _ _).2 ⟨hne, hd, rfl, by omega⟩
        simp [parseInt64, hu, hx]; omega
      · simp at hs; obtain ⟨hc, hcs⟩ := hs; subst hc; subst hcs
        have hu : parseUint 64 cs = some (numVal cs) :=
          (parseUint_iff _ _ _).2 ⟨hne, hd, rfl, by omega⟩
        simp [parseInt64, hu, hx]; omega

end Go
