import Verif.Proof.ShortOrder
import Verif.Props.Render
/-!
# C115: short forms keep the order
-/

namespace Tricorder
open Go Spec _root_.Spec

theorem html_shown (fm : Fmts) {d : Dyn} {t : Ty} {x : ℤ} (h : IsIntVal d t x) {u : MUnit} (hu : u ≠ .none) :
    ∃ s v, valueToHtmlString fm d t u false = some s ∧ FormOf (radixFor u) (u = .bytePerSecond) s v ∧ Shown (radixFor u) x v := by
  unfold valueToHtmlString
  have n1 : byteSuffixes = names 1024 false := rfl
  have n2 : bytePerSecondSuffixes = names 1024 true := rfl
  have n3 : suffixes = names 1000 false := rfl
  rcases isIntVal_cases h with ⟨h1, h2, h3⟩ | ⟨h1, h2, h3, h4, h5⟩
  · rw [if_pos ⟨h1, rfl⟩, h2, n1, n2, n3]
    simp only [Option.bind_some]
    cases u with
    | none => exact absurd rfl hu
    | byte => exact iCompactForm_shown (by norm_num) (by norm_num) _ h3
    | bytePerSecond => exact iCompactForm_shown (by norm_num) (by norm_num) _ h3
    | _ => exact iCompactForm_shown (by norm_num) (by norm_num) _ h3
  · rw [if_neg (by simp [h1]), if_pos ⟨h2, rfl⟩, h3, n1, n2, n3]
    simp only [Option.bind_some]
    obtain ⟨y, rfl⟩ : ∃ y : ℕ, x = y := ⟨x.toNat, by omega⟩
    have hy : y < 2 ^ 64 := by norm_num; omega
    cases u with
    | none => exact absurd rfl hu
    | byte => exact uCompactForm_shown (by norm_num) (by norm_num) _ hy
    | bytePerSecond => exact uCompactForm_shown (by norm_num) (by norm_num) _ hy
    | _ => exact uCompactForm_shown (by norm_num) (by norm_num) _ hy

/-- **C115** Two integers, of any types, with the same unit, not `None`.  The short form of the greater one does not stand for a smaller
number than that of the other one. -/
theorem C115_order (fm : Fmts) {d d' : Dyn} {t t' : Ty} {x x' : ℤ} (h : IsIntVal d t x) (h' : IsIntVal d' t' x') (hle : x ≤ x')
    {u : MUnit} (hu : u ≠ .none) :
    ∃ s s' v v', valueToHtmlString fm d t u false = some s ∧ valueToHtmlString fm d' t' u false = some s' ∧
      FormOf (radixFor u) (u = .bytePerSecond) s v ∧ FormOf (radixFor u) (u = .bytePerSecond) s' v' ∧ v ≤ v' := by
  obtain ⟨s, v, g1, g2, g3⟩ := html_shown fm h hu
  obtain ⟨s', v', k1, k2, k3⟩ := html_shown fm h' hu
  refine ⟨s, s', v, v', g1, k1, g2, k2, g3.mono ?_ k3 hle⟩
  unfold radixFor
  split <;> norm_num

theorem cut_unique {P : UInt8 → Prop} {a a' r r' : Str} (ha : ∀ b ∈ a, P b) (ha' : ∀ b ∈ a', P b)
    (hr : ∀ b l, r = b :: l → ¬ P b) (hr' : ∀ b l, r' = b :: l → ¬ P b) (h : a ++ r = a' ++ r') : a = a' ∧ r = r' := by
  induction a generalizing a' with
  | nil =>
    cases a' with
    | nil => exact ⟨rfl, h⟩
    | cons c a' => exact absurd (ha' c (by simp)) (hr c (a' ++ r') h)
  | cons b a ih =>
    cases a' with
    | nil => exact absurd (ha b (by simp)) (hr' b (a ++ r) h.symm)
    | cons c a' =>
      simp only [List.cons_append, List.cons.injEq] at h
      obtain ⟨rfl, h⟩ := h
      obtain ⟨e1, e2⟩ := ih (fun b hb => ha b (by simp [hb])) (fun b hb => ha' b (by simp [hb])) h
      exact ⟨by rw [e1], e2⟩

theorem digits_first {ws : Str} (h1 : AllDigits ws) (h2 : NoLeadingZero ws) (r : Str) : ∀ l, ws ++ r ≠ 45 :: l := by
  intro l h
  have : ∃ c cs, ws = c :: cs := by
    rcases h2 with rfl | ⟨c, cs, rfl, -⟩
    · exact ⟨_, _, rfl⟩
    · exact ⟨_, _, rfl⟩
  obtain ⟨c, cs, rfl⟩ := this
  simp only [List.cons_append, List.cons.injEq] at h
  have := h1 c (by simp)
  rw [h.1] at this
  exact absurd this (by decide)

theorem fix_unique {num : Str} {n n' : ℕ} {m m' : ℤ} (h : DenotesFix num n m) (h' : DenotesFix num n' m') : n = n' ∧ m = m' := by
  obtain ⟨ws, fs, a1, a2, a3, a4, a5, rfl⟩ := h
  obtain ⟨ws', fs', b1, b2, b3, b4, b5, h⟩ := h'
  rw [List.append_assoc, List.append_assoc] at h
  have hs : (m < 0 ↔ m' < 0) ∧ ws ++ (if n = 0 then [] else 46 :: fs) = ws' ++ (if n' = 0 then [] else 46 :: fs') := by
    by_cases c : m < 0 <;> by_cases c' : m' < 0
    · rw [if_pos c, if_pos c'] at h
      exact ⟨by simp [c, c'], by simpa using h⟩
    · rw [if_pos c, if_neg c'] at h
      exact absurd h.symm (digits_first b1 b2 _ _)
    · rw [if_neg c, if_pos c'] at h
      exact absurd h (digits_first a1 a2 _ _)
    · rw [if_neg c, if_neg c'] at h
      exact ⟨by simp [c, c'], by simpa using h⟩
  obtain ⟨hs, h⟩ := hs
  have dot : ∀ (k : ℕ) (gs : Str) b l, (if k = 0 then [] else 46 :: gs : Str) = b :: l → ¬ (48 ≤ b.toNat ∧ b.toNat ≤ 57) := by
    intro k gs b l hb
    split at hb
    · cases hb
    · cases hb; decide
  obtain ⟨rfl, hf⟩ := cut_unique a1 b1 (dot n fs) (dot n' fs') h
  have hn : n = n' ∧ fs = fs' := by
    by_cases c : n = 0 <;> by_cases c' : n' = 0
    · subst c c'
      rw [List.length_eq_zero_iff.mp a4, List.length_eq_zero_iff.mp b4]
      exact ⟨rfl, rfl⟩
    · rw [if_pos c, if_neg c'] at hf; cases hf
    · rw [if_neg c, if_pos c'] at hf; cases hf
    · rw [if_neg c, if_neg c'] at hf
      simp only [List.cons.injEq, true_and] at hf
      subst hf
      exact ⟨a4.symm.trans b4, rfl⟩
  obtain ⟨rfl, rfl⟩ := hn
  refine ⟨rfl, ?_⟩
  have : m.natAbs = m'.natAbs := a5.trans b5.symm
  omega

/-- the bytes of a numeral -/
def FormByte (b : UInt8) : Prop := (48 ≤ b.toNat ∧ b.toNat ≤ 57) ∨ b = 45 ∨ b = 46

theorem fix_bytes {num : Str} {n : ℕ} {m : ℤ} (h : DenotesFix num n m) : ∀ b ∈ num, FormByte b := by
  obtain ⟨ws, fs, a1, -, a3, -, -, rfl⟩ := h
  intro b hb
  rcases List.mem_append.mp hb with hb | hb
  · rcases List.mem_append.mp hb with hb | hb
    · split at hb
      · exact .inr (.inl (by simpa using hb))
      · cases hb
    · exact .inl (a1 b hb)
  · split at hb
    · cases hb
    · rcases List.mem_cons.mp hb with rfl | hb
      · exact .inr (.inr rfl)
      · exact .inl (a3 b hb)

/-- the parts of a form -/
theorem stands_parts {R : ℕ} {ps : Bool} {s : Str} {v : ℚ} (h : FormOf R ps s v) :
    ∃ (k n : ℕ) (m : ℤ) (num suf : Str), ([] :: names R ps)[k]? = some suf ∧ s = num ++ suf ∧ DenotesFix num n m ∧
      v = (m : ℚ) / 10 ^ n * (R : ℚ) ^ k := by
  rcases h with ⟨x, ⟨ws, h1, h2, h3, h4⟩, rfl⟩ | ⟨k, n, m, num, suf, h1, h2, h3, -, h4⟩
  · exact ⟨0, 0, x, s, [], rfl, by simp,
      ⟨ws, [], h1, h2, (fun d hd => by cases hd), rfl, by simpa [numVal] using h3, by simpa using h4⟩, by simp⟩
  · exact ⟨k + 1, n, m, num, suf, by simpa using h1, h2, h3, h4⟩

theorem names_first (R : ℕ) (ps : Bool) {k : ℕ} {suf : Str} (h : ([] :: names R ps)[k]? = some suf) :
    ∀ b l, suf = b :: l → ¬ FormByte b := by
  have key : ∀ L ∈ [names 1000 false, names 1024 false, names 1024 true], ∀ x ∈ ([] :: L), ∀ b ∈ x.head?,
      ¬ ((48 ≤ b.toNat ∧ b.toNat ≤ 57) ∨ b = 45 ∨ b = 46) := by decide +kernel
  have hL : names R ps ∈ [names 1000 false, names 1024 false, names 1024 true] := by
    by_cases c : R = 1000
    · subst c; simp [names]
    · cases ps <;> simp [names, c]
  rintro b l rfl
  exact key _ hL _ (List.mem_of_getElem? h) b rfl

theorem names_nodup (R : ℕ) (ps : Bool) : ([] :: names R ps).Nodup := by
  have key : ∀ L ∈ [names 1000 false, names 1024 false, names 1024 true], ([] :: L).Nodup := by decide +kernel
  refine key _ ?_
  by_cases c : R = 1000
  · subst c; simp [names]
  · cases ps <;> simp [names, c]

/-- **C115 (one number)** A form stands for one number only. -/
theorem C115_unique {R : ℕ} {ps : Bool} {s : Str} {v v' : ℚ} (h : FormOf R ps s v) (h' : FormOf R ps s v') : v = v' := by
  obtain ⟨k, n, m, num, suf, a1, rfl, a3, rfl⟩ := stands_parts h
  obtain ⟨k', n', m', num', suf', b1, b2, b3, rfl⟩ := stands_parts h'
  obtain ⟨rfl, rfl⟩ := cut_unique (fix_bytes a3) (fix_bytes b3) (names_first R ps a1) (names_first R ps b1) b2
  obtain ⟨rfl, rfl⟩ := fix_unique a3 b3
  have hk : k = k' := by
    obtain ⟨h1, h2⟩ := List.getElem?_eq_some_iff.mp a1
    obtain ⟨h3, h4⟩ := List.getElem?_eq_some_iff.mp b1
    exact (List.Nodup.getElem_inj_iff (names_nodup R ps)).mp (h2.trans h4.symm)
  rw [hk]

/-! ### Examples -/

/-- 1,023,999 bytes and 1,048,576 bytes; the second form stands for 1024² -/
example (fm : Fmts) : ∃ s s' v v', valueToHtmlString fm (.scalar none (.int .int64 1023999)) .int64 .byte false = some s ∧
    valueToHtmlString fm (.scalar none (.int .uint32 1048576)) .uint32 .byte false = some s' ∧ s = lit "1000 KiB" ∧ s' = lit "1.00 MiB" ∧
    FormOf 1024 false s v ∧ FormOf 1024 false s' v' ∧ v ≤ v' := by
  obtain ⟨s, s', v, v', h1, h2, h3, h4, h5⟩ := C115_order fm (d := .scalar none (.int .int64 1023999))
    (d' := .scalar none (.int .uint32 1048576)) (t := .int64) (t' := .uint32) (x := 1023999) (x' := 1048576)
    (Or.inl ⟨_, _, rfl, by decide, rfl⟩) (Or.inl ⟨_, _, rfl, by decide, rfl⟩) (by norm_num) (u := .byte) (by decide)
  have e1 : valueToHtmlString fm (.scalar none (.int .int64 1023999)) .int64 .byte false = iCompactForm 1023999 1024 byteSuffixes := rfl
  have e2 : valueToHtmlString fm (.scalar none (.int .uint32 1048576)) .uint32 .byte false = uCompactForm 1048576 1024 byteSuffixes := rfl
  have f1 : iCompactForm 1023999 1024 byteSuffixes = some (lit "1000 KiB") := by decide +kernel
  have f2 : uCompactForm 1048576 1024 byteSuffixes = some (lit "1.00 MiB") := by decide +kernel
  refine ⟨s, s', v, v', h1, h2, ?_, ?_, h3, h4, h5⟩
  · rw [e1, f1] at h1; exact (Option.some.inj h1).symm
  · rw [e2, f2] at h2; exact (Option.some.inj h2).symm

theorem exDigits {ds : Str} (h : ds.all isDigit = true) : AllDigits ds := fun b hb => (digit_iff b).mp (List.all_eq_true.mp h b hb)

example : FormOf 1024 false (lit "1.00 MiB") (1048576 : ℚ) :=
  .inr ⟨1, 2, 100, lit "1.00", lit " MiB", by decide +kernel, by decide +kernel,
    ⟨lit "1", lit "00", exDigits (by decide +kernel), .inr ⟨49, [], by decide +kernel, by decide⟩, exDigits (by decide +kernel), by decide +kernel,
      by decide +kernel, by decide +kernel⟩, by norm_num, by norm_num⟩

end Tricorder
