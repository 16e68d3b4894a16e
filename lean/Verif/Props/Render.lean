import Verif.Proof.Render
/-!
# Numbers as text

The strings that `AsTextString` and `AsHtmlString` (`/repo/go/tricorder/metric.go:1243-1249`, `:1346-1352`) make of
the value read, and that the listings make of each element of a list.
-/

namespace Tricorder
open Go Spec _root_.Spec

theorem digit_iff (b : UInt8) : isDigit b = true ↔ 48 ≤ b.toNat ∧ b.toNat ≤ 57 := by
  unfold isDigit; simp [UInt8.le_iff_toNat_le]

/-! ## C49 -/

/-- **C49** For every separator and every group size: in a string the first run of digits is cut into groups from the
right, and nothing else changes. -/
theorem C49_separators (sep : UInt8) {between : ℕ} (hb : 0 < between) {pre ds post : Str}
    (h1 : ∀ b ∈ pre, ¬ (48 ≤ b.toNat ∧ b.toNat ≤ 57)) (h2 : ds ≠ []) (h3 : AllDigits ds)
    (h4 : ∀ b r, post = b :: r → ¬ (48 ≤ b.toNat ∧ b.toNat ≤ 57)) :
    ∃ g, addSeparators (pre ++ ds ++ post) sep between = some (pre ++ g ++ post) ∧ Grouped sep between ds g := by
  refine addSeparators_spec sep hb ?_ h2 (fun b hb => (digit_iff b).mpr (h3 b hb)) ?_
  · intro b hb
    rw [← Bool.not_eq_true, digit_iff]; exact h1 b hb
  · intro b r hr
    rw [← Bool.not_eq_true, digit_iff]; exact h4 b r hr

example : addSeparators (lit "ab1234567.8901") 44 3 = some (lit "ab1,234,567.8901") := by decide +kernel

theorem digitIndex_none (s : Str) : digitIndex s = none ↔ ∀ b ∈ s, ¬ (48 ≤ b.toNat ∧ b.toNat ≤ 57) := by
  induction s with
  | nil => simp [digitIndex]
  | cons b s ih =>
    simp only [digitIndex, List.mem_cons, forall_eq_or_imp]
    by_cases hb : isDigit b = true
    · rw [if_pos hb]; simp only [reduceCtorEq, false_iff]
      rintro ⟨h, -⟩; exact absurd ((digit_iff b).mp hb) h
    · rw [if_neg hb]
      rw [digit_iff] at hb
      simp [ih, hb]

/-- **C49** Adding separators fails only for a string that has no digit. -/
theorem C49_panics (s : Str) (sep : UInt8) (between : ℕ) :
    addSeparators s sep between = none ↔ ∀ b ∈ s, ¬ (48 ≤ b.toNat ∧ b.toNat ≤ 57) := by
  rw [← digitIndex_none]
  unfold addSeparators
  cases digitIndex s <;> simp

/-- **C49** An integer without unit appears in HTML as its plain text with commas: deleting them gives the text, and they
cut the digits into groups of three from the right. -/
theorem C49_html (fm : Fmts) {d : Dyn} {t : Ty} {x : ℤ} (h : IsIntVal d t x) :
    ∃ text html, valueToTextString fm d t .none false = some text ∧ valueToHtmlString fm d t .none false = some html ∧
      html.filter (fun b => b ≠ 44) = text ∧
      ∃ sign ds g, text = sign ++ ds ∧ html = sign ++ g ∧ sign = (if x < 0 then [45] else []) ∧ AllDigits ds ∧
        Grouped 44 3 ds g := by
  have ht := text_eq fm .none h
  obtain ⟨ds, d1, d2, d3, d4⟩ := fmtInt_spec x
  have hne : ds ≠ [] := by
    rcases d2 with rfl | ⟨c, r, rfl, -⟩ <;> simp
  have hsign : ∀ b ∈ (if x < 0 then [45] else [] : Str), ¬ (48 ≤ b.toNat ∧ b.toNat ≤ 57) := by
    intro b hb
    split at hb
    · simp only [List.mem_singleton] at hb; subst hb; decide
    · simp at hb
  obtain ⟨g, g1, g2⟩ := C49_separators 44 (by decide : 0 < 3) (post := []) hsign hne d1 (by simp)
  rw [List.append_nil, List.append_nil, ← d4] at g1
  have hcomma : (44 : UInt8) ∉ ds := by
    intro hm
    have := d1 _ hm
    exact absurd this (by decide)
  refine ⟨fmtInt x, _, ht, ?_, ?_, _, ds, g, d4, rfl, rfl, d1, g2⟩
  · unfold valueToHtmlString
    rcases isIntVal_cases h with ⟨h1, -⟩ | ⟨h1, h2, -⟩
    · rw [if_pos ⟨h1, rfl⟩]
      simp only [ht, Option.bind_some]
      exact g1
    · rw [if_neg (by simp [h1]), if_pos ⟨h2, rfl⟩]
      simp only [ht, Option.bind_some]
      exact g1
  · rw [List.filter_append, Grouped.erase g2 hcomma, d4]
    congr 1
    split <;> simp

example : IsIntVal (.scalar none (.int .int16 (-12345))) .int16 (-12345) := Or.inl ⟨_, _, rfl, by decide, rfl⟩
example (fm : Fmts) : valueToHtmlString fm (.scalar none (.int .int16 (-12345))) .int16 .none false = some (lit "-12,345") := by
  rw [show valueToHtmlString fm (.scalar none (.int .int16 (-12345))) .int16 .none false = addSeparators (fmtInt (-12345)) 44 3 from rfl]
  decide +kernel

/-! ## C50 -/

/-- **C50** For every integer and every unit except `None` the HTML rendering ends without panic, and what it shows is the
value scaled by the power of 1000, or for bytes of 1024, that the suffix names. -/
theorem C50_html (fm : Fmts) {d : Dyn} {t : Ty} {x : ℤ} (h : IsIntVal d t x) {u : MUnit} (hu : u ≠ .none) :
    ∃ s, valueToHtmlString fm d t u false = some s ∧ Compact s x (radixFor u) (u = .bytePerSecond) := by
  unfold valueToHtmlString
  have n1 : byteSuffixes = names 1024 false := rfl
  have n2 : bytePerSecondSuffixes = names 1024 true := rfl
  have n3 : suffixes = names 1000 false := rfl
  rcases isIntVal_cases h with ⟨h1, h2, h3⟩ | ⟨h1, h2, h3, h4, h5⟩
  · rw [if_pos ⟨h1, rfl⟩, h2, n1, n2, n3]
    simp only [Option.bind_some]
    cases u with
    | none => exact absurd rfl hu
    | byte => exact iCompactForm_spec (by norm_num) (by norm_num) _ h3
    | bytePerSecond => exact iCompactForm_spec (by norm_num) (by norm_num) _ h3
    | _ => exact iCompactForm_spec (by norm_num) (by norm_num) _ h3
  · rw [if_neg (by simp [h1]), if_pos ⟨h2, rfl⟩, h3, n1, n2, n3]
    simp only [Option.bind_some]
    obtain ⟨y, rfl⟩ : ∃ y : ℕ, x = y := ⟨x.toNat, by omega⟩
    rw [Int.toNat_natCast]
    have hy : y < 2 ^ 64 := by norm_num; omega
    cases u with
    | none => exact absurd rfl hu
    | byte => exact uCompactForm_spec (by norm_num) (by norm_num) _ hy
    | bytePerSecond => exact uCompactForm_spec (by norm_num) (by norm_num) _ hy
    | _ => exact uCompactForm_spec (by norm_num) (by norm_num) _ hy

/-- **C50** With unit `None` it ends too (see C49 for what it shows). -/
theorem C50_total (fm : Fmts) {d : Dyn} {t : Ty} {x : ℤ} (h : IsIntVal d t x) (u : MUnit) :
    (valueToHtmlString fm d t u false).isSome = true := by
  by_cases hu : u = .none
  · subst hu
    obtain ⟨_, html, -, h2, -⟩ := C49_html fm h
    rw [h2]; rfl
  · obtain ⟨s, h1, -⟩ := C50_html fm h hu
    rw [h1]; rfl

example : iCompactForm (-9223372036854775808) 1000 suffixes = some (lit "-9.22M trillion") := by decide +kernel
example : uCompactForm 18446744073709551615 1024 byteSuffixes = some (lit "16.0 EiB") := by decide +kernel
example : iCompactForm 999999 1000 suffixes = some (lit "1000 thousand") := by decide +kernel

/-! ## C51 -/

/-- **C51** The text of an integer is its canonical decimal numeral. -/
theorem C51_text (fm : Fmts) {d : Dyn} {t : Ty} {x : ℤ} (u : MUnit) (h : IsIntVal d t x) :
    ∃ s, valueToTextString fm d t u false = some s ∧ DenotesInt s x :=
  ⟨_, text_eq fm u h, fmtInt_spec x⟩

/-- **C51** It parses back to the same integer: with `strconv.ParseInt` if the type is signed, with `strconv.ParseUint` if
it is unsigned. -/
theorem C51_parse (fm : Fmts) {d : Dyn} {t : Ty} {x : ℤ} (u : MUnit) (h : IsIntVal d t x) {s : Str}
    (hs : valueToTextString fm d t u false = some s) :
    (t.isInt = true → parseInt64 s = some x) ∧ (t.isUint = true → (parseUint 64 s).map (fun n : ℕ => (n : ℤ)) = some x) := by
  obtain rfl : fmtInt x = s := by
    rw [text_eq fm u h] at hs
    exact Option.some.inj hs
  obtain ⟨ds, d1, d2, d3, d4⟩ := fmtInt_spec x
  have hne : ds ≠ [] := by
    rcases d2 with rfl | ⟨c, r, rfl, -⟩ <;> simp
  rcases isIntVal_cases h with ⟨h1, -, h3⟩ | ⟨h1, h2, -, h4, h5⟩
  · refine ⟨fun _ => ?_, fun h2 => ?_⟩
    · rw [parseInt64_iff, d4]
      unfold InI64 at h3
      refine ⟨ds, hne, d1, ?_⟩
      by_cases hx : x < 0
      · rw [if_pos hx]; exact Or.inr ⟨rfl, by omega, by omega⟩
      · rw [if_neg hx]; exact Or.inl ⟨Or.inl rfl, by omega, by omega⟩
    · exfalso; revert h1 h2; cases t <;> simp [Ty.isInt, Ty.isUint]
  · refine ⟨fun h2 => ?_, fun _ => ?_⟩
    · rw [h2] at h1; cases h1
    · rw [d4, if_neg (by omega), List.nil_append]
      rw [(parseUint_iff 64 ds x.toNat).mpr ⟨hne, d1, by omega, by norm_num; omega⟩]
      simp only [Option.map_some]
      congr 1; omega

/-- **C51** Different integers have different texts. -/
theorem C51_injective (fm : Fmts) {d d' : Dyn} {t t' : Ty} {x x' : ℤ} (u u' : MUnit) (h : IsIntVal d t x)
    (h' : IsIntVal d' t' x') (he : valueToTextString fm d t u false = valueToTextString fm d' t' u' false) : x = x' := by
  rw [text_eq fm u h, text_eq fm u' h'] at he
  have he := Option.some.inj he
  obtain ⟨ds, d1, d2, d3, d4⟩ := fmtInt_spec x
  obtain ⟨es, e1, e2, e3, e4⟩ := fmtInt_spec x'
  rw [d4, e4] at he
  have no : ∀ ys : Str, AllDigits ys → ∀ zs, ys ≠ 45 :: zs := by
    rintro ys hy zs rfl
    exact absurd (hy 45 (by simp)) (by decide)
  by_cases hx : x < 0 <;> by_cases hx' : x' < 0
  · rw [if_pos hx, if_pos hx'] at he
    obtain rfl : ds = es := by simpa using he
    omega
  · rw [if_pos hx, if_neg hx'] at he
    exact absurd he.symm (by simpa using no es e1 ds)
  · rw [if_neg hx, if_pos hx'] at he
    exact absurd he (by simpa using no ds d1 es)
  · rw [if_neg hx, if_neg hx'] at he
    obtain rfl : ds = es := by simpa using he
    omega

example (fm : Fmts) : valueToTextString fm (.scalar none (.int .int8 (-128))) .int8 .byte false = some (lit "-128") := by
  rw [text_eq fm .byte (Or.inl ⟨_, _, rfl, by decide, rfl⟩ : IsIntVal (.scalar none (.int .int8 (-128))) .int8 (-128))]
  decide +kernel

end Tricorder
