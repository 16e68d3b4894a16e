import Verif.Model.JsonText
import Verif.Proof.JsonGrammar
import Verif.Proof.Num
import Mathlib.Tactic.IntervalCases
/-!
# The text of JSON answers: proofs
-/

namespace Tricorder
open Go Spec _root_.Spec

/-! ### UTF-8 -/

theorem u8lt (a b : UInt8) : a < b ↔ a.toNat < b.toNat := UInt8.lt_iff_toNat_lt
theorem u8le (a b : UInt8) : a ≤ b ↔ a.toNat ≤ b.toNat := UInt8.le_iff_toNat_le
theorem u8eq (a b : UInt8) : a = b ↔ a.toNat = b.toNat := UInt8.toNat_inj.symm

theorem isCont_range (b : UInt8) : isCont b = true ↔ 128 ≤ b.toNat ∧ b.toNat ≤ 191 := by
  unfold isCont
  rw [Bool.and_eq_true, decide_eq_true_iff, decide_eq_true_iff, u8le, u8le]
  exact Iff.rfl

theorem utf8_length (c : ℕ) : (utf8 c).length = if c < 0x80 then 1 else if c < 0x800 then 2 else if c < 0x10000 then 3 else 4 := by
  unfold utf8; repeat' split <;> try rfl

/-- what `decodeRune` says of a string that begins with a character -/
theorem decode_good (b : UInt8) (s : Str) (h : ¬ ((decodeRune (b :: s)).1 = 0xFFFD ∧ (decodeRune (b :: s)).2 = 1)) :
    ScalarValue (decodeRune (b :: s)).1 ∧ (b :: s).take (decodeRune (b :: s)).2 = utf8 (decodeRune (b :: s)).1 ∧
      1 ≤ (decodeRune (b :: s)).2 := by
  revert h
  unfold decodeRune
  dsimp only
  have hb := b.toNat_lt
  split
  · rename_i h1
    rw [u8lt] at h1
    replace h1 : b.toNat < 128 := h1
    intro _
    refine ⟨by unfold ScalarValue; omega, ?_, le_refl _⟩
    unfold utf8
    rw [if_pos h1]
    simp
  split
  · intro h; exact absurd ⟨rfl, rfl⟩ h
  split
  · rename_i h1 h2 h3
    rw [u8lt] at h1 h2 h3
    replace h1 : ¬ b.toNat < 128 := h1
    replace h2 : ¬ b.toNat < 194 := h2
    replace h3 : b.toNat < 224 := h3
    split
    · rename_i b1 t
      split
      · rename_i hc
        rw [isCont_range] at hc
        intro _
        refine ⟨by unfold ScalarValue; dsimp only; omega, ?_, by dsimp only; omega⟩
        unfold utf8
        dsimp only
        rw [if_neg (by omega), if_pos (by omega)]
        simp only [List.take_succ_cons, List.take_zero, List.cons.injEq, and_true, u8eq, ofNat_toNat]
        omega
      · intro h; exact absurd ⟨rfl, rfl⟩ h
    · intro h; exact absurd ⟨rfl, rfl⟩ h
  split
  · rename_i h1 h2 h3 h4
    rw [u8lt] at h1 h2 h3 h4
    replace h3 : ¬ b.toNat < 224 := h3
    replace h4 : b.toNat < 240 := h4
    split
    · rename_i b1 b2 t
      split
      · rename_i hc
        simp only [Bool.and_eq_true, isCont_range, Bool.not_eq_true', Bool.and_eq_false_imp, beq_iff_eq, decide_eq_false_iff_not,
          u8eq, u8lt] at hc
        obtain ⟨⟨⟨c1, c2⟩, c3⟩, c4⟩ := hc
        replace c3 : b.toNat = 224 → ¬ b1.toNat < 160 := c3
        replace c4 : b.toNat = 237 → ¬ 159 < b1.toNat := c4
        intro _
        refine ⟨by unfold ScalarValue; dsimp only; omega, ?_, by dsimp only; omega⟩
        unfold utf8
        dsimp only
        rw [if_neg (by omega), if_neg (by omega), if_pos (by omega)]
        simp only [List.take_succ_cons, List.take_zero, List.cons.injEq, and_true, u8eq, ofNat_toNat]
        omega
      · intro h; exact absurd ⟨rfl, rfl⟩ h
    · intro h; exact absurd ⟨rfl, rfl⟩ h
  split
  · rename_i h1 h2 h3 h4 h5
    rw [u8lt] at h1 h2 h3 h4 h5
    replace h4 : ¬ b.toNat < 240 := h4
    replace h5 : b.toNat < 245 := h5
    split
    · rename_i b1 b2 b3 t
      split
      · rename_i hc
        simp only [Bool.and_eq_true, isCont_range, Bool.not_eq_true', Bool.and_eq_false_imp, beq_iff_eq, decide_eq_false_iff_not,
          u8eq, u8lt] at hc
        obtain ⟨⟨⟨⟨c1, c2⟩, c5⟩, c3⟩, c4⟩ := hc
        replace c3 : b.toNat = 240 → ¬ b1.toNat < 144 := c3
        replace c4 : b.toNat = 244 → ¬ 143 < b1.toNat := c4
        intro _
        refine ⟨by unfold ScalarValue; dsimp only; omega, ?_, by dsimp only; omega⟩
        unfold utf8
        dsimp only
        rw [if_neg (by omega), if_neg (by omega), if_neg (by omega)]
        simp only [List.take_succ_cons, List.take_zero, List.cons.injEq, and_true, u8eq, ofNat_toNat]
        omega
      · intro h; exact absurd ⟨rfl, rfl⟩ h
    · intro h; exact absurd ⟨rfl, rfl⟩ h
  · intro h; exact absurd ⟨rfl, rfl⟩ h

/-- `decodeRune` finds the characters -/
theorem decode_utf8 {c : ℕ} (hc : ScalarValue c) (s : Str) : decodeRune (utf8 c ++ s) = (c, (utf8 c).length) := by
  unfold ScalarValue at hc
  unfold utf8
  have e1 : ∀ n < 256, (UInt8.ofNat n).toNat = n := fun n hn => by rw [ofNat_toNat]; omega
  split
  · rename_i h1
    show decodeRune (UInt8.ofNat c :: s) = _
    unfold decodeRune
    dsimp only
    rw [if_pos (by rw [u8lt, e1 _ (by omega)]; exact h1), e1 _ (by omega)]
    rfl
  split
  · rename_i h1 h2
    show decodeRune (UInt8.ofNat (0xC0 + c / 64) :: UInt8.ofNat (0x80 + c % 64) :: s) = _
    unfold decodeRune
    simp only [u8lt, e1 _ (show 0xC0 + c / 64 < 256 by omega)]
    have k1 : (0x80 : UInt8).toNat = 128 := rfl
    have k2 : (0xC2 : UInt8).toNat = 194 := rfl
    have k3 : (0xE0 : UInt8).toNat = 224 := rfl
    simp only [k1, k2, k3]
    rw [if_neg (by omega), if_neg (by omega), if_pos (by omega), if_pos (by rw [isCont_range, e1 _ (by omega)]; omega), e1 _ (by omega)]
    exact Prod.ext (by dsimp only; omega) rfl
  split
  · rename_i h1 h2 h3
    show decodeRune (UInt8.ofNat (0xE0 + c / 4096) :: UInt8.ofNat (0x80 + c / 64 % 64) :: UInt8.ofNat (0x80 + c % 64) :: s) = _
    unfold decodeRune
    simp only [u8lt, e1 _ (show 0xE0 + c / 4096 < 256 by omega)]
    have k1 : (0x80 : UInt8).toNat = 128 := rfl
    have k2 : (0xC2 : UInt8).toNat = 194 := rfl
    have k3 : (0xE0 : UInt8).toNat = 224 := rfl
    have k4 : (0xF0 : UInt8).toNat = 240 := rfl
    simp only [k1, k2, k3, k4]
    rw [if_neg (by omega), if_neg (by omega), if_neg (by omega), if_pos (by omega), if_pos, e1 _ (by omega), e1 _ (by omega)]
    · exact Prod.ext (by dsimp only; omega) rfl
    · simp only [Bool.and_eq_true, isCont_range, Bool.not_eq_true', Bool.and_eq_false_imp, beq_iff_eq, decide_eq_false_iff_not,
        u8eq, e1 _ (show 0xE0 + c / 4096 < 256 by omega), e1 _ (show 0x80 + c / 64 % 64 < 256 by omega),
        e1 _ (show 0x80 + c % 64 < 256 by omega)]
      have k5 : (0xED : UInt8).toNat = 237 := rfl
      have k6 : (0xA0 : UInt8).toNat = 160 := rfl
      have k7 : (0x9F : UInt8).toNat = 159 := rfl
      simp only [k3, k5, k6, k7]
      omega
  · rename_i h1 h2 h3
    show decodeRune (UInt8.ofNat (0xF0 + c / 262144) :: UInt8.ofNat (0x80 + c / 4096 % 64) :: UInt8.ofNat (0x80 + c / 64 % 64) ::
      UInt8.ofNat (0x80 + c % 64) :: s) = _
    unfold decodeRune
    simp only [u8lt, e1 _ (show 0xF0 + c / 262144 < 256 by omega)]
    have k1 : (0x80 : UInt8).toNat = 128 := rfl
    have k2 : (0xC2 : UInt8).toNat = 194 := rfl
    have k3 : (0xE0 : UInt8).toNat = 224 := rfl
    have k4 : (0xF0 : UInt8).toNat = 240 := rfl
    have k8 : (0xF5 : UInt8).toNat = 245 := rfl
    simp only [k1, k2, k3, k4, k8]
    rw [if_neg (by omega), if_neg (by omega), if_neg (by omega), if_neg (by omega), if_pos (by omega), if_pos, e1 _ (by omega),
      e1 _ (by omega), e1 _ (by omega)]
    · exact Prod.ext (by dsimp only; omega) rfl
    · simp only [Bool.and_eq_true, isCont_range, Bool.not_eq_true', Bool.and_eq_false_imp, beq_iff_eq, decide_eq_false_iff_not,
        u8eq, e1 _ (show 0xF0 + c / 262144 < 256 by omega), e1 _ (show 0x80 + c / 4096 % 64 < 256 by omega),
        e1 _ (show 0x80 + c / 64 % 64 < 256 by omega), e1 _ (show 0x80 + c % 64 < 256 by omega)]
      have k5 : (0xF4 : UInt8).toNat = 244 := rfl
      have k6 : (0x90 : UInt8).toNat = 144 := rfl
      have k7 : (0x8F : UInt8).toNat = 143 := rfl
      simp only [k4, k5, k6, k7]
      omega

theorem decode_bad {b : UInt8} {s : Str} (h : (decodeRune (b :: s)).1 = 0xFFFD ∧ (decodeRune (b :: s)).2 = 1) :
    ∀ c s', ScalarValue c → b :: s ≠ utf8 c ++ s' := by
  intro c s' hc e
  rw [e, decode_utf8 hc] at h
  obtain ⟨rfl, h⟩ := h
  exact absurd h (by decide)

/-! ### strings -/

theorem hexVal_jsonHex {n : ℕ} (hn : n < 16) : hexDigitVal (jsonHex n) = some n := by
  interval_cases n <;> decide

theorem utf8_byte {b : UInt8} (h : b.toNat < 128) : utf8 b.toNat = [b] := by
  unfold utf8
  rw [if_pos h]
  simp

theorem chars_escape (f : JsonFmt) {b : UInt8} (hb : b.toNat < 128) {s : Str} {cs : List ℕ} (h : Chars s cs) :
    Chars (escapeByte f b ++ s) (b.toNat :: cs) := by
  unfold escapeByte
  split
  · rename_i hc
    rcases hc with rfl | rfl
    · exact .esc (e := 92) (c := 92) (by decide) h
    · exact .esc (e := 34) (c := 34) (by decide) h
  split
  · rename_i hc; subst hc; exact .esc (e := 110) (c := 10) (by decide) h
  split
  · rename_i hc; subst hc; exact .esc (e := 114) (c := 13) (by decide) h
  split
  · rename_i hc; subst hc; exact .esc (e := 116) (c := 9) (by decide) h
  split
  · rename_i hc; obtain ⟨-, rfl⟩ := hc; exact .esc (e := 98) (c := 8) (by decide) h
  split
  · rename_i hc; obtain ⟨-, rfl⟩ := hc; exact .esc (e := 102) (c := 12) (by decide) h
  · refine .hex (h := [48, 48, jsonHex (b.toNat / 16), jsonHex (b.toNat % 16)]) (c := b.toNat) ?_ (by unfold ScalarValue; omega) h
    exact ⟨_, _, _, _, 0, 0, b.toNat / 16, b.toNat % 16, rfl, by decide, by decide, hexVal_jsonHex (by omega),
      hexVal_jsonHex (by omega), by omega⟩

theorem htmlSafe_iff (b : UInt8) : htmlSafe b = true ↔
    32 ≤ b.toNat ∧ b.toNat ≠ 34 ∧ b.toNat ≠ 92 ∧ b.toNat ≠ 60 ∧ b.toNat ≠ 62 ∧ b.toNat ≠ 38 := by
  unfold htmlSafe
  simp only [Bool.and_eq_true, decide_eq_true_iff, bne_iff_ne, ne_eq, u8eq, u8le]
  constructor
  · rintro ⟨⟨⟨⟨⟨h1, h2⟩, h3⟩, h4⟩, h5⟩, h6⟩; exact ⟨h1, h2, h3, h4, h5, h6⟩
  · rintro ⟨h1, h2, h3, h4, h5, h6⟩; exact ⟨⟨⟨⟨⟨h1, h2⟩, h3⟩, h4⟩, h5⟩, h6⟩

/-- the code points of a string -/
def runesOf : ℕ → Str → List ℕ
  | 0, _ => []
  | _, [] => []
  | fuel + 1, b :: s => (decodeRune (b :: s)).1 :: runesOf fuel ((b :: s).drop (decodeRune (b :: s)).2)

theorem chars_quote (f : JsonFmt) : ∀ (fuel : ℕ) (s : Str), s.length ≤ fuel →
    Chars (quoteAux f fuel s) (runesOf fuel s) ∧ Runes s (runesOf fuel s)
  | 0, s, h => by
    obtain rfl : s = [] := List.length_eq_zero_iff.mp (by omega)
    exact ⟨.nil, .nil⟩
  | fuel + 1, [], _ => ⟨.nil, .nil⟩
  | fuel + 1, b :: s, h => by
    have hl : s.length ≤ fuel := by simpa using h
    rw [quoteAux, runesOf]
    split
    · rename_i hb
      rw [u8lt] at hb
      replace hb : b.toNat < 128 := hb
      obtain ⟨h1, h2⟩ := chars_quote f fuel s hl
      have hdec : decodeRune (b :: s) = (b.toNat, 1) := by
        unfold decodeRune
        dsimp only
        rw [if_pos (by rw [u8lt]; exact hb)]
      rw [hdec]
      have hr : Runes (b :: s) (b.toNat :: runesOf fuel s) := by
        have := Runes.rune (c := b.toNat) (by unfold ScalarValue; omega) h2
        rwa [utf8_byte hb] at this
      refine ⟨?_, hr⟩
      split
      · rename_i hs
        rw [htmlSafe_iff] at hs
        have := Chars.plain (c := b.toNat) (by unfold ScalarValue; omega) hs.1 hs.2.1 hs.2.2.1 h1
        rwa [utf8_byte hb] at this
      · exact chars_escape f hb h1
    · rename_i hb
      rw [u8lt] at hb
      replace hb : ¬ b.toNat < 128 := hb
      dsimp only
      by_cases hd : (decodeRune (b :: s)).1 = 0xFFFD ∧ (decodeRune (b :: s)).2 = 1
      · rw [if_pos hd, hd.2, hd.1]
        obtain ⟨h1, h2⟩ := chars_quote f fuel s hl
        refine ⟨?_, .bad (decode_bad hd) h2⟩
        refine .hex (h := [102, 102, 102, 100]) (c := 0xFFFD) ?_ (by unfold ScalarValue; omega) h1
        exact ⟨_, _, _, _, 15, 15, 15, 13, rfl, by decide, by decide, by decide, by decide, by omega⟩
      · obtain ⟨g1, g2, g3⟩ := decode_good b s hd
        have hlen : ((b :: s).drop (decodeRune (b :: s)).2).length ≤ fuel := by
          rw [List.length_drop, List.length_cons]; omega
        obtain ⟨h1, h2⟩ := chars_quote f fuel _ hlen
        have e := List.take_append_drop (decodeRune (b :: s)).2 (b :: s)
        rw [g2] at e
        have hr := Runes.rune g1 h2
        rw [e] at hr
        refine ⟨?_, hr⟩
        have hc : 128 ≤ (decodeRune (b :: s)).1 := by
          by_contra hlt
          unfold utf8 at e
          rw [if_pos (by omega)] at e
          have := (List.cons.inj e).1
          have := congrArg UInt8.toNat this
          rw [ofNat_toNat] at this
          omega
        rw [if_neg hd]
        split
        · rename_i hs
          refine .hex (h := [50, 48, 50, jsonHex ((decodeRune (b :: s)).1 % 16)]) ?_ g1 h1
          exact ⟨_, _, _, _, 2, 0, 2, (decodeRune (b :: s)).1 % 16, rfl, by decide, by decide, by decide,
            hexVal_jsonHex (by omega), by omega⟩
        · rw [g2]
          exact .plain g1 (by omega) (by omega) (by omega) h1

theorem base64Digit_spec {n : ℕ} (hn : n < 64) : digit64 (base64Digit n).toNat = some n ∧ (base64Digit n).toNat < 128 ∧
    htmlSafe (base64Digit n) = true := by
  interval_cases n <;> decide

theorem chars_byte {b : UInt8} (h : htmlSafe b = true) (h' : b.toNat < 128) {s : Str} {cs : List ℕ} (hs : Chars s cs) :
    Chars (b :: s) (b.toNat :: cs) := by
  rw [htmlSafe_iff] at h
  have := Chars.plain (c := b.toNat) (by unfold ScalarValue; omega) h.1 h.2.1 h.2.2.1 hs
  rwa [utf8_byte h'] at this

theorem chars_safe : ∀ s : Str, (∀ b ∈ s, htmlSafe b = true ∧ b.toNat < 128) → Chars s (s.map UInt8.toNat)
  | [], _ => .nil
  | b :: s, h => chars_byte (h b (by simp)).1 (h b (by simp)).2 (chars_safe s fun x hx => h x (by simp [hx]))

theorem base64Digit_safe (n : ℕ) : htmlSafe (base64Digit n) = true ∧ (base64Digit n).toNat < 128 := by
  by_cases hn : n < 64
  · exact ⟨(base64Digit_spec hn).2.2, (base64Digit_spec hn).2.1⟩
  · have : base64Digit n = 47 := by
      unfold base64Digit
      rw [if_neg (by omega), if_neg (by omega), if_neg (by omega), if_neg (by omega)]
    rw [this]; decide

theorem base64_safe (l : List ℕ) : ∀ b ∈ base64 l, htmlSafe b = true ∧ b.toNat < 128 := by
  fun_induction base64 l with
  | case1 => intro b hb; cases hb
  | case2 =>
    simp only [List.mem_cons, List.not_mem_nil, or_false]
    rintro b (rfl | rfl | rfl | rfl) <;> first | exact base64Digit_safe _ | decide
  | case3 =>
    simp only [List.mem_cons, List.not_mem_nil, or_false]
    rintro b (rfl | rfl | rfl | rfl) <;> first | exact base64Digit_safe _ | decide
  | case4 _ _ _ _ ih =>
    simp only [List.mem_cons]
    rintro b (rfl | rfl | rfl | rfl | hb)
    iterate 4 exact base64Digit_safe _
    exact ih b hb

theorem base64_spec (l : List ℕ) (h : ∀ x ∈ l, x < 256) : Base64 l ((base64 l).map UInt8.toNat) := by
  fun_induction base64 l with
  | case1 => exact .nil
  | case2 a =>
    have ha := h a (by simp)
    exact .one (base64Digit_spec (by omega)).1 (base64Digit_spec (by omega)).1 (by omega)
  | case3 a b =>
    have ha := h a (by simp)
    have hb := h b (by simp)
    exact .two (base64Digit_spec (by omega)).1 (base64Digit_spec (by omega)).1 (base64Digit_spec (by omega)).1 (by omega)
  | case4 a b c l ih =>
    have ha := h a (by simp)
    have hb := h b (by simp)
    have hc := h c (by simp)
    exact .three (base64Digit_spec (by omega)).1 (base64Digit_spec (by omega)).1 (base64Digit_spec (by omega)).1
      (base64Digit_spec (by omega)).1 (by omega) (ih fun x hx => h x (by simp [hx]))

theorem number_int (x : ℤ) : Number (fmtInt x) x := by
  obtain ⟨ws, h1, h2, h3, h4⟩ := fmtInt_spec x
  refine ⟨if x < 0 then [45] else [], ws, [], [], 0, 0, by rw [h4]; simp, h1, h2, .inl ⟨rfl, rfl⟩, .inl ⟨rfl, rfl⟩, ?_⟩
  have h5 : (x : ℚ) = if x < 0 then -(numVal ws : ℚ) else numVal ws := by
    rw [← h3]
    split
    · rw [show (x.natAbs : ℚ) = ((x.natAbs : ℤ) : ℚ) by simp, Int.ofNat_natAbs_of_nonpos (by omega)]; simp
    · rw [show (x.natAbs : ℚ) = ((x.natAbs : ℤ) : ℚ) by simp, Int.natAbs_of_nonneg (by omega)]
  rw [h5]
  split
  · exact .inr ⟨rfl, by simp⟩
  · exact .inl ⟨rfl, by simp⟩

/-! ### indentation -/

mutual
/-- the indented text, at a depth; only for the proofs -/
def pretty (f : JsonFmt) (d : ℕ) : Json → Str
  | .arr [] => [91, 93]
  | .arr (j :: l) => 91 :: (newline (d + 1) ++ (prettyElems f (d + 1) (j :: l) ++ (newline d ++ [93])))
  | .obj [] => [123, 125]
  | .obj (x :: l) => 123 :: (newline (d + 1) ++ (prettyFields f (d + 1) (x :: l) ++ (newline d ++ [125])))
  | j => marshal f j
def prettyElems (f : JsonFmt) (d : ℕ) : List Json → Str
  | [] => []
  | [j] => pretty f d j
  | j :: l => pretty f d j ++ (44 :: (newline d ++ prettyElems f d l))
def prettyFields (f : JsonFmt) (d : ℕ) : List (Str × Json) → Str
  | [] => []
  | [(k, j)] => quoteJson f k ++ (58 :: 32 :: pretty f d j)
  | (k, j) :: l => quoteJson f k ++ (58 :: 32 :: (pretty f d j ++ (44 :: (newline d ++ prettyFields f d l))))
end

/-- a byte that `json.Indent` copies, outside strings -/
def Ord (c : UInt8) : Prop :=
  ¬ (c = 32 ∨ c = 9 ∨ c = 10 ∨ c = 13) ∧ ¬ (c = 125 ∨ c = 93) ∧ c ≠ 44 ∧ c ≠ 58 ∧ ¬ (c = 123 ∨ c = 91) ∧ c ≠ 34

theorem NumByte.ord {c : UInt8} (h : NumByte c) : Ord c := by
  rcases h with h | rfl | rfl | rfl | rfl | rfl
  · have hne : ∀ x : UInt8, x.toNat < 48 ∨ 57 < x.toNat → c ≠ x := fun x hx e => by
      unfold Dig at h; rw [e] at h; omega
    refine ⟨?_, ?_, hne 44 (by decide), hne 58 (by decide), ?_, hne 34 (by decide)⟩
    · rintro (e | e | e | e) <;> exact hne _ (by decide) e
    · rintro (e | e) <;> exact hne _ (by decide) e
    · rintro (e | e) <;> exact hne _ (by decide) e
  all_goals unfold Ord; decide

theorem indent_ord (st : IndentSt) (h : st.scan = .out) {c : UInt8} (hc : Ord c) (r : Str) :
    indentFrom st (c :: r) = st.pending ++ c :: indentFrom st.settle r := by
  obtain ⟨d, n, sc⟩ := st
  cases h
  obtain ⟨h1, h2, h3, h4, h5, h6⟩ := hc
  rw [indentFrom]
  simp only [indentByte]
  rw [if_neg h1, if_neg h2, if_neg h3, if_neg h4, if_neg h5, if_neg h6]
  simp

theorem settle_need (st : IndentSt) : st.settle.need = false := by
  unfold IndentSt.settle; split
  · rfl
  · rename_i h; simpa using h

theorem settle_scan (st : IndentSt) : st.settle.scan = st.scan := by
  unfold IndentSt.settle; split <;> rfl

theorem settle_settle (st : IndentSt) (h : st.need = false) : st.settle = st ∧ st.pending = [] := by
  unfold IndentSt.settle IndentSt.pending; rw [h]; exact ⟨rfl, rfl⟩

theorem indent_ords (st : IndentSt) (h : st.scan = .out) {s : Str} (hs : ∀ c ∈ s, Ord c) (hne : s ≠ []) (r : Str) :
    indentFrom st (s ++ r) = st.pending ++ (s ++ indentFrom st.settle r) := by
  induction s generalizing st with
  | nil => exact absurd rfl hne
  | cons c s ih =>
    rw [List.cons_append, indent_ord st h (hs c (by simp))]
    by_cases hn : s = []
    · subst hn; rfl
    · have h' : st.settle.scan = .out := by rw [settle_scan, h]
      rw [ih st.settle h' (fun x hx => hs x (by simp [hx])) hn, (settle_settle _ (settle_need st)).1,
        (settle_settle _ (settle_need st)).2]
      rfl

theorem indent_plain (d : ℕ) (n : Bool) {p : Str} (hp : ∀ c ∈ p, c ≠ 34 ∧ c ≠ 92) (r : Str) :
    indentFrom ⟨d, n, .str⟩ (p ++ r) = p ++ indentFrom ⟨d, n, .str⟩ r := by
  induction p with
  | nil => rfl
  | cons c p ih =>
    have := hp c (by simp)
    rw [List.cons_append, indentFrom]
    simp only [indentByte]
    rw [if_neg this.2, if_neg this.1, ih fun x hx => hp x (by simp [hx])]
    rfl

theorem indent_esc (d : ℕ) (n : Bool) (e : UInt8) (r : Str) :
    indentFrom ⟨d, n, .str⟩ (92 :: e :: r) = 92 :: e :: indentFrom ⟨d, n, .str⟩ r := by
  rw [indentFrom, indentFrom]
  rfl

theorem utf8_bytes {c : ℕ} (hc : ScalarValue c) : ∀ b ∈ utf8 c, b.toNat = c ∧ c < 128 ∨ 128 ≤ b.toNat := by
  unfold ScalarValue at hc
  unfold utf8
  intro b hb
  split at hb
  · rw [List.mem_singleton.mp hb, ofNat_toNat]; omega
  split at hb
  · simp only [List.mem_cons, List.not_mem_nil, or_false] at hb
    rcases hb with rfl | rfl <;> rw [ofNat_toNat] <;> omega
  split at hb
  · simp only [List.mem_cons, List.not_mem_nil, or_false] at hb
    rcases hb with rfl | rfl | rfl <;> rw [ofNat_toNat] <;> omega
  · simp only [List.mem_cons, List.not_mem_nil, or_false] at hb
    rcases hb with rfl | rfl | rfl | rfl <;> rw [ofNat_toNat] <;> omega

theorem hexVal_plain {b : UInt8} {n : ℕ} (h : hexDigitVal b = some n) : b ≠ 34 ∧ b ≠ 92 := by
  constructor <;> (rintro rfl; revert h; decide +revert)

theorem Spec.Hex4.plain {h : Str} {n : ℕ} (hh : Hex4 h n) : ∀ b ∈ h, b ≠ 34 ∧ b ≠ 92 := by
  obtain ⟨a, b, c, d, x, y, z, u, rfl, h1, h2, h3, h4, -⟩ := hh
  simp only [List.mem_cons, List.not_mem_nil, or_false]
  rintro b (rfl | rfl | rfl | rfl)
  · exact hexVal_plain h1
  · exact hexVal_plain h2
  · exact hexVal_plain h3
  · exact hexVal_plain h4

theorem Spec.Chars.indent {s : Str} {cs : List ℕ} (h : Chars s cs) (d : ℕ) (n : Bool) (r : Str) :
    indentFrom ⟨d, n, .str⟩ (s ++ 34 :: r) = s ++ 34 :: indentFrom ⟨d, n, .out⟩ r := by
  induction h with
  | nil =>
    rw [List.nil_append, indentFrom]
    rfl
  | @plain c s cs h1 h2 h3 h4 h5 ih =>
    rw [List.append_assoc, List.append_assoc, indent_plain, ih]
    intro b hb
    simp only [ne_eq, u8eq]
    rcases utf8_bytes h1 b hb with ⟨h, -⟩ | h
    · exact ⟨fun e => h3 (h.symm.trans e), fun e => h4 (h.symm.trans e)⟩
    · exact ⟨fun e => by rw [e] at h; revert h; decide, fun e => by rw [e] at h; revert h; decide⟩
  | esc h1 h2 ih =>
    rw [List.cons_append, List.cons_append, indent_esc, ih]
    rfl
  | hex h1 h2 h3 ih =>
    rw [List.cons_append, List.cons_append, List.append_assoc, indent_esc, indent_plain _ _ h1.plain, ih]
    simp
  | pair h1 h2 h3 h4 h5 h6 h7 ih =>
    rw [List.cons_append, List.cons_append, List.append_assoc, indent_esc, indent_plain _ _ h1.plain, List.cons_append,
      List.cons_append, List.append_assoc, indent_esc, indent_plain _ _ h2.plain, ih]
    simp

theorem indent_string (st : IndentSt) (h : st.scan = .out) {s : Str} {cs : List ℕ} (hs : Chars s cs) (r : Str) :
    indentFrom st ((34 :: s ++ [34]) ++ r) = st.pending ++ ((34 :: s ++ [34]) ++ indentFrom st.settle r) := by
  have e : indentFrom st ((34 :: s ++ [34]) ++ r) = st.pending ++ 34 :: indentFrom { st.settle with scan := .str } (s ++ 34 :: r) := by
    obtain ⟨d, n, sc⟩ := st
    cases h
    rw [List.cons_append, List.cons_append, indentFrom, List.append_assoc]
    simp [indentByte]
  have hn : { st.settle with scan := .str } = (⟨st.settle.depth, st.settle.need, .str⟩ : IndentSt) := rfl
  have h2 : (⟨st.settle.depth, st.settle.need, .out⟩ : IndentSt) = st.settle := by
    have := settle_scan st
    rw [h] at this
    rw [← this]
  rw [e, hn, hs.indent, h2]
  simp

/-- how numbers are written -/
def NumText (f : JsonFmt) : Prop := ∀ small x, ∃ q, Number (floatJson f small x) q ∧ (OfFormat small x → ReadsAs small q x)

theorem numText {f : JsonFmt} (h : NumLaw f.num) : NumText f := by
  intro small x
  unfold floatJson
  split
  · rename_i hx
    refine ⟨(0 : ℤ), number_int 0, ?_⟩
    rintro (rfl | ⟨q, rfl, -⟩)
    · exact absurd hx (by decide)
    · exact absurd hx (by simp [Fl.isInf, Fl.isNaN])
  · rename_i hx
    simp only [Bool.or_eq_true, not_or, Bool.not_eq_true] at hx
    exact h small x hx.1 hx.2

theorem quote_chars (f : JsonFmt) (s : Str) :
    Chars (quoteAux f s.length s) (runesOf s.length s) ∧ Runes s (runesOf s.length s) := chars_quote f _ s (le_refl _)

theorem indent_quote (f : JsonFmt) (st : IndentSt) (h : st.scan = .out) (s : Str) (r : Str) :
    indentFrom st (quoteJson f s ++ r) = st.pending ++ (quoteJson f s ++ indentFrom st.settle r) := by
  obtain ⟨hc, -⟩ := quote_chars f s
  exact indent_string st h hc r

theorem indent_number (st : IndentSt) (h : st.scan = .out) {s : Str} {q : ℚ} (hs : Number s q) (r : Str) :
    indentFrom st (s ++ r) = st.pending ++ (s ++ indentFrom st.settle r) := by
  refine indent_ords st h (fun c hc => (hs.bytes c hc).ord) ?_ r
  obtain ⟨b, t, rfl, -⟩ := hs.head
  simp

theorem indent_open (st : IndentSt) (h : st.scan = .out) {c : UInt8} (hc : c = 91 ∨ c = 123) (r : Str) :
    indentFrom st (c :: r) = st.pending ++ c :: indentFrom ⟨st.settle.depth, true, .out⟩ r := by
  obtain ⟨d, n, sc⟩ := st
  cases h
  rw [indentFrom]
  rcases hc with rfl | rfl <;> cases n <;> simp [indentByte, IndentSt.settle]

theorem indent_close (d : ℕ) {c : UInt8} (hc : c = 93 ∨ c = 125) (r : Str) :
    indentFrom ⟨d + 1, false, .out⟩ (c :: r) = newline d ++ c :: indentFrom ⟨d, false, .out⟩ r := by
  rw [indentFrom]
  rcases hc with rfl | rfl <;> simp [indentByte]

theorem indent_empty (d : ℕ) {c : UInt8} (hc : c = 93 ∨ c = 125) (r : Str) :
    indentFrom ⟨d, true, .out⟩ (c :: r) = c :: indentFrom ⟨d, false, .out⟩ r := by
  rw [indentFrom]
  rcases hc with rfl | rfl <;> simp [indentByte]

theorem indent_comma (d : ℕ) (r : Str) :
    indentFrom ⟨d, false, .out⟩ (44 :: r) = 44 :: (newline d ++ indentFrom ⟨d, false, .out⟩ r) := by
  rw [indentFrom]
  simp [indentByte, IndentSt.settle, IndentSt.pending]

theorem indent_colon (d : ℕ) (r : Str) :
    indentFrom ⟨d, false, .out⟩ (58 :: r) = 58 :: 32 :: indentFrom ⟨d, false, .out⟩ r := by
  rw [indentFrom]
  simp [indentByte, IndentSt.settle, IndentSt.pending]

theorem settle_eq (st : IndentSt) (h : st.scan = .out) : st.settle = ⟨st.settle.depth, false, .out⟩ := by
  have h1 := settle_scan st
  have h2 := settle_need st
  rw [h] at h1
  rw [← h1, ← h2]

theorem settle_true (d : ℕ) : IndentSt.settle ⟨d, true, .out⟩ = ⟨d + 1, false, .out⟩ ∧ IndentSt.pending ⟨d, true, .out⟩ = newline (d + 1) :=
  ⟨rfl, rfl⟩

theorem settle_false (d : ℕ) : IndentSt.settle ⟨d, false, .out⟩ = ⟨d, false, .out⟩ ∧ IndentSt.pending ⟨d, false, .out⟩ = [] :=
  ⟨rfl, rfl⟩

mutual
theorem indent_value (f : JsonFmt) (hf : NumText f) (j : Json) (st : IndentSt) (h : st.scan = .out) (r : Str) :
    indentFrom st (marshal f j ++ r) = st.pending ++ (pretty f st.settle.depth j ++ indentFrom st.settle r) := by
  cases j with
  | null => exact indent_ords st h (s := lit "null") (by unfold Ord; decide +kernel) (by decide) r
  | bool b =>
    cases b
    · exact indent_ords st h (s := lit "false") (by unfold Ord; decide +kernel) (by decide) r
    · exact indent_ords st h (s := lit "true") (by unfold Ord; decide +kernel) (by decide) r
  | int x => exact indent_number st h (number_int x) r
  | num small x =>
    obtain ⟨q, hq, -⟩ := hf small x
    exact indent_number st h hq r
  | str s => exact indent_quote f st h s r
  | bytes l => exact indent_string st h (chars_safe _ (base64_safe _)) r
  | arr l =>
    rw [marshal, List.cons_append, List.cons_append, List.append_assoc, indent_open st h (.inl rfl)]
    cases l with
    | nil =>
      rw [marshalElems, List.nil_append, List.cons_append, List.nil_append, indent_empty _ (.inl rfl), ← settle_eq st h]
      simp [pretty]
    | cons j l =>
      rw [indent_elems f hf (j :: l) (by simp) _ rfl, (settle_true _).1, (settle_true _).2, List.cons_append, List.nil_append,
        indent_close _ (.inl rfl), ← settle_eq st h]
      simp [pretty]
  | obj l =>
    rw [marshal, List.cons_append, List.cons_append, List.append_assoc, indent_open st h (.inr rfl)]
    cases l with
    | nil =>
      rw [marshalFields, List.nil_append, List.cons_append, List.nil_append, indent_empty _ (.inr rfl), ← settle_eq st h]
      simp [pretty]
    | cons j l =>
      rw [indent_fields f hf (j :: l) (by simp) _ rfl, (settle_true _).1, (settle_true _).2, List.cons_append, List.nil_append,
        indent_close _ (.inr rfl), ← settle_eq st h]
      simp [pretty]
theorem indent_elems (f : JsonFmt) (hf : NumText f) (l : List Json) (hl : l ≠ []) (st : IndentSt) (h : st.scan = .out) (r : Str) :
    indentFrom st (marshalElems f l ++ r) = st.pending ++ (prettyElems f st.settle.depth l ++ indentFrom st.settle r) := by
  match l with
  | [] => exact absurd rfl hl
  | [j] => rw [marshalElems, prettyElems]; exact indent_value f hf j st h r
  | j :: j' :: l =>
    rw [marshalElems, prettyElems, List.append_assoc, indent_value f hf j st h, List.cons_append, settle_eq st h, indent_comma,
      indent_elems f hf (j' :: l) (by simp) _ rfl, (settle_false _).1, (settle_false _).2]
    · simp
    · simp
    · simp
theorem indent_fields (f : JsonFmt) (hf : NumText f) (l : List (Str × Json)) (hl : l ≠ []) (st : IndentSt) (h : st.scan = .out)
    (r : Str) :
    indentFrom st (marshalFields f l ++ r) = st.pending ++ (prettyFields f st.settle.depth l ++ indentFrom st.settle r) := by
  match l with
  | [] => exact absurd rfl hl
  | [(k, j)] =>
    rw [marshalFields, prettyFields, List.append_assoc, indent_quote f st h, List.cons_append, settle_eq st h, indent_colon,
      indent_value f hf j _ rfl, (settle_false _).1, (settle_false _).2]
    simp
  | (k, j) :: x :: l =>
    rw [marshalFields, prettyFields, List.append_assoc, List.append_assoc, indent_quote f st h, List.cons_append, settle_eq st h, indent_colon,
      indent_value f hf j _ rfl, (settle_false _).1, (settle_false _).2, List.cons_append, indent_comma,
      indent_fields f hf (x :: l) (by simp) _ rfl, (settle_false _).1, (settle_false _).2]
    · simp
    · simp
    · simp
end

theorem jsonText_pretty (f : JsonFmt) (hf : NumText f) (j : Json) : jsonText f j = pretty f 0 j := by
  have := indent_value f hf j ⟨0, false, .out⟩ rfl []
  rw [List.append_nil] at this
  unfold jsonText indent
  rw [this, (settle_false _).1, (settle_false _).2]
  simp [indentFrom]

/-! ### the value of the text -/

theorem prettyElems_two (f : JsonFmt) (d : ℕ) (j j' : Json) (l : List Json) :
    prettyElems f d (j :: j' :: l) = pretty f d j ++ (44 :: (newline d ++ prettyElems f d (j' :: l))) := by
  rw [prettyElems]; simp

theorem prettyFields_two (f : JsonFmt) (d : ℕ) (k : Str) (j : Json) (x : Str × Json) (l : List (Str × Json)) :
    prettyFields f d ((k, j) :: x :: l) =
      quoteJson f k ++ (58 :: 32 :: (pretty f d j ++ (44 :: (newline d ++ prettyFields f d (x :: l))))) := by
  rw [prettyFields]; simp

theorem newline_white (d : ℕ) : White (newline d) := by
  intro b hb
  unfold newline at hb
  rcases List.mem_cons.mp hb with rfl | hb
  · exact .inr (.inr (.inl rfl))
  · rw [List.eq_of_mem_replicate hb]; exact .inr (.inl rfl)

theorem inter_two (a b : Str) (l : List Str) : List.intercalate [44] (a :: b :: l) = a ++ 44 :: List.intercalate [44] (b :: l) := by
  simp [List.intercalate]

theorem quoted_text {s : Str} {cs : List ℕ} (h : Chars s cs) : ValText (34 :: s ++ [34]) (.str cs) := ValText.str h

open Classical in
/-- the number that is written for a floating point number -/
noncomputable def numOf (f : JsonFmt) (small : Bool) (x : Fl) : ℚ :=
  if h : ∃ q, Number (floatJson f small x) q ∧ (OfFormat small x → ReadsAs small q x) then choose h else 0

theorem numOf_spec {f : JsonFmt} (hf : NumText f) (small : Bool) (x : Fl) :
    Number (floatJson f small x) (numOf f small x) ∧ (OfFormat small x → ReadsAs small (numOf f small x) x) := by
  unfold numOf
  rw [dif_pos (hf small x)]
  exact Classical.choose_spec (hf small x)

mutual
/-- the value of a document -/
noncomputable def valueOf (f : JsonFmt) : Json → JVal
  | .null => .null
  | .bool b => .bool b
  | .int x => .num x
  | .num small x => .num (numOf f small x)
  | .str s => .str (runesOf s.length s)
  | .bytes l => .str ((base64 (l.map Int.toNat)).map UInt8.toNat)
  | .arr l => .arr (valuesOf f l)
  | .obj l => .obj (fieldsOf f l)
noncomputable def valuesOf (f : JsonFmt) : List Json → List JVal
  | [] => []
  | j :: l => valueOf f j :: valuesOf f l
noncomputable def fieldsOf (f : JsonFmt) : List (Str × Json) → List (List ℕ × JVal)
  | [] => []
  | (k, j) :: l => (runesOf k.length k, valueOf f j) :: fieldsOf f l
end

mutual
theorem pretty_means (f : JsonFmt) (hf : NumText f) (j : Json) (d : ℕ) :
    ValText (pretty f d j) (valueOf f j) ∧ Means j (valueOf f j) := by
  cases j with
  | null => exact ⟨.null, by simp [Means, valueOf]⟩
  | bool b =>
    cases b
    · exact ⟨.false, by simp [Means, valueOf]⟩
    · exact ⟨.true, by simp [Means, valueOf]⟩
  | int x => exact ⟨.num (number_int x), by simp [Means, valueOf]⟩
  | num small x =>
    obtain ⟨h1, h2⟩ := numOf_spec hf small x
    exact ⟨.num h1, by rw [Means]; exact ⟨_, rfl, h2⟩⟩
  | str s =>
    obtain ⟨h1, h2⟩ := quote_chars f s
    exact ⟨quoted_text h1, by rw [Means]; exact ⟨_, rfl, h2⟩⟩
  | bytes l =>
    refine ⟨quoted_text (chars_safe _ (base64_safe _)), ?_⟩
    rw [Means]
    refine ⟨_, rfl, fun hl => base64_spec _ fun x hx => ?_⟩
    obtain ⟨y, hy, rfl⟩ := List.mem_map.mp hx
    have := hl y hy
    omega
  | arr l =>
    cases l with
    | nil => exact ⟨.empty (s := []) (fun _ h => nomatch h), by simp [Means, MeanAll, valueOf, valuesOf]⟩
    | cons j l =>
      obtain ⟨⟨es, h1, h2, h3, h4, h6⟩, h5⟩ := elems_mean f hf (j :: l) (by simp) (d + 1) (newline d) (newline_white d)
      refine ⟨?_, ?_⟩
      · have := ValText.arr h1 h2 h3
        rw [h4, h6] at this
        simpa [pretty, valueOf] using this
      · rw [Means]; exact ⟨_, rfl, h5⟩
  | obj l =>
    cases l with
    | nil => exact ⟨.bare (s := []) (fun _ h => nomatch h), by simp [Means, MeanFields, valueOf, fieldsOf]⟩
    | cons j l =>
      obtain ⟨⟨es, h1, h2, h3, h4, h6⟩, h5⟩ := fields_mean f hf (j :: l) (by simp) (d + 1) (newline d) (newline_white d)
      refine ⟨?_, ?_⟩
      · have := ValText.obj h1 h2 h3
        rw [h4, h6] at this
        simpa [pretty, valueOf] using this
      · rw [Means]; exact ⟨_, rfl, h5⟩
theorem elems_mean (f : JsonFmt) (hf : NumText f) (l : List Json) (hl : l ≠ []) (d : ℕ) (last : Str) (hw : White last) :
    (∃ es : List Elem, es ≠ [] ∧ (∀ x ∈ es, White x.before ∧ White x.after) ∧ (∀ x ∈ es, ValText x.text x.val) ∧
      List.intercalate [44] (es.map Elem.all) = newline d ++ (prettyElems f d l ++ last) ∧ es.map Elem.val = valuesOf f l) ∧
    MeanAll l (valuesOf f l) := by
  match l with
  | [] => exact absurd rfl hl
  | [j] =>
    obtain ⟨h1, h2⟩ := pretty_means f hf j d
    refine ⟨⟨[⟨newline d, pretty f d j, last, valueOf f j⟩], by simp, ?_, ?_, ?_, ?_⟩, ?_⟩
    · intro x hx; rw [List.mem_singleton.mp hx]; exact ⟨newline_white d, hw⟩
    · intro x hx; rw [List.mem_singleton.mp hx]; exact h1
    · simp [List.intercalate, Elem.all, prettyElems]
    · simp [valuesOf]
    · rw [MeanAll]; exact ⟨_, [], rfl, h2, by rw [MeanAll]⟩
  | j :: j' :: l =>
    obtain ⟨h1, h2⟩ := pretty_means f hf j d
    obtain ⟨⟨es, k1, k2, k3, k4, k6⟩, k5⟩ := elems_mean f hf (j' :: l) (by simp) d last hw
    refine ⟨⟨⟨newline d, pretty f d j, [], valueOf f j⟩ :: es, by simp, ?_, ?_, ?_, ?_⟩, ?_⟩
    · intro x hx
      rcases List.mem_cons.mp hx with rfl | hx
      · exact ⟨newline_white d, fun _ h => nomatch h⟩
      · exact k2 x hx
    · intro x hx
      rcases List.mem_cons.mp hx with rfl | hx
      · exact h1
      · exact k3 x hx
    · obtain ⟨e, es, rfl⟩ := List.exists_cons_of_ne_nil k1
      rw [List.map_cons, List.map_cons, inter_two, ← List.map_cons, k4, prettyElems_two]
      simp [Elem.all]
    · rw [List.map_cons, k6]; rfl
    · rw [MeanAll]; exact ⟨_, _, rfl, h2, k5⟩
theorem fields_mean (f : JsonFmt) (hf : NumText f) (l : List (Str × Json)) (hl : l ≠ []) (d : ℕ) (last : Str) (hw : White last) :
    (∃ es : List Member, es ≠ [] ∧
      (∀ x ∈ es, White x.before ∧ White x.colon1 ∧ White x.colon2 ∧ White x.after ∧ Chars x.name x.key) ∧
      (∀ x ∈ es, ValText x.text x.val) ∧
      List.intercalate [44] (es.map Member.all) = newline d ++ (prettyFields f d l ++ last) ∧
      es.map (fun x => (x.key, x.val)) = fieldsOf f l) ∧
    MeanFields l (fieldsOf f l) := by
  have w0 : White [] := fun _ h => nomatch h
  have w1 : White [32] := fun b h => .inl (List.mem_singleton.mp h)
  match l with
  | [] => exact absurd rfl hl
  | [(k, j)] =>
    obtain ⟨h1, h2⟩ := pretty_means f hf j d
    obtain ⟨c1, c2⟩ := quote_chars f k
    refine ⟨⟨[⟨newline d, quoteAux f k.length k, [], [32], pretty f d j, last, runesOf k.length k, valueOf f j⟩], by simp, ?_, ?_, ?_, ?_⟩, ?_⟩
    · intro x hx; rw [List.mem_singleton.mp hx]; exact ⟨newline_white d, w0, w1, hw, c1⟩
    · intro x hx; rw [List.mem_singleton.mp hx]; exact h1
    · simp [List.intercalate, Member.all, prettyFields, quoteJson]
    · simp [fieldsOf]
    · rw [MeanFields]; exact ⟨_, _, [], rfl, c2, h2, by rw [MeanFields]⟩
  | (k, j) :: j' :: l =>
    obtain ⟨h1, h2⟩ := pretty_means f hf j d
    obtain ⟨c1, c2⟩ := quote_chars f k
    obtain ⟨⟨es, k1, k2, k3, k4, k6⟩, k5⟩ := fields_mean f hf (j' :: l) (by simp) d last hw
    refine ⟨⟨⟨newline d, quoteAux f k.length k, [], [32], pretty f d j, [], runesOf k.length k, valueOf f j⟩ :: es, by simp, ?_, ?_, ?_, ?_⟩, ?_⟩
    · intro x hx
      rcases List.mem_cons.mp hx with rfl | hx
      · exact ⟨newline_white d, w0, w1, w0, c1⟩
      · exact k2 x hx
    · intro x hx
      rcases List.mem_cons.mp hx with rfl | hx
      · exact h1
      · exact k3 x hx
    · obtain ⟨e, es, rfl⟩ := List.exists_cons_of_ne_nil k1
      rw [List.map_cons, List.map_cons, inter_two, ← List.map_cons, k4, prettyFields_two]
      simp [Member.all, quoteJson]
    · rw [List.map_cons, k6]; rfl
    · rw [MeanFields]; exact ⟨_, _, _, rfl, c2, h2, k5⟩
end

/-! ### the bytes of the text -/

theorem utf8Text_nil : Utf8Text [] := ⟨[], by simp, rfl⟩

theorem utf8Text_append {s t : Str} (hs : Utf8Text s) (ht : Utf8Text t) : Utf8Text (s ++ t) := by
  obtain ⟨cs, h1, rfl⟩ := hs
  obtain ⟨ds, h2, rfl⟩ := ht
  exact ⟨cs ++ ds, fun c hc => (List.mem_append.mp hc).elim (h1 c) (h2 c), by simp⟩

theorem utf8Text_one {c : ℕ} (hc : ScalarValue c) : Utf8Text (utf8 c) := ⟨[c], by simpa using hc, by simp⟩

theorem utf8Text_ascii : ∀ {s : Str}, (∀ b ∈ s, b.toNat < 128) → Utf8Text s
  | [], _ => utf8Text_nil
  | b :: s, h => by
    have hb := h b (by simp)
    have := utf8Text_append (utf8Text_one (c := b.toNat) (by unfold ScalarValue; omega)) (utf8Text_ascii (s := s) fun x hx => h x (by simp [hx]))
    rwa [utf8_byte hb] at this

theorem utf8Text_cons {b : UInt8} (hb : b.toNat < 128) {s : Str} (h : Utf8Text s) : Utf8Text (b :: s) :=
  utf8Text_append (s := [b]) (utf8Text_ascii (by simpa using hb)) h

theorem hexVal_ascii {b : UInt8} {n : ℕ} (h : hexDigitVal b = some n) : b.toNat < 128 := by
  unfold hexDigitVal at h
  split at h
  · omega
  split at h
  · omega
  split at h
  · omega
  · cases h

theorem Spec.Hex4.utf8 {h : Str} {n : ℕ} (hh : Hex4 h n) : Utf8Text h := by
  obtain ⟨a, b, c, d, x, y, z, u, rfl, h1, h2, h3, h4, -⟩ := hh
  exact utf8Text_ascii (by simpa using ⟨hexVal_ascii h1, hexVal_ascii h2, hexVal_ascii h3, hexVal_ascii h4⟩)

theorem Spec.Chars.utf8 {s : Str} {cs : List ℕ} (h : Chars s cs) : Utf8Text s := by
  induction h with
  | nil => exact utf8Text_nil
  | plain h1 _ _ _ _ ih => exact utf8Text_append (utf8Text_one h1) ih
  | @esc e c s cs h1 _ ih =>
    refine utf8Text_cons (by decide) (utf8Text_cons ?_ ih)
    unfold escapes at h1
    simp only [List.mem_cons, Prod.mk.injEq, List.mem_nil_iff, or_false] at h1
    rcases h1 with ⟨rfl, -⟩ | ⟨rfl, -⟩ | ⟨rfl, -⟩ | ⟨rfl, -⟩ | ⟨rfl, -⟩ | ⟨rfl, -⟩ | ⟨rfl, -⟩ | ⟨rfl, -⟩ <;> decide
  | hex h1 _ _ ih => exact utf8Text_cons (by decide) (utf8Text_cons (by decide) (utf8Text_append h1.utf8 ih))
  | pair h1 h2 _ _ _ _ _ ih =>
    exact utf8Text_cons (by decide) (utf8Text_cons (by decide) (utf8Text_append h1.utf8
      (utf8Text_cons (by decide) (utf8Text_cons (by decide) (utf8Text_append h2.utf8 ih)))))

theorem Spec.White.utf8 {s : Str} (h : White s) : Utf8Text s :=
  utf8Text_ascii fun b hb => by rcases h b hb with rfl | rfl | rfl | rfl <;> decide

theorem Spec.Number.utf8 {s : Str} {q : ℚ} (h : Number s q) : Utf8Text s :=
  utf8Text_ascii fun b hb => by
    rcases h.bytes b hb with hd | rfl | rfl | rfl | rfl | rfl
    · unfold Dig at hd; omega
    all_goals decide

theorem utf8Text_inter : ∀ {l : List Str}, (∀ x ∈ l, Utf8Text x) → Utf8Text (List.intercalate [44] l)
  | [], _ => utf8Text_nil
  | [a], h => by simpa [List.intercalate] using h a (by simp)
  | a :: b :: l, h => by
    rw [inter_two]
    exact utf8Text_append (h a (by simp)) (utf8Text_cons (by decide) (utf8Text_inter fun x hx => h x (by simp [hx])))

theorem Spec.ValText.utf8 {t : Str} {v : JVal} (h : ValText t v) : Utf8Text t := by
  have close : ∀ {b : UInt8}, b.toNat < 128 → Utf8Text [b] := fun hb => utf8Text_ascii (by simpa using hb)
  induction h with
  | null => exact utf8Text_ascii (by decide +kernel)
  | true => exact utf8Text_ascii (by decide +kernel)
  | false => exact utf8Text_ascii (by decide +kernel)
  | num h => exact h.utf8
  | str h => exact utf8Text_cons (by decide) (utf8Text_append h.utf8 (close (by decide)))
  | empty h => exact utf8Text_cons (by decide) (utf8Text_append h.utf8 (close (by decide)))
  | bare h => exact utf8Text_cons (by decide) (utf8Text_append h.utf8 (close (by decide)))
  | arr h1 h2 h3 ih =>
    refine utf8Text_cons (by decide) (utf8Text_append (utf8Text_inter fun x hx => ?_) (close (by decide)))
    obtain ⟨y, hy, rfl⟩ := List.mem_map.mp hx
    exact utf8Text_append (h2 y hy).1.utf8 (utf8Text_append (ih y hy) (h2 y hy).2.utf8)
  | obj h1 h2 h3 ih =>
    refine utf8Text_cons (by decide) (utf8Text_append (utf8Text_inter fun x hx => ?_) (close (by decide)))
    obtain ⟨y, hy, rfl⟩ := List.mem_map.mp hx
    obtain ⟨w1, w2, w3, w4, w5⟩ := h2 y hy
    exact utf8Text_append w1.utf8 (utf8Text_cons (by decide) (utf8Text_append w5.utf8 (utf8Text_cons (by decide)
      (utf8Text_append w2.utf8 (utf8Text_cons (by decide) (utf8Text_append w3.utf8 (utf8Text_append (ih y hy) w4.utf8)))))))

theorem Spec.JsonText.utf8 {s : Str} {v : JVal} (h : JsonText s v) : Utf8Text s := by
  obtain ⟨a, t, b, rfl, ha, hb, ht⟩ := h
  exact utf8Text_append ha.utf8 (utf8Text_append ht.utf8 hb.utf8)

/-- one harmless byte -/
def MildByte (b : UInt8) : Prop := b ≠ 60 ∧ b ≠ 62 ∧ b ≠ 38 ∧ (32 ≤ b ∨ b = 9 ∨ b = 10)

theorem harmless_append {s t : Str} (hs : Harmless s) (ht : Harmless t) : Harmless (s ++ t) :=
  fun b hb => (List.mem_append.mp hb).elim (hs b) (ht b)

theorem harmless_cons {b : UInt8} (hb : MildByte b) {s : Str} (h : Harmless s) : Harmless (b :: s) := by
  intro c hc
  rcases List.mem_cons.mp hc with rfl | hc
  · exact hb
  · exact h c hc

theorem harmless_nil : Harmless [] := fun _ h => nomatch h

theorem jsonHex_mild (n : ℕ) (hn : n < 16) : MildByte (jsonHex n) := by unfold MildByte; interval_cases n <;> decide

theorem mild_high {b : UInt8} (h : 128 ≤ b.toNat) : MildByte b := by
  have hne : ∀ x : UInt8, x.toNat < 128 → b ≠ x := fun x hx e => by rw [e] at h; omega
  refine ⟨hne 60 (by decide), hne 62 (by decide), hne 38 (by decide), .inl ?_⟩
  rw [u8le]
  exact le_trans (by decide) h

theorem mild_safe {b : UInt8} (h : htmlSafe b = true) : MildByte b := by
  rw [htmlSafe_iff] at h
  obtain ⟨h1, h2, h3, h4, h5, h6⟩ := h
  unfold MildByte
  simp only [u8eq, u8le, ne_eq]
  exact ⟨h4, h5, h6, .inl h1⟩

theorem harmless_escape (f : JsonFmt) {b : UInt8} (hb : b.toNat < 128) : Harmless (escapeByte f b) := by
  have h92 : MildByte 92 := by unfold MildByte; decide
  unfold escapeByte
  split
  · rename_i h
    refine harmless_cons h92 (harmless_cons ?_ harmless_nil)
    rcases h with rfl | rfl <;> (unfold MildByte; decide)
  split
  · exact harmless_cons h92 (harmless_cons (by unfold MildByte; decide) harmless_nil)
  split
  · exact harmless_cons h92 (harmless_cons (by unfold MildByte; decide) harmless_nil)
  split
  · exact harmless_cons h92 (harmless_cons (by unfold MildByte; decide) harmless_nil)
  split
  · exact harmless_cons h92 (harmless_cons (by unfold MildByte; decide) harmless_nil)
  split
  · exact harmless_cons h92 (harmless_cons (by unfold MildByte; decide) harmless_nil)
  · exact harmless_cons h92 (harmless_cons (by unfold MildByte; decide) (harmless_cons (by unfold MildByte; decide)
      (harmless_cons (by unfold MildByte; decide) (harmless_cons (jsonHex_mild _ (by omega)) (harmless_cons (jsonHex_mild _ (by omega)) harmless_nil)))))

theorem harmless_quote (f : JsonFmt) : ∀ (fuel : ℕ) (s : Str), Harmless (quoteAux f fuel s)
  | 0, _ => harmless_nil
  | _ + 1, [] => harmless_nil
  | fuel + 1, b :: s => by
    have h92 : MildByte 92 := by unfold MildByte; decide
    rw [quoteAux]
    split
    · rename_i hb
      refine harmless_append ?_ (harmless_quote f fuel s)
      split
      · rename_i hs; exact harmless_cons (mild_safe hs) harmless_nil
      · exact harmless_escape f hb
    · rename_i hb
      rw [u8lt] at hb
      replace hb : ¬ b.toNat < 128 := hb
      dsimp only
      refine harmless_append ?_ (harmless_quote f fuel _)
      split
      · unfold Harmless; decide
      · rename_i hd
        obtain ⟨g1, g2, g3⟩ := decode_good b s hd
        split
        · exact harmless_cons h92 (harmless_cons (by unfold MildByte; decide) (harmless_cons (by unfold MildByte; decide)
            (harmless_cons (by unfold MildByte; decide) (harmless_cons (by unfold MildByte; decide) (harmless_cons (jsonHex_mild _ (by omega)) harmless_nil)))))
        · rw [g2]
          intro x hx
          rcases utf8_bytes g1 x hx with ⟨-, h⟩ | h
          · exfalso
            have hh := g2
            obtain ⟨n, hn⟩ : ∃ n, (decodeRune (b :: s)).2 = n + 1 := ⟨_, (Nat.sub_add_cancel g3).symm⟩
            rw [hn, List.take_succ_cons] at hh
            unfold utf8 at hh
            rw [if_pos h] at hh
            have := congrArg UInt8.toNat (List.cons.inj hh).1
            rw [ofNat_toNat] at this
            omega
          · exact mild_high h

theorem harmless_number {s : Str} {q : ℚ} (h : Number s q) : Harmless s := by
  intro b hb
  show MildByte b
  rcases h.bytes b hb with hd | rfl | rfl | rfl | rfl | rfl
  · unfold Dig at hd
    unfold MildByte
    simp only [u8eq, u8le, ne_eq]
    have k1 : (60 : UInt8).toNat = 60 := rfl
    have k2 : (62 : UInt8).toNat = 62 := rfl
    have k3 : (38 : UInt8).toNat = 38 := rfl
    have k4 : (32 : UInt8).toNat = 32 := rfl
    rw [k1, k2, k3, k4]
    omega
  all_goals (unfold MildByte; decide)

theorem harmless_newline (d : ℕ) : Harmless (newline d) := by
  intro b hb
  unfold newline at hb
  rcases List.mem_cons.mp hb with rfl | hb
  · decide
  · rw [List.eq_of_mem_replicate hb]; decide

theorem harmless_quoteJson (f : JsonFmt) (s : Str) : Harmless (quoteJson f s) :=
  harmless_append (harmless_cons (by unfold MildByte; decide) (harmless_quote f _ s)) (harmless_cons (by unfold MildByte; decide) harmless_nil)

mutual
theorem harmless_pretty (f : JsonFmt) (hf : NumText f) (j : Json) (d : ℕ) : Harmless (pretty f d j) := by
  cases j with
  | null => unfold Harmless; rw [pretty, marshal]; decide +kernel; all_goals simp
  | bool b => cases b <;> (unfold Harmless; rw [pretty, marshal]; decide +kernel; all_goals simp)
  | int x => exact harmless_number (number_int x)
  | num small x =>
    obtain ⟨q, h1, -⟩ := hf small x
    exact harmless_number h1
  | str s => exact harmless_quoteJson f s
  | bytes l =>
    exact harmless_append (harmless_cons (by unfold MildByte; decide) fun b hb => mild_safe (base64_safe _ b hb).1)
      (harmless_cons (by unfold MildByte; decide) harmless_nil)
  | arr l =>
    cases l with
    | nil => rw [pretty]; exact harmless_cons (by unfold MildByte; decide) (harmless_cons (by unfold MildByte; decide) harmless_nil)
    | cons j l =>
      rw [pretty]
      exact harmless_cons (by unfold MildByte; decide) (harmless_append (harmless_newline _) (harmless_append (harmless_elems f hf _ _)
        (harmless_append (harmless_newline _) (harmless_cons (by unfold MildByte; decide) harmless_nil))))
  | obj l =>
    cases l with
    | nil => rw [pretty]; exact harmless_cons (by unfold MildByte; decide) (harmless_cons (by unfold MildByte; decide) harmless_nil)
    | cons j l =>
      rw [pretty]
      exact harmless_cons (by unfold MildByte; decide) (harmless_append (harmless_newline _) (harmless_append (harmless_fields f hf _ _)
        (harmless_append (harmless_newline _) (harmless_cons (by unfold MildByte; decide) harmless_nil))))
theorem harmless_elems (f : JsonFmt) (hf : NumText f) (l : List Json) (d : ℕ) : Harmless (prettyElems f d l) := by
  match l with
  | [] => rw [prettyElems]; exact harmless_nil
  | [j] => rw [prettyElems]; exact harmless_pretty f hf j d
  | j :: j' :: l =>
    rw [prettyElems_two]
    exact harmless_append (harmless_pretty f hf j d) (harmless_cons (by unfold MildByte; decide)
      (harmless_append (harmless_newline d) (harmless_elems f hf (j' :: l) d)))
theorem harmless_fields (f : JsonFmt) (hf : NumText f) (l : List (Str × Json)) (d : ℕ) : Harmless (prettyFields f d l) := by
  match l with
  | [] => rw [prettyFields]; exact harmless_nil
  | [(k, j)] =>
    rw [prettyFields]
    exact harmless_append (harmless_quoteJson f k) (harmless_cons (by unfold MildByte; decide) (harmless_cons (by unfold MildByte; decide)
      (harmless_pretty f hf j d)))
  | (k, j) :: j' :: l =>
    rw [prettyFields_two]
    exact harmless_append (harmless_quoteJson f k) (harmless_cons (by unfold MildByte; decide) (harmless_cons (by unfold MildByte; decide)
      (harmless_append (harmless_pretty f hf j d) (harmless_cons (by unfold MildByte; decide)
        (harmless_append (harmless_newline d) (harmless_fields f hf (j' :: l) d))))))
end

theorem Spec.Runes.unique {t : Str} {cs cs' : List ℕ} (h : Runes t cs) (h' : Runes t cs') : cs = cs' := by
  induction h generalizing cs' with
  | nil =>
    generalize ht : ([] : Str) = t at h'
    cases h' with
    | nil => rfl
    | rune h1 h2 =>
      have := congrArg List.length ht
      rw [List.length_append, utf8_length] at this
      revert this
      split <;> (try split) <;> (try split) <;> (rw [List.length_nil]; omega)
    | bad => cases ht
  | @rune c t cs h1 h2 ih =>
    generalize ht : utf8 c ++ t = t' at h'
    cases h' with
    | nil =>
      have := congrArg List.length ht
      rw [List.length_append, utf8_length] at this
      revert this
      split <;> (try split) <;> (try split) <;> (rw [List.length_nil]; omega)
    | rune k1 k2 =>
      obtain ⟨rfl, rfl⟩ := utf8_prefix h1 k1 ht
      rw [ih k2]
    | bad k1 _ => exact absurd ht.symm (k1 _ _ h1)
  | bad h1 h2 ih =>
    rename_i b t cs
    generalize ht : b :: t = t' at h'
    cases h' with
    | nil => cases ht
    | rune k1 k2 => exact absurd ht (h1 _ _ k1)
    | bad k1 k2 =>
      cases ht
      rw [ih k2]

theorem runes_utf8 : ∀ {cs : List ℕ}, (∀ c ∈ cs, ScalarValue c) → Runes (cs.flatMap utf8) cs
  | [], _ => .nil
  | c :: cs, h => by
    rw [List.flatMap_cons]
    exact .rune (h c (by simp)) (runes_utf8 fun x hx => h x (by simp [hx]))

theorem jsonText_value {f : JsonFmt} (hf : NumText f) (j : Json) : JsonText (jsonText f j) (valueOf f j) := by
  have w0 : White [] := by simp [White]
  refine ⟨[], pretty f 0 j, [], ?_, w0, w0, (pretty_means f hf j 0).1⟩
  rw [jsonText_pretty f hf j]
  simp

end Tricorder
