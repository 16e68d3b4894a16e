import Verif.Model.Path
import Verif.Spec.Path
import Mathlib.Data.List.Basic
import Mathlib.Tactic.IntervalCases
/-!
# Lemmas about path splitting and white space
-/

namespace Tricorder
open Go Spec

theorem isSpace_iff (r : ℕ) : isSpace r = true ↔ r ∈ spacePoints := by
  constructor
  · intro h
    simp only [isSpace, Bool.or_eq_true, Bool.and_eq_true, decide_eq_true_eq, beq_iff_eq] at h
    have : r = 0x9 ∨ r = 0xA ∨ r = 0xB ∨ r = 0xC ∨ r = 0xD ∨ r = 0x20 ∨ r = 0x85 ∨ r = 0xA0 ∨
        r = 0x1680 ∨ r = 0x2000 ∨ r = 0x2001 ∨ r = 0x2002 ∨ r = 0x2003 ∨ r = 0x2004 ∨ r = 0x2005 ∨
        r = 0x2006 ∨ r = 0x2007 ∨ r = 0x2008 ∨ r = 0x2009 ∨ r = 0x200A ∨ r = 0x2028 ∨ r = 0x2029 ∨
        r = 0x202F ∨ r = 0x205F ∨ r = 0x3000 := by omega
    simpa [spacePoints] using this
  · intro h
    simp only [spacePoints, List.mem_cons, List.not_mem_nil, or_false] at h
    rcases h with h | h | h | h | h | h | h | h | h | h | h | h | h | h | h | h | h | h | h | h |
      h | h | h | h | h <;> subst h <;> decide

theorem space_lt {r : ℕ} (h : isSpace r = true) : r < 0x3001 := by
  simp only [isSpace, Bool.or_eq_true, Bool.and_eq_true, decide_eq_true_eq, beq_iff_eq] at h
  omega

theorem isCont_iff (b : UInt8) : isCont b = true ↔ 0x80 ≤ b.toNat ∧ b.toNat ≤ 0xBF := by
  simp [isCont, UInt8.le_iff_toNat_le]

theorem ofNat_eq_of_toNat {b : UInt8} {n : ℕ} (h : n = b.toNat) : UInt8.ofNat n = b := by
  subst h; exact UInt8.ofNat_toNat

/-- a decoded white space rune occupies exactly its encoding -/
theorem decodeRune_space {s : Str} (h : isSpace (decodeRune s).1 = true) :
    s.take (decodeRune s).2 = encode (decodeRune s).1 ∧
      (decodeRune s).2 = (encode (decodeRune s).1).length ∧ 0 < (decodeRune s).2 := by
  have hbad : isSpace 0xFFFD = false := by decide
  have hlt := space_lt h
  revert h hlt
  unfold decodeRune
  cases s with
  | nil => simp [hbad]
  | cons b0 rest =>
    have hb0 := b0.toNat_lt
    simp only [UInt8.lt_iff_toNat_lt]
    have e1 : (0x80 : UInt8).toNat = 0x80 := rfl
    have e2 : (0xC2 : UInt8).toNat = 0xC2 := rfl
    have e3 : (0xE0 : UInt8).toNat = 0xE0 := rfl
    have e4 : (0xF0 : UInt8).toNat = 0xF0 := rfl
    have e5 : (0xF5 : UInt8).toNat = 0xF5 := rfl
    have e6 : (0xA0 : UInt8).toNat = 0xA0 := rfl
    have e7 : (0x90 : UInt8).toNat = 0x90 := rfl
    simp only [e1, e2, e3, e4, e5, e6, e7]
    split
    · rename_i h1
      intro _ _
      have : b0.toNat < 0x80 := h1
      simp [encode, h1]
    split
    · simp [hbad]
    rename_i h1 h2
    split
    · rename_i h3
      split
      · rename_i b1 rest' 
        split
        · rename_i hc
          rw [isCont_iff] at hc
          intro _ _
          have a1 : ¬ (b0.toNat - 0xC0) * 64 + (b1.toNat - 0x80) < 0x80 := by omega
          have a2 : (b0.toNat - 0xC0) * 64 + (b1.toNat - 0x80) < 0x800 := by omega
          simp only [encode, if_neg a1, if_pos a2]
          refine ⟨?_, rfl, by omega⟩
          simp only [List.take_succ_cons, List.take_zero]
          rw [ofNat_eq_of_toNat (b := b0) (by omega), ofNat_eq_of_toNat (b := b1) (by omega)]
        · simp [hbad]
      · simp [hbad]
    split
    · rename_i h3 h4
      split
      · rename_i b1 b2 rest' 
        split
        · rename_i hc
          simp only [Bool.and_eq_true, isCont_iff, Bool.not_eq_true', Bool.and_eq_false_iff,
            beq_eq_false_iff_ne, decide_eq_false_iff_not] at hc
          obtain ⟨⟨⟨hc1, hc2⟩, hc3⟩, -⟩ := hc
          intro _ _
          have hc3' : b0.toNat = 0xE0 → 0xA0 ≤ b1.toNat := by
            intro e
            rcases hc3 with h | h
            · exact absurd (UInt8.toNat_inj.mp (by rw [e, e3])) h
            · omega
          have a1 : ¬ (b0.toNat - 0xE0) * 4096 + (b1.toNat - 0x80) * 64 + (b2.toNat - 0x80) < 0x80 := by
            omega
          have a2 : ¬ (b0.toNat - 0xE0) * 4096 + (b1.toNat - 0x80) * 64 + (b2.toNat - 0x80) < 0x800 := by
            omega
          simp only [encode, if_neg a1, if_neg a2]
          refine ⟨?_, rfl, by omega⟩
          simp only [List.take_succ_cons, List.take_zero]
          rw [ofNat_eq_of_toNat (b := b0) (by omega), ofNat_eq_of_toNat (b := b1) (by omega),
            ofNat_eq_of_toNat (b := b2) (by omega)]
        · simp [hbad]
      · simp [hbad]
    split
    · rename_i h3 h4 h5
      split
      · rename_i b1 b2 b3 rest' 
        split
        · rename_i hc
          simp only [Bool.and_eq_true, isCont_iff, Bool.not_eq_true', Bool.and_eq_false_iff,
            beq_eq_false_iff_ne, decide_eq_false_iff_not] at hc
          obtain ⟨⟨⟨⟨hc1, hc2⟩, hc2'⟩, hc3⟩, -⟩ := hc
          intro _ hlt
          have hc3' : b0.toNat = 0xF0 → 0x90 ≤ b1.toNat := by
            intro e
            rcases hc3 with h | h
            · exact absurd (UInt8.toNat_inj.mp (by rw [e, e4])) h
            · omega
          simp only at hlt
          omega
        · simp [hbad]
      · simp [hbad]
    · simp [hbad]

theorem decodeRune_encode {r : ℕ} (h : r ∈ spacePoints) (s : Str) :
    decodeRune (encode r ++ s) = (r, (encode r).length) := by
  simp only [spacePoints, List.mem_cons, List.not_mem_nil, or_false] at h
  rcases h with h | h | h | h | h | h | h | h | h | h | h | h | h | h | h | h | h | h | h | h |
      h | h | h | h | h <;> subst h <;> rfl

theorem encode_ne_nil (r : ℕ) : encode r ≠ [] := by
  unfold encode; split <;> [skip; split] <;> simp

theorem Blank.nil : Blank [] := ⟨[], by simp, rfl⟩

theorem Blank.cons {r : ℕ} {s : Str} (hr : r ∈ spacePoints) (hs : Blank s) :
    Blank (encode r ++ s) := by
  obtain ⟨rs, h1, h2⟩ := hs
  refine ⟨r :: rs, ?_, by simp [h2]⟩
  intro x hx
  rcases List.mem_cons.mp hx with h | h
  · exact h ▸ hr
  · exact h1 x h

theorem Blank.append {s t : Str} (hs : Blank s) (ht : Blank t) : Blank (s ++ t) := by
  obtain ⟨rs, h1, h2⟩ := hs
  obtain ⟨rt, h3, h4⟩ := ht
  refine ⟨rs ++ rt, ?_, by simp [h2, h4]⟩
  intro x hx
  rcases List.mem_append.mp hx with h | h
  · exact h1 x h
  · exact h3 x h

theorem Blank.enc {r : ℕ} (hr : r ∈ spacePoints) : Blank (encode r) := by
  simpa using Blank.cons hr Blank.nil

theorem trimLeftAux_split (fuel : ℕ) (s : Str) :
    ∃ pre, Blank pre ∧ s = pre ++ trimLeftAux fuel s := by
  induction fuel generalizing s with
  | zero => exact ⟨[], Blank.nil, rfl⟩
  | succ n ih =>
    unfold trimLeftAux
    by_cases hs : s = []
    · exact ⟨[], Blank.nil, by simp [hs]⟩
    · simp only [if_neg hs]
      by_cases hsp : isSpace (decodeRune s).1 = true
      · simp only [hsp, if_true]
        obtain ⟨h1, h2, h3⟩ := decodeRune_space hsp
        obtain ⟨pre, hp, he⟩ := ih (s.drop (decodeRune s).2)
        refine ⟨encode (decodeRune s).1 ++ pre, Blank.cons ((isSpace_iff _).mp hsp) hp, ?_⟩
        rw [List.append_assoc, ← he, ← h1, List.take_append_drop]
      · simp only [hsp]
        exact ⟨[], Blank.nil, by simp⟩

theorem trimLeftAux_blank (rs : List ℕ) (h : ∀ r ∈ rs, r ∈ spacePoints) (fuel : ℕ)
    (hf : rs.length ≤ fuel) : trimLeftAux fuel (rs.flatMap encode) = [] := by
  induction rs generalizing fuel with
  | nil => cases fuel <;> simp [trimLeftAux]
  | cons r rs ih =>
    cases fuel with
    | zero => simp at hf
    | succ n =>
      have hr := h r List.mem_cons_self
      unfold trimLeftAux
      rw [if_neg (by simp [encode_ne_nil])]
      simp only [List.flatMap_cons, decodeRune_encode hr, (isSpace_iff r).mpr hr, if_true]
      rw [List.drop_left]
      exact ih (fun x hx => h x (List.mem_cons_of_mem _ hx)) n (by simpa using hf)

theorem flatMap_encode_length (rs : List ℕ) : rs.length ≤ (rs.flatMap encode).length := by
  induction rs with
  | nil => simp
  | cons r rs ih =>
    have : 0 < (encode r).length := List.length_pos_of_ne_nil (encode_ne_nil r)
    simp only [List.flatMap_cons, List.length_append, List.length_cons]
    omega

theorem decodeLastAux_space (s : Str) (fuel k : ℕ) (hk : k ≤ s.length)
    (h : isSpace (decodeLastAux s fuel k).1 = true) :
    (decodeLastAux s fuel k).2 ≤ s.length ∧ 0 < (decodeLastAux s fuel k).2 ∧
      s.drop (s.length - (decodeLastAux s fuel k).2) = encode (decodeLastAux s fuel k).1 := by
  have hbad : isSpace 0xFFFD = false := by decide
  induction fuel generalizing k with
  | zero => simp [decodeLastAux, hbad] at h
  | succ n ih =>
    unfold decodeLastAux at h ⊢
    simp only at h ⊢
    split at h
    · simp [hbad] at h
    · rename_i b t hbt
      by_cases hc : (isCont b && decide (k < s.length)) = true
      · rw [if_pos hc] at h
        simp only [if_pos hc]
        simp only [Bool.and_eq_true, decide_eq_true_eq] at hc
        exact ih (k + 1) (by omega) h
      · rw [if_neg hc] at h
        simp only [if_neg hc]
        by_cases hn : (decodeRune (s.drop (s.length - k))).2 = k
        · rw [if_pos hn] at h
          simp only [if_pos hn]
          obtain ⟨h1, h2, h3⟩ := decodeRune_space h
          refine ⟨by omega, by omega, ?_⟩
          rw [← h1, hn]
          rw [List.take_of_length_le (by simp; omega)]
        · rw [if_neg hn] at h
          simp [hbad] at h

theorem trimRightAux_nil (fuel : ℕ) (s : Str) (h : trimRightAux fuel s = []) : Blank s := by
  induction fuel generalizing s with
  | zero => simp only [trimRightAux] at h; exact h ▸ Blank.nil
  | succ n ih =>
    unfold trimRightAux at h
    by_cases hs : s = []
    · exact hs ▸ Blank.nil
    · simp only [if_neg hs] at h
      by_cases hsp : isSpace (decodeLastRune s).1 = true
      · simp only [hsp, if_true] at h
        have hlen : 1 ≤ s.length := List.length_pos_of_ne_nil hs
        have hb := ih _ h
        unfold decodeLastRune at hsp hb
        rw [if_neg hs] at hsp hb
        obtain ⟨h1, h2, h3⟩ := decodeLastAux_space s 4 1 hlen hsp
        have := Blank.append hb (Blank.enc ((isSpace_iff _).mp hsp))
        rw [← h3, List.take_append_drop] at this
        exact this
      · simp only [hsp, Bool.false_eq_true, if_false] at h
        exact absurd h hs

theorem trimRightAux_empty (fuel : ℕ) : trimRightAux fuel [] = [] := by
  cases fuel <;> simp [trimRightAux]

/-- `strings.TrimSpace(s) == ""` says exactly that `s` is a sequence of white space. -/
theorem trimSpace_nil_iff (s : Str) : trimSpace s = [] ↔ Blank s := by
  unfold trimSpace
  simp only
  constructor
  · intro h
    have hb := trimRightAux_nil _ _ h
    obtain ⟨pre, hp, he⟩ := trimLeftAux_split s.length s
    rw [he]
    exact Blank.append hp hb
  · rintro ⟨rs, h1, h2⟩
    subst h2
    rw [trimLeftAux_blank rs h1 _ (flatMap_encode_length rs)]
    simp [trimRightAux_empty]

theorem splitByte_ne_nil (sep : UInt8) (s : Str) : splitByte sep s ≠ [] := by
  cases s with
  | nil => simp [splitByte]
  | cons c cs =>
    unfold splitByte
    split
    · simp
    · split <;> simp

theorem splitByte_no_sep (sep : UInt8) (s : Str) : ∀ p ∈ splitByte sep s, sep ∉ p := by
  induction s with
  | nil => simp [splitByte]
  | cons c cs ih =>
    intro p hp
    unfold splitByte at hp
    split at hp
    · rcases List.mem_cons.mp hp with h | h
      · simp [h]
      · exact ih p h
    · rename_i hc
      split at hp
      · simp at hp; subst hp; simpa using fun h => hc h.symm
      · rename_i q qs hq
        rcases List.mem_cons.mp hp with h | h
        · subst h
          have := ih q (by rw [hq]; exact List.mem_cons_self)
          simp only [List.mem_cons, not_or]
          exact ⟨fun h => hc h.symm, this⟩
        · exact ih p (by rw [hq]; exact List.mem_cons_of_mem _ h)

theorem splitByte_join (sep : UInt8) (s : Str) :
    List.intercalate [sep] (splitByte sep s) = s := by
  induction s with
  | nil => simp [splitByte, List.intercalate]
  | cons c cs ih =>
    unfold splitByte
    cases hq : splitByte sep cs with
    | nil => exact absurd hq (splitByte_ne_nil sep cs)
    | cons q qs =>
      rw [hq] at ih
      split
      · rename_i hc
        subst hc
        rw [List.intercalate_cons_cons, ih]
        simp
      · simp only
        cases qs with
        | nil => simpa [List.intercalate] using ih
        | cons r rs =>
          rw [List.intercalate_cons_cons] at ih ⊢
          rw [← ih]; simp

theorem splitByte_append (sep : UInt8) (p s : Str) (hp : sep ∉ p) :
    splitByte sep (p ++ sep :: s) = p :: splitByte sep s := by
  induction p with
  | nil => simp [splitByte]
  | cons c cs ih =>
    simp only [List.mem_cons, not_or] at hp
    have hc : c ≠ sep := fun h => hp.1 h.symm
    rw [List.cons_append, splitByte, if_neg hc, ih hp.2]

theorem splitByte_single (sep : UInt8) (p : Str) (hp : sep ∉ p) : splitByte sep p = [p] := by
  induction p with
  | nil => simp [splitByte]
  | cons c cs ih =>
    simp only [List.mem_cons, not_or] at hp
    have hc : c ≠ sep := fun h => hp.1 h.symm
    rw [splitByte, if_neg hc, ih hp.2]

/-- the pieces of a string are unique -/
theorem splitByte_unique (sep : UInt8) (parts : List Str) (h0 : parts ≠ [])
    (h1 : ∀ p ∈ parts, sep ∉ p) :
    splitByte sep (List.intercalate [sep] parts) = parts := by
  induction parts with
  | nil => exact absurd rfl h0
  | cons p ps ih =>
    cases ps with
    | nil => simpa [List.intercalate] using splitByte_single sep p (h1 p (by simp))
    | cons q qs =>
      rw [List.intercalate_cons_cons, List.append_assoc]
      change splitByte sep (p ++ sep :: List.intercalate [sep] (q :: qs)) = _
      rw [splitByte_append sep p _ (h1 p (by simp)), ih (by simp)
        (fun x hx => h1 x (List.mem_cons_of_mem _ hx))]

theorem joinByte_eq (sep : UInt8) (parts : List Str) :
    joinByte sep parts = List.intercalate [sep] parts := by
  induction parts with
  | nil => rfl
  | cons p ps ih =>
    cases ps with
    | nil => simp [joinByte, List.intercalate]
    | cons q qs => rw [joinByte, ih, List.intercalate_cons_cons]; simp

theorem newPathSpec_comp {path : Str} {c : Str} (h : c ∈ newPathSpec path) :
    47 ∉ c ∧ ¬ Blank c := by
  unfold newPathSpec at h
  obtain ⟨h1, h2⟩ := List.mem_filter.mp h
  refine ⟨splitByte_no_sep 47 path c h1, ?_⟩
  rw [← trimSpace_nil_iff]
  simpa using h2

theorem keep_of {c : Str} (h : ¬ Blank c) : decide (trimSpace c ≠ []) = true := by
  rw [← trimSpace_nil_iff] at h
  simpa using h

/-- joining components gives a path with exactly these components -/
theorem newPathSpec_join (cs : List Str) (h : ∀ c ∈ cs, 47 ∉ c ∧ ¬ Blank c) :
    newPathSpec (pathString cs) = cs := by
  unfold newPathSpec pathString
  rw [joinByte_eq]
  by_cases h0 : cs = []
  · subst h0
    have : trimSpace [] = [] := (trimSpace_nil_iff _).mpr Blank.nil
    simp [List.intercalate, splitByte, this]
  · rw [splitByte_unique 47 cs h0 (fun p hp => (h p hp).1)]
    rw [List.filter_eq_self]
    intro c hc
    exact keep_of (h c hc).2

theorem newPathSpec_slash (path : Str) : newPathSpec (47 :: path) = newPathSpec path := by
  unfold newPathSpec
  have : trimSpace [] = [] := (trimSpace_nil_iff _).mpr Blank.nil
  rw [splitByte, if_pos rfl, List.filter_cons, if_neg (by simp [this])]

end Tricorder
