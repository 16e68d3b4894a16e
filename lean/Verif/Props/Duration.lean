import Verif.Proof.Duration
/-!
# Properties C39 – C42, C46: durations and instants
-/

namespace Tricorder
open Go Spec Dur

/-! ## C39 -/

/-- **C39** For every `time.Duration`: the conversion keeps the value exactly, the parts are sign
coherent and below one billion nanoseconds, they fit their types, and converting back gives the
same duration. -/
theorem C39_goDuration_roundtrip (d : Int) (h : InI64 d) :
    (Dur.new d).asGoDuration = d ∧ Coherent (Dur.new d) ∧ ns (Dur.new d) = d ∧
    (Dur.new d).Typed := by
  obtain ⟨h1, h2, h3⟩ := new_coherent d h
  exact ⟨by rw [asGoDuration_eq _ (by rw [h2]; exact h) h1, h2], h1, h2, h3⟩

/-- the most negative duration is covered -/
example : InI64 (-9223372036854775808) ∧
    Dur.new (-9223372036854775808) = ⟨-9223372036, -854775808⟩ := by decide

/-! ## C40 -/

/-- **C40** For every representable instant `SinceEpoch(t).AsGoTime()` is the same instant, the
parts are sign coherent and denote the nanoseconds since the epoch. -/
theorem C40_time_roundtrip (t : Time) (h : t.Valid) :
    (Dur.sinceEpoch t).asGoTime = t ∧ Coherent (Dur.sinceEpoch t) ∧
    ns (Dur.sinceEpoch t) = instantNs t ∧ (Dur.sinceEpoch t).Typed := by
  obtain ⟨h1, h2, h3, h4⟩ := sinceEpoch_spec t h
  exact ⟨h4, h1, h2, h3⟩

/-- instants before 1970 with a fraction of a second are covered -/
example : (⟨-2, 500000000⟩ : Time).Valid ∧
    Dur.sinceEpoch ⟨-2, 500000000⟩ = ⟨-1, -500000000⟩ := by decide

/-! ## C41 -/

/-- **C41** For every Go duration and every unit, the text is the canonical numeral with nine
decimals of the duration expressed in that unit, and parsing it with the same unit gives the same
duration back. -/
theorem C41_text_exact_and_roundtrip (x : Int) (hx : InI64 x) (u : MUnit) :
    Denotes9 ((Dur.new x).stringUsingUnits u) (x * perSecond u) ∧
    Dur.parseWithUnit ((Dur.new x).stringUsingUnits u) u = some (Dur.new x) ∧
    (Dur.parseWithUnit ((Dur.new x).stringUsingUnits u) u).map Dur.asGoDuration = some x := by
  obtain ⟨h1, h2, _⟩ := new_coherent x hx
  obtain ⟨h3, h4⟩ := new_convOk x hx u
  obtain ⟨h5, h6⟩ := parseWithUnit_stringUsingUnits (Dur.new x) u h1 h3 h4
  rw [h2] at h6
  refine ⟨h6, h5, ?_⟩
  rw [h5, Option.map_some, (C39_goDuration_roundtrip x hx).1]

example : InI64 (-1500000001) ∧
    (Dur.new (-1500000001)).stringUsingUnits .millisecond = lit "-1500.000001000" := by decide

/-- **C41, all durations** The same holds for every coherent `duration.Duration` that leaves room
for the multiplication by the unit factor (`|Seconds| < 2^63` in seconds, `|Seconds| ≤
9223372036854774` in milliseconds), not only for those that are Go durations. -/
theorem C41_text_all_durations (d : Dur) (hc : Coherent d) (u : MUnit)
    (hr : -9223372036854775807 ≤ d.sec ∧ d.sec ≤ 9223372036854775807)
    (hms : u = .millisecond → -9223372036854774 ≤ d.sec ∧ d.sec ≤ 9223372036854774) :
    Denotes9 (d.stringUsingUnits u) (ns d * perSecond u) ∧
    Dur.parseWithUnit (d.stringUsingUnits u) u = some d := by
  have hok : ConvOk d u ∧ -9223372036854775807 ≤ d.sec := by
    refine ⟨?_, hr.1⟩
    by_cases hu : u = .millisecond
    · exact Or.inr (Or.inr ⟨by rw [hu]; rfl, hms hu⟩)
    · refine Or.inl ⟨?_, by unfold InI64; omega⟩
      cases u <;> first | rfl | exact absurd rfl hu
  obtain ⟨h5, h6⟩ := parseWithUnit_stringUsingUnits d u hc hok.1 hok.2
  exact ⟨h6, h5⟩

example : Coherent ⟨-9223372036854774, -7⟩ ∧
    (Dur.mk (-9223372036854774) (-7)).stringUsingUnits .millisecond =
      lit "-9223372036854774000.000007000" := by decide

/-- **C41, boundary** The excluded point is real: at the most negative number of seconds the
text has two minus signs. -/
theorem C41_min_seconds_text :
    (Dur.mk (-9223372036854775808) 0).stringUsingUnits .second =
      lit "--9223372036854775808.000000000" := by decide

/-! ## C42 -/

/-- **C42 (partial)** The accepting half holds: every plain decimal number (value of the integer
part below 2^63) is accepted and gives its value truncated toward zero to nine decimals in the
unit, then truncated toward zero to a whole number of nanoseconds by the unit conversion.

The full statement would be `(∃ d, parseWithUnit s u = some d) ↔ ∃ v, PlainDecimal s v`; its other
direction is false, see `C42_accepts_more`.  What is accepted exactly is
`C42_exact_language`. -/
theorem C42_plain_decimals_partial (s : Str) (v : Int) (h : PlainDecimal s v) (u : MUnit) :
    ∃ d, Dur.parseWithUnit s u = some d ∧ Coherent d ∧ ns d = quo v (perSecond u) := by
  obtain ⟨d, h1, h2, h3, h4⟩ := parse_plain s v h
  unfold Dur.parseWithUnit
  rw [h1]
  obtain ⟨h5, h6⟩ := div_spec d _ h2 h3.1 (perSecond_cases u)
  exact ⟨_, rfl, by rw [convert_from d u h2 h3.1]; exact h5,
    by rw [convert_from d u h2 h3.1, h6, h4]⟩

example : PlainDecimal (lit "-12.3456789019") (-12345678901) := by
  refine ⟨true, lit "12", lit "3456789019", by decide, ?_, ?_, by decide, Or.inl (by decide), by decide⟩
  · intro d hd; revert d; decide
  · intro d hd; revert d; decide

/-- **C42 (exact language)** `Parse` accepts exactly the `LaxDecimal` strings, with exactly that
value. -/
theorem C42_exact_language (s : Str) :
    (∀ d, Dur.parse s = some d → LaxDecimal s (ns d)) ∧
    (∀ v, LaxDecimal s v → ∃ d, Dur.parse s = some d ∧ ns d = v) := by
  constructor
  · intro d h
    obtain ⟨neg, body, n0, n1, whole, frac, h1, h2, h3, h4, h5, h6⟩ := (parse_iff s d).1 h
    obtain ⟨ws, w1, w2, w3⟩ := (parseInt64_iff _ _).1 h3
    have hcutb : neg = false → ∀ r, body ≠ 45 :: r := by
      rintro rfl r hb
      rcases h1 with ⟨h, _⟩ | ⟨_, hs, hc⟩
      · cases h
      · rw [hs, hb] at hc; simp [cutByte] at hc
    have hsplit : (n1 = none ∧ body = n0) ∨ ∃ fs, n1 = some fs ∧ body = n0 ++ 46 :: fs := by
      rcases splitN2_eq body with ⟨a, r, e1, e2⟩ | e
      · rw [h2] at e1; cases e1; exact Or.inr ⟨r, rfl, e2⟩
      · rw [h2] at e; cases e; exact Or.inl ⟨rfl, rfl⟩
    obtain ⟨inner, hn0, hin, hwv, hlt⟩ : ∃ inner, n0 = inner ++ ws ∧
        (inner = [] ∨ inner = [43] ∨ neg = true ∧ inner = [45] ∧ numVal ws = 0) ∧
        whole = numVal ws ∧ numVal ws < 9223372036854775808 := by
      rcases w3 with ⟨hs | hs, hv, hlt⟩ | ⟨hs, hv, hlt⟩
      · exact ⟨[], by simp [hs], Or.inl rfl, hv, hlt⟩
      · exact ⟨[43], by simp [hs], Or.inr (Or.inl rfl), hv, hlt⟩
      · refine ⟨[45], by simp [hs], Or.inr (Or.inr ⟨?_, rfl, by omega⟩), by omega, by omega⟩
        cases neg with
        | true => rfl
        | false =>
          exfalso
          rcases hsplit with ⟨_, hb⟩ | ⟨fs, _, hb⟩
          · exact hcutb rfl _ (by rw [hb, hs])
          · exact hcutb rfl (ws ++ 46 :: fs) (by rw [hb, hs]; rfl)
    obtain ⟨tail, fs, htail, hbody, hfr⟩ : ∃ tail fs : Str,
        (tail = [] ∧ fs = [] ∨ tail = 46 :: fs ∧ AllDigits (fs.take 9)) ∧
        body = n0 ++ tail ∧ frac = numVal ((fs ++ List.replicate 9 48).take 9) := by
      rcases h5 with ⟨hn, hf⟩ | ⟨fs, hn, hd, hf⟩
      · rcases hsplit with ⟨_, hb⟩ | ⟨fs, hc, _⟩
        · exact ⟨[], [], Or.inl ⟨rfl, rfl⟩, by simp [hb], by rw [hf]; decide⟩
        · rw [hn] at hc; cases hc
      · rcases hsplit with ⟨hc, _⟩ | ⟨fs', hc, hb⟩
        · rw [hn] at hc; cases hc
        · rw [hn] at hc; cases hc
          refine ⟨46 :: fs, fs, Or.inr ⟨rfl, ?_⟩, hb, hf⟩
          rw [List.take_append] at hd
          exact (allDigits_append.1 hd).1
    refine ⟨neg, inner, ws, tail, fs, w1, w2, hlt, hin, htail, ?_, ?_⟩
    · rcases h1 with ⟨rfl, hs⟩ | ⟨rfl, hs, _⟩
      · simp [hs, hbody, hn0]
      · simp [hs, hbody, hn0]
    · rw [h6, ← hfr]
      cases neg <;> simp [ns] <;> omega
  · rintro v ⟨neg, inner, ws, tail, fs, w1, w2, hlt, hin, htail, hs, hv⟩
    have hfd : AllDigits (fs.take 9) := by
      rcases htail with ⟨_, h⟩ | ⟨_, h⟩
      · rw [h]; intro d hd; simp at hd
      · exact h
    have hfd9 : AllDigits ((fs ++ List.replicate 9 48).take 9) := by
      rw [List.take_append]
      exact allDigits_append.2 ⟨hfd, allDigits_take _ (allDigits_zeros 9)⟩
    have hpi : parseInt64 (inner ++ ws) = some (numVal ws : Int) := by
      rw [parseInt64_iff]
      refine ⟨ws, w1, w2, ?_⟩
      rcases hin with rfl | rfl | ⟨_, rfl, h0⟩
      · exact Or.inl ⟨Or.inl rfl, rfl, hlt⟩
      · exact Or.inl ⟨Or.inr rfl, rfl, hlt⟩
      · exact Or.inr ⟨rfl, by omega, by omega⟩
    have hsp : ∀ r, splitN2 46 (inner ++ ws ++ 46 :: r) = (inner ++ ws, some r) ∧
        splitN2 46 (inner ++ ws) = (inner ++ ws, none) := by
      intro r
      obtain ⟨e1, e2⟩ := splitN2_digits ws r w2
      rcases hin with rfl | rfl | ⟨_, rfl, h0⟩
      · exact ⟨e1, e2⟩
      · simp [splitN2, e1, e2]
      · simp [splitN2, e1, e2]
    have hcut : neg = false → ∀ r, cutByte 45 (inner ++ ws ++ r) = none := by
      intro hneg r
      rcases hin with rfl | rfl | ⟨h, _⟩
      · exact cut_digits ws r w1 w2
      · simp [cutByte]
      · rw [hneg] at h; cases h
    have hlt9 : numVal ((fs ++ List.replicate 9 48).take 9) < 1000000000 := by
      have := numVal_lt _ hfd9
      rw [padTake_length] at this; exact this
    refine ⟨if neg then ⟨-(numVal ws : Int), -(fracOf fs : Int)⟩ else ⟨numVal ws, fracOf fs⟩, ?_, ?_⟩
    · rw [parse_iff]
      rcases htail with ⟨ht, hf⟩ | ⟨ht, _⟩
      · subst ht; subst hf
        refine ⟨neg, inner ++ ws, inner ++ ws, none, numVal ws, 0, ?_, (hsp []).2, hpi, by omega,
          Or.inl ⟨rfl, rfl⟩, ?_⟩
        · cases neg
          · right; simp at hs; refine ⟨rfl, hs, ?_⟩
            have := hcut rfl []; rw [List.append_nil] at this; rw [hs]; exact this
          · left; simp at hs; exact ⟨rfl, hs⟩
        · have h0 : fracOf [] = 0 := by decide
          rw [h0]
      · subst ht
        refine ⟨neg, inner ++ ws ++ 46 :: fs, inner ++ ws, some fs, numVal ws, fracOf fs, ?_,
          (hsp fs).1, hpi, by omega, Or.inr ⟨fs, rfl, hfd9, rfl⟩, rfl⟩
        cases neg
        · right; simp at hs
          refine ⟨rfl, by simp [hs], ?_⟩
          have := hcut rfl (46 :: fs); simp at this; rw [hs]; exact this
        · left; simp at hs; exact ⟨rfl, by simp [hs]⟩
    · rw [hv]
      change ns _ = _ * ((numVal ws * 1000000000 + fracOf fs : Nat) : Int)
      cases neg <;> simp [ns] <;> omega

/-- **C42 is false of the code**: a plus sign, two minus signs before a zero integer part and
arbitrary bytes after the ninth decimal are accepted although they are not plain decimals. -/
theorem C42_accepts_more :
    (Dur.parse (lit "+5") = some ⟨5, 0⟩ ∧ ∀ v, ¬ PlainDecimal (lit "+5") v) ∧
    (Dur.parse (lit "--0.5") = some ⟨0, -500000000⟩ ∧ ∀ v, ¬ PlainDecimal (lit "--0.5") v) ∧
    (Dur.parse (lit "1.123456789xyz") = some ⟨1, 123456789⟩ ∧
      ∀ v, ¬ PlainDecimal (lit "1.123456789xyz") v) := by
  have digit : ∀ {ds : Str} {c : UInt8}, AllDigits ds → c ∈ ds → 48 ≤ c.toNat ∧ c.toNat ≤ 57 :=
    fun h hm => h _ hm
  refine ⟨⟨by decide, ?_⟩, ⟨by decide, ?_⟩, ⟨by decide, ?_⟩⟩
  · rintro v ⟨neg, ws, fs, h1, h2, h3, _, h5, _⟩
    have key : ∀ r : Str, lit "+5" = (if neg then [45] else []) ++ ws ++ r → False := by
      intro r h
      cases neg <;> cases ws with
        | nil => exact h1 rfl
        | cons c cs =>
          simp [lit] at h
          try (have := digit h2 (List.mem_cons_self (a := c)); rw [← h.1] at this; simp at this)
    rcases h5 with h5 | ⟨_, h5⟩
    · exact key ([46] ++ fs) (by rw [h5]; simp)
    · exact key [] (by rw [h5]; simp)
  · rintro v ⟨neg, ws, fs, h1, h2, h3, _, h5, _⟩
    have key : ∀ r : Str, lit "--0.5" = (if neg then [45] else []) ++ ws ++ r → False := by
      intro r h
      cases neg <;> cases ws with
        | nil => exact h1 rfl
        | cons c cs =>
          simp [lit] at h
          have := digit h2 (List.mem_cons_self (a := c)); rw [← h.1] at this; simp at this
    rcases h5 with h5 | ⟨_, h5⟩
    · exact key ([46] ++ fs) (by rw [h5]; simp)
    · exact key [] (by rw [h5]; simp)
  · rintro v ⟨neg, ws, fs, h1, h2, h3, _, h5, _⟩
    have mem : (122 : UInt8) ∈ (if neg then [45] else []) ++ ws ++ [46] ++ fs ∨
        (122 : UInt8) ∈ (if neg then [45] else []) ++ ws := by
      rcases h5 with h5 | ⟨_, h5⟩
      · left; rw [← h5]; decide
      · right; rw [← h5]; decide
    simp only [List.mem_append, List.mem_singleton] at mem
    have hz : ¬ (48 ≤ (122 : UInt8).toNat ∧ (122 : UInt8).toNat ≤ 57) := by decide
    have hsign : ¬ (122 : UInt8) ∈ (if neg then [(45 : UInt8)] else []) := by cases neg <;> decide
    rcases mem with (((hm | hm) | hm) | hm) | (hm | hm)
    · exact hsign hm
    · exact hz (h2 _ hm)
    · exact absurd hm (by decide)
    · exact hz (h3 _ hm)
    · exact hsign hm
    · exact hz (h2 _ hm)

/-! ## C46 -/

/-- **C46** For every coherent non-negative duration `PrettyFormat` returns a string whose fields
denote the duration truncated to the precision shown. -/
theorem C46_prettyFormat (d : Dur) (hc : Coherent d) (h0 : 0 ≤ ns d) :
    ∃ s, d.prettyFormat = some s ∧ Pretty (ns d).toNat s := by
  obtain ⟨s, n⟩ := d
  unfold Coherent at hc; unfold ns at h0 ⊢; simp only at hc h0 ⊢
  have hs : 0 ≤ s := by omega
  have hn : 0 ≤ n := by omega
  have pad3 : ∀ k : Int, 0 ≤ k → k < 1000 → Digits3 (fmtIntPad 3 k) k.toNat := by
    intro k h1 h2
    obtain ⟨a1, a2, a3⟩ := zeroPad_spec 2 k.natAbs (by omega)
    unfold fmtIntPad Digits3
    rw [if_neg (by omega)]
    exact ⟨a1, a2, by rw [a3]; omega⟩
  have num : ∀ k : Int, 0 ≤ k → DenotesInt (fmtInt k) (k.toNat : Int) := by
    intro k h1
    rw [Int.toNat_of_nonneg h1]; exact fmtInt_spec k
  unfold prettyFormat Pretty
  have hneg : (Dur.mk s n).isNegative = false := by unfold isNegative; simp; omega
  rw [hneg]
  simp only [Bool.false_eq_true, if_false]
  rw [quo_nonneg _ hn, quo_nonneg _ hn]
  rw [quo_nonneg 60 hs, rem_nonneg 60 hs, rem_nonneg (60*60) hs, rem_nonneg (24*60*60) hs,
    quo_nonneg (60*60) hs, quo_nonneg (24*60*60) hs, quo_nonneg 60 (by omega),
    quo_nonneg (60*60) (by omega)]
  split
  · exact ⟨_, rfl, Or.inl ⟨by omega, fmtInt n, by
      have := num n hn
      have e : (s * 1000000000 + n).toNat = n.toNat := by omega
      rw [e]; exact this, rfl⟩⟩
  split
  · exact ⟨_, rfl, Or.inr (Or.inl ⟨by omega, by omega, (n / 1000).toNat, _, by omega, by omega,
      num _ (by omega), by simp⟩)⟩
  split
  · exact ⟨_, rfl, Or.inr (Or.inr (Or.inl ⟨by omega, by omega, (n / 1000000).toNat, _, by omega,
      by omega, num _ (by omega), by simp⟩))⟩
  split
  · exact ⟨_, rfl, Or.inr (Or.inr (Or.inr (Or.inl ⟨by omega, by omega, s.toNat,
      (n / 1000000).toNat, _, _, by omega, by omega, by omega,
      num _ (by omega), pad3 _ (by omega) (by omega), by simp⟩)))⟩
  split
  · exact ⟨_, rfl, Or.inr (Or.inr (Or.inr (Or.inr (Or.inl ⟨by omega, by omega, (s / 60).toNat,
      (s % 60).toNat, (n / 1000000).toNat, _, _, _, by omega, by omega, by omega, by omega,
      num _ (by omega), num _ (by omega), pad3 _ (by omega) (by omega), by simp⟩))))⟩
  split
  · exact ⟨_, rfl, Or.inr (Or.inr (Or.inr (Or.inr (Or.inr (Or.inl ⟨by omega, by omega,
      (s / (60*60)).toNat, (s % (60*60) / 60).toNat, (s % 60).toNat, _, _, _, by omega, by omega,
      by omega, by omega, num _ (by omega), num _ (by omega), num _ (by omega), by simp⟩)))))⟩
  · exact ⟨_, rfl, Or.inr (Or.inr (Or.inr (Or.inr (Or.inr (Or.inr ⟨by omega,
      (s / (24*60*60)).toNat, (s % (24*60*60) / (60*60)).toNat, (s % (60*60) / 60).toNat,
      (s % 60).toNat, _, _, _, _, by omega, by omega, by omega, by omega, by omega,
      num _ (by omega), num _ (by omega), num _ (by omega), num _ (by omega), by simp⟩)))))⟩

example : Coherent ⟨100000, 5⟩ ∧ (Dur.mk 100000 5).prettyFormat = some (lit "1d 3h 46m 40s") := by
  decide

/-- **C46** `PrettyFormat` panics exactly on durations with a negative part. -/
theorem C46_prettyFormat_panics (d : Dur) :
    d.prettyFormat = none ↔ d.sec < 0 ∨ d.nsec < 0 := by
  unfold prettyFormat isNegative
  constructor
  · intro h
    by_cases hneg : d.sec < 0 ∨ d.nsec < 0
    · exact hneg
    · exfalso
      rw [if_neg (by simp; omega)] at h
      repeat' split at h
      all_goals cases h
  · intro h
    rw [if_pos (by simp; omega)]

end Tricorder
