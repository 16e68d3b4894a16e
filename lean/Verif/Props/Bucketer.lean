import Verif.Proof.BucketerFl
/-!
# C35, C36: bucketer constructors

`F` is either float64 (`Fl`) or exact rationals.  `Spec.range l i` is range number `i` for the
endpoints `l`: below the first, between consecutive ones, at or above the last.  That such ranges
cover the line without gap or overlap when the endpoints ascend is `C25_exactly_one_range`.
-/

namespace Tricorder
open Go Spec Arith

/-! ## C35 -/

/-- **C35 (ranges)** In any arithmetic, a bucketer made from endpoints has one more range than
endpoints, and they are the ranges between them; only an empty list of endpoints is refused. -/
theorem C35_arbitrary {F : Type} [Arith F] (l : List F) :
    (newArbitraryBucketer l = .panic ↔ l = []) ∧
    (l ≠ [] → ∃ pieces, newArbitraryBucketer l = .ok pieces ∧ pieces.length = l.length + 1 ∧
      ∀ i : ℕ, pieces[i]? = range l i) := by
  constructor
  · cases l with
    | nil => simp [newArbitraryBucketer, fromEndpoints]
    | cons a l => simp [newArbitraryBucketer, fromEndpoints]
  · intro h
    obtain ⟨p, hp⟩ := fromEndpoints_ok h
    exact ⟨p, hp, (fromEndpoints_length hp).1, fromEndpoints_get hp⟩

/-- **C35 (exponential, panics)** In float64 and in exact arithmetic the exponential constructor
panics exactly when count < 2, start <= 0 or scale <= 1, and otherwise yields `count` ranges. -/
theorem C35_exponential_count {F : Type} [Arith F] (count : ℤ) (start scale : F) :
    (newExponentialBucketer count start scale = .panic ↔
      count < 2 ∨ le start (lit 0) = true ∨ le scale (lit 1) = true) ∧
    (newExponentialBucketer count start scale ≠ .panic → ∃ l pieces,
      newExponentialBucketer count start scale = .ok pieces ∧ (pieces.length : ℤ) = count ∧
      (l.length : ℤ) = count - 1 ∧ l.head? = some start ∧ ∀ i : ℕ, pieces[i]? = range l i) := by
  unfold newExponentialBucketer expStream
  by_cases h : (decide (count < 2) || le start (lit 0) || le scale (lit 1)) = true
  · have h' : count < 2 ∨ le start (lit 0) = true ∨ le scale (lit 1) = true := by
      simpa [or_assoc] using h
    rw [if_pos h]
    exact ⟨⟨fun _ => h', fun _ => rfl⟩, fun hc => absurd rfl hc⟩
  · have h' : ¬ (count < 2 ∨ le start (lit 0) = true ∨ le scale (lit 1) = true) := by
      simpa [or_assoc] using h
    rw [if_neg h]
    have hc : ¬ count < 2 := fun hh => h' (Or.inl hh)
    have hlen := expLoop_length scale (count - 1).toNat start
    have hne : expLoop scale (count - 1).toNat start ≠ [] := by
      intro hh; rw [hh] at hlen; simp at hlen; omega
    obtain ⟨p, hp⟩ := fromEndpoints_ok hne
    have hb : Res.bind (.ok (expLoop scale (count - 1).toNat start)) fromEndpoints = .ok p := hp
    rw [hb]
    refine ⟨⟨(fun hh => (nomatch hh)), fun hh => absurd hh h'⟩, fun _ => ⟨_, p, rfl, ?_, ?_, ?_, fromEndpoints_get hp⟩⟩
    · rw [(fromEndpoints_length hp).1, hlen]; omega
    · rw [hlen]; omega
    · obtain ⟨n, hn⟩ : ∃ n, (count - 1).toNat = n + 1 := ⟨(count - 1).toNat - 1, by omega⟩
      rw [hn]; rfl

/-- **C35 (linear, panics)** likewise for count < 2 or increment <= 0. -/
theorem C35_linear_count {F : Type} [Arith F] (count : ℤ) (start increment : F) :
    (newLinearBucketer count start increment = .panic ↔ count < 2 ∨ le increment (lit 0) = true) ∧
    (newLinearBucketer count start increment ≠ .panic → ∃ l pieces,
      newLinearBucketer count start increment = .ok pieces ∧ (pieces.length : ℤ) = count ∧
      (l.length : ℤ) = count - 1 ∧ l.head? = some start ∧ ∀ i : ℕ, pieces[i]? = range l i) := by
  unfold newLinearBucketer linStream
  by_cases h : (decide (count < 2) || le increment (lit 0)) = true
  · have h' : count < 2 ∨ le increment (lit 0) = true := by simpa using h
    rw [if_pos h]
    exact ⟨⟨fun _ => h', fun _ => rfl⟩, fun hc => absurd rfl hc⟩
  · have h' : ¬ (count < 2 ∨ le increment (lit 0) = true) := by simpa using h
    rw [if_neg h]
    have hc : ¬ count < 2 := fun hh => h' (Or.inl hh)
    have hlen := linLoop_length increment (count - 1).toNat start
    have hne : linLoop increment (count - 1).toNat start ≠ [] := by
      intro hh; rw [hh] at hlen; simp at hlen; omega
    obtain ⟨p, hp⟩ := fromEndpoints_ok hne
    have hb : Res.bind (.ok (linLoop increment (count - 1).toNat start)) fromEndpoints = .ok p := hp
    rw [hb]
    refine ⟨⟨(fun hh => (nomatch hh)), fun hh => absurd hh h'⟩, fun _ => ⟨_, p, rfl, ?_, ?_, ?_, fromEndpoints_get hp⟩⟩
    · rw [(fromEndpoints_length hp).1, hlen]; omega
    · rw [hlen]; omega
    · obtain ⟨n, hn⟩ : ∃ n, (count - 1).toNat = n + 1 := ⟨(count - 1).toNat - 1, by omega⟩
      rw [hn]; rfl

/-- **C35 (exact arithmetic)** the endpoints are `start * scale^i` and `start + i * increment`, in
strictly ascending order. -/
theorem C35_endpoints_in_exact_arithmetic (count : ℤ) (hc : 2 ≤ count) :
    (∀ start scale : ℚ, 0 < start → 1 < scale →
      ∃ l, expStream count start scale = .ok l ∧ l.length = (count - 1).toNat ∧
        (∀ i : ℕ, i < l.length → l[i]? = some (start * scale ^ i)) ∧ l.Pairwise (· < ·)) ∧
    (∀ start increment : ℚ, 0 < increment →
      ∃ l, linStream count start increment = .ok l ∧ l.length = (count - 1).toNat ∧
        (∀ i : ℕ, i < l.length → l[i]? = some (start + i * increment)) ∧ l.Pairwise (· < ·)) := by
  constructor
  · intro start scale h0 h1
    have hlen := expLoop_length scale (count - 1).toNat start
    have hget : ∀ i : ℕ, i < (expLoop scale (count - 1).toNat start).length →
        (expLoop scale (count - 1).toNat start)[i]? = some (start * scale ^ i) :=
      fun i hi => expLoop_q _ _ _ i (by omega)
    refine ⟨_, ?_, hlen, hget, ?_⟩
    · unfold expStream
      rw [if_neg]
      simp [Arith.le, Arith.lit, not_le.2 h0, not_le.2 h1]; omega
    · rw [List.pairwise_iff_getElem]
      intro i j hi hj hij
      have e1 := hget i hi
      have e2 := hget j hj
      rw [List.getElem?_eq_getElem hi] at e1
      rw [List.getElem?_eq_getElem hj] at e2
      rw [Option.some.inj e1, Option.some.inj e2]
      exact mul_lt_mul_of_pos_left (pow_lt_pow_right₀ h1 hij) h0
  · intro start inc h0
    have hlen := linLoop_length inc (count - 1).toNat start
    have hget : ∀ i : ℕ, i < (linLoop inc (count - 1).toNat start).length →
        (linLoop inc (count - 1).toNat start)[i]? = some (start + i * inc) :=
      fun i hi => linLoop_q _ _ _ i (by omega)
    refine ⟨_, ?_, hlen, hget, ?_⟩
    · unfold linStream
      rw [if_neg]
      simp [Arith.le, Arith.lit, not_le.2 h0]; omega
    · rw [List.pairwise_iff_getElem]
      intro i j hi hj hij
      have e1 := hget i hi
      have e2 := hget j hj
      rw [List.getElem?_eq_getElem hi] at e1
      rw [List.getElem?_eq_getElem hj] at e2
      rw [Option.some.inj e1, Option.some.inj e2]
      have : (i : ℚ) < j := by exact_mod_cast hij
      nlinarith

/-- **C35 (float64)** The endpoints ascend, but not necessarily strictly
(`C35_equal_endpoints`): for all arguments that pass the guards and are not NaN, and, for the linear
one, not -∞ with +∞. -/
theorem C35_float_ascending_partial (count : ℤ) :
    (∀ (start scale : Fl) (l : List Fl), start ≠ .nan → scale ≠ .nan → start.Rep b64 →
      expStream count start scale = .ok l → Ascending l) ∧
    (∀ (start inc : Fl) (l : List Fl), start ≠ .nan → inc ≠ .nan → start.Rep b64 → inc.Rep b64 →
      ¬ (start = .inf true ∧ inc = .inf false) → linStream count start inc = .ok l → Ascending l) := by
  constructor
  · intro start scale l hn1 hn2 hr h
    unfold expStream at h
    split at h
    · cases h
    · next hc =>
      cases h
      simp only [Bool.or_eq_true, not_or, Bool.not_eq_true] at hc
      have h1 : Fl.lt (.fin 1) scale = true := by
        have := hc.2
        have e : (lit 1 : Fl) = .fin 1 := by simp [Arith.lit]
        rw [e] at this
        change Fl.le scale (.fin 1) = false at this
        by_contra hh
        rw [Bool.not_eq_true, Fl.not_lt (by simp) hn2, this] at hh
        cases hh
      have h0 : Fl.lt (.fin 0) start = true := by
        have := hc.1.2
        have e : (lit 0 : Fl) = .fin 0 := by simp [Arith.lit]
        rw [e] at this
        change Fl.le start (.fin 0) = false at this
        by_contra hh
        rw [Bool.not_eq_true, Fl.not_lt (by simp) hn1, this] at hh
        cases hh
      exact (expLoop_asc h1 _ _ h0 hr).1
  · intro start inc l hn1 hn2 hr hr2 hi h
    unfold linStream at h
    split at h
    · cases h
    · next hc =>
      cases h
      simp only [Bool.or_eq_true, not_or, Bool.not_eq_true] at hc
      have h0 : Fl.lt (.fin 0) inc = true := by
        have := hc.2
        have e : (lit 0 : Fl) = .fin 0 := by simp [Arith.lit]
        rw [e] at this
        change Fl.le inc (.fin 0) = false at this
        by_contra hh
        rw [Bool.not_eq_true, Fl.not_lt (by simp) hn2, this] at hh
        cases hh
      exact (linLoop_asc h0 hr2 _ _ hn1 hr hi).1

/-- **C35 (integers)** For integers that stay within `2^53` the float64 endpoints are exact, hence
strictly ascending. -/
theorem C35_integer_endpoints_partial (n : ℕ) :
    (∀ start scale : ℤ, 1 ≤ start → 1 ≤ scale → (∀ i : ℕ, i < n → start * scale ^ i ≤ 2 ^ 53) →
      ∀ i : ℕ, i < n → (expLoop (Fl.fin scale) n (Fl.fin start))[i]? =
        some (.fin ((start * scale ^ i : ℤ) : ℚ))) ∧
    (∀ start inc : ℤ, (∀ i : ℕ, i < n → |start + i * inc| ≤ 2 ^ 53) →
      ∀ i : ℕ, i < n → (linLoop (Fl.fin inc) n (Fl.fin start))[i]? =
        some (.fin ((start + i * inc : ℤ) : ℚ))) := by
  constructor
  · induction n with
    | zero => intro _ _ _ _ _ i hi; omega
    | succ n ih =>
      intro start scale h1 h2 hb i hi
      cases i with
      | zero => simp [expLoop]
      | succ i =>
        simp only [expLoop, List.getElem?_cons_succ]
        have hm : Arith.mul (Fl.fin start) (Fl.fin scale) = Fl.fin ((start * scale : ℤ) : ℚ) := by
          show Fl.mul b64 _ _ = _
          have hpos : (0 : ℚ) < (start : ℚ) * scale := by
            have a : (1 : ℚ) ≤ start := by exact_mod_cast h1
            have b : (1 : ℚ) ≤ scale := by exact_mod_cast h2
            nlinarith
          simp only [Fl.mul, Fl.toQ?]
          rw [if_neg hpos.ne']
          have hb1 := hb 1 (by omega)
          rw [pow_one] at hb1
          have := rnd_int (start * scale) (by rw [abs_of_nonneg (by positivity)]; exact hb1)
          push_cast at this ⊢
          exact this
        rw [hm, ih (start * scale) scale (by nlinarith) h2 ?_ i (by omega)]
        · simp only [Option.some.injEq, Fl.fin.injEq, pow_succ]; push_cast; ring
        · intro j hj
          have := hb (j + 1) (by omega)
          rw [pow_succ] at this
          nlinarith
  · induction n with
    | zero => intro _ _ _ i hi; omega
    | succ n ih =>
      intro start inc hb i hi
      cases i with
      | zero => simp [linLoop]
      | succ i =>
        simp only [linLoop, List.getElem?_cons_succ]
        have hm : Arith.add (Fl.fin start) (Fl.fin inc) = Fl.fin ((start + inc : ℤ) : ℚ) := by
          show Fl.add b64 _ _ = _
          have hb1 := hb 1 (by omega)
          have := rnd_int (start + inc) (by simpa using hb1)
          simp only [Fl.add]
          push_cast at this ⊢
          exact this
        rw [hm, ih (start + inc) inc ?_ i (by omega)]
        · simp only [Option.some.injEq, Fl.fin.injEq]; push_cast; ring
        · intro j hj
          have := hb (j + 1) (by omega)
          rw [show start + inc + (j : ℤ) * inc = start + ((j + 1 : ℕ) : ℤ) * inc by push_cast; ring]
          exact this

/-- the predefined bucketers, `/repo/go/tricorder/api.go:155-162` -/
theorem C35_predefined :
    expStream 20 (Fl.fin 1) (.fin 2) = .ok ((List.range 19).map fun i => .fin (2 ^ i)) ∧
    expStream 11 (Fl.fin 1) (.fin 4) = .ok ((List.range 10).map fun i => .fin (4 ^ i)) ∧
    expStream 7 (Fl.fin 1) (.fin 10) = .ok ((List.range 6).map fun i => .fin (10 ^ i)) := by
  decide +kernel

/-- **C35 is false in float64**: equal endpoints, hence empty ranges. -/
theorem C35_equal_endpoints :
    linStream 4 (Fl.fin 9007199254740992) (.fin 1) =
      .ok [.fin 9007199254740992, .fin 9007199254740992, .fin 9007199254740992] := by
  decide +kernel

/-- **C35 is false for NaN**: it passes the guards. -/
theorem C35_nan_accepted : linStream 3 (Fl.fin 0) .nan = .ok [.fin 0, .nan] ∧
    expStream 3 .nan (Fl.fin 2) = .ok [.nan, .nan] := by
  decide +kernel

example : expStream 4 (3 : ℚ) (17/10) = .ok [3, 51/10, 867/100] := by decide +kernel
example : newLinearBucketer 1 (0 : ℚ) 1 = .panic ∧ newLinearBucketer 5 (0 : ℚ) 10 ≠ .panic := by
  decide +kernel

/-! ## C36 -/

/-- **C36 (exact arithmetic)** For `0 < lower <= upper` the construction ends (with any sufficient
number of iterations) and the endpoints are consecutive numbers of the 1-2-5 ladder, from the
greatest one `<= lower` to the least one `>= upper` (or just the first). -/
theorem C36_ladder_in_exact_arithmetic (lower upper : ℚ) (h0 : 0 < lower) (h1 : lower ≤ upper) :
    ∃ (a : ℤ) (m : ℕ), (ladder a ≤ lower ∧ lower < ladder (a + 1)) ∧
      (upper ≤ ladder (a + m) ∧ (m = 0 ∨ ladder (a + m - 1) < upper)) ∧
      ∃ fuel0, ∀ fuel, fuel0 ≤ fuel →
        (geoStream fuel lower upper = .ok (rungs a (m + 1)) ∧
        ∃ pieces, newGeometricBucketer fuel lower upper = .ok pieces ∧
          ∀ i : ℕ, pieces[i]? = range (rungs a (m + 1)) i) := by
  obtain ⟨a, m, l1, l2, l3, l4, f0, hf⟩ := geoStream_q h0 h1
  refine ⟨a, m, ⟨l1, l2⟩, ⟨l3, l4⟩, f0, fun fuel h => ⟨hf fuel h, ?_⟩⟩
  have hne : rungs a (m + 1) ≠ [] := by simp [rungs]
  obtain ⟨p, hp⟩ := fromEndpoints_ok hne
  refine ⟨p, ?_, fromEndpoints_get hp⟩
  unfold newGeometricBucketer
  rw [hf fuel h]; exact hp

/-- the ladder is strictly ascending, so its numbers are consecutive -/
theorem C36_ladder_strictly_ascending : StrictMono ladder := ladder_strictMono

/-- **C36 (guards)** The constructor panics exactly for lower <= 0 or upper < lower, in either
arithmetic, whatever the number of iterations allowed. -/
theorem C36_panics {F : Type} [Arith F] (fuel : ℕ) (lower upper : F) :
    newGeometricBucketer fuel lower upper = .panic ↔ le lower (lit 0) = true ∨ lt upper lower = true := by
  unfold newGeometricBucketer geoStream
  by_cases h : (le lower (lit 0) || lt upper lower) = true
  · rw [if_pos h]
    simpa [Res.bind] using h
  · rw [if_neg h]
    have h' : ¬ (le lower (lit 0) = true ∨ lt upper lower = true) := by simpa using h
    refine ⟨fun hh => ?_, fun hh => absurd hh h'⟩
    exfalso
    revert hh
    split
    · intro hh; cases hh
    · split
      · intro hh; cases hh
      · next l hl =>
        intro hh
        obtain ⟨p, hp⟩ := fromEndpoints_ok (geoEmit_ne_nil _ _ _ _ _ hl)
        change fromEndpoints l = .panic at hh
        rw [hp] at hh; cases hh

/-- **C36 (float64, partial)** For `2^-800 <= lower <= upper <= 2^900` the construction ends within
2000 iterations, the endpoints are consecutive ladder numbers up to a relative error of `2^-40`, the
first belongs to the greatest ladder number `<= lower` up to that error, all but the last are below
upper and the last is not.  Missing: exact ladder numbers (false: `C36_first_above_lower`), and
arguments near the ends of the float64 range (false: `C36_tiny_lower_never_ends`). -/
theorem C36_float_ladder_partial (lower upper : ℚ) (h1 : p2 (-800) ≤ lower) (h2 : lower ≤ upper)
    (h3 : upper ≤ p2 900) :
    ∃ (a : ℤ) (m : ℕ) (l : List Fl),
      (∀ fuel, 2000 ≤ fuel → geoStream fuel (Fl.fin lower) (Fl.fin upper) = .ok l) ∧
      l.length = m + 1 ∧ ladder a ≤ lower * (1 + p2 (-40)) ∧ lower * (1 - p2 (-40)) ≤ ladder (a + 1) ∧
      ∀ i : ℕ, i ≤ m → ∃ v : ℚ, l[i]? = some (Fl.fin v) ∧
        |v - ladder (a + i)| ≤ ladder (a + i) * p2 (-40) ∧ (i < m → v < upper) ∧ (i = m → upper ≤ v) := by
  have e : p2 (-40) = 1 / 1099511627776 := by rw [p2_eq]; norm_num
  rw [e]
  exact geoStream_close h1 h2 h3

/-- **C36 (float64, any arguments)** If the construction ends, the endpoints ascend, all but the
last are below upper and the last is not. -/
theorem C36_float_ascending (fuel : ℕ) (lower upper : Fl) (l : List Fl)
    (h : geoStream fuel lower upper = .ok l) :
    Ascending l ∧ (∀ e ∈ l.dropLast, Fl.lt e upper = true) ∧
      (∀ e, l.getLast? = some e → Fl.lt e upper = false) := geoStream_asc h

/-- **C36 is false in float64**: for lower = 1e-6 the first endpoint is 1.0000000000000002e-06,
above lower. -/
theorem C36_first_above_lower :
    let lower : Fl := .fin (4722366482869645 / 4722366482869645213696)
    lower.Rep b64 ∧ (match geoStream 20 lower lower with
      | .ok [e] => Fl.lt lower e
      | _ => false) = true := by
  decide +kernel

/-- **C36 is false for lower = +∞**: the first loop never ends. -/
theorem C36_infinite_lower_never_ends (fuel : ℕ) :
    geoStream fuel (Fl.inf false) (Fl.inf false) = .timeout := by
  have h : ∀ (n : ℕ) (b : Fl), geoUp n (.inf false) b = none := by
    intro n
    induction n with
    | zero => intro b; rfl
    | succ n ih =>
      intro b
      simp only [geoUp]
      have h1 : Arith.le (lit 10 : Fl) (.inf false) = true := rfl
      have h2 : Arith.div (Fl.inf false) (lit 10 : Fl) = .inf false := by
        show Fl.div b64 (.inf false) (.fin ((10 : ℤ) : ℚ)) = _
        decide +kernel
      rw [h1, h2]; simp [ih]
  unfold geoStream
  have g : (Arith.le (Fl.inf false) (lit 0 : Fl) || Arith.lt (Fl.inf false) (Fl.inf false)) = false := by
    decide +kernel
  rw [g]
  simp [findGeo, h]

/-- **C36 is false for tiny lower**: for the least positive float64 and upper = 1 the power of ten
underflows to zero and the last loop never ends. -/
theorem C36_tiny_lower_never_ends (fuel : ℕ) : geoStream fuel (Fl.fin (p2 (-1074))) (Fl.fin 1) = .timeout := by
  have hfind : findGeo 330 (Fl.fin (p2 (-1074))) = some (.fin 0, 1) ∨
      findGeo 330 (Fl.fin (p2 (-1074))) = some (.fin 0, 2) ∨
      findGeo 330 (Fl.fin (p2 (-1074))) = some (.fin 0, 0) := by
    decide +kernel
  have hz : ∀ (c : ℚ), 0 < c → Fl.mul b64 (.fin 0) (.fin c) = .fin 0 := by
    intro c hc
    simp [Fl.mul, Fl.toQ?, Fl.sign, Fl.zero, not_lt.2 hc.le]
  have hemit : ∀ (n o : ℕ), geoEmit (Fl.fin 1) n (.fin 0) o = none := by
    intro n
    induction n with
    | zero => intro o; rfl
    | succ n ih =>
      intro o
      obtain ⟨c, hc, hcp⟩ := coef_pos o
      rw [geoEmit_fin n 1 0 0 o (by rw [hc]; exact hz c hcp), if_pos (by norm_num), hz 10 (by norm_num), ih, ih]
      simp
  unfold geoStream
  have g : (Arith.le (Fl.fin (p2 (-1074))) (lit 0 : Fl) || Arith.lt (Fl.fin 1) (Fl.fin (p2 (-1074)))) = false := by
    decide +kernel
  rw [g]
  simp only [Bool.false_eq_true, if_false]
  cases hf : findGeo fuel (Fl.fin (p2 (-1074))) with
  | none => rfl
  | some r =>
    obtain ⟨b, o⟩ := r
    have hb : b = .fin 0 := by
      have m1 := findGeo_mono hf (le_max_left fuel 330)
      rcases hfind with h | h | h <;>
        · have m2 := findGeo_mono h (le_max_right fuel 330)
          rw [m1] at m2; cases m2; rfl
    subst hb
    simp [hemit]

/-- **C36 is false for NaN**: it passes the guards and gives a bucketer. -/
theorem C36_nan_accepted : geoStream 10 .nan (Fl.fin 1) = .ok [.fin (1/2), .fin 1] := by
  decide +kernel

/-- the example in the documentation: 0.5 to 50 -/
example : geoStream 20 (Fl.fin (1/2)) (Fl.fin 50) =
    .ok [.fin (1/2), .fin 1, .fin 2, .fin 5, .fin 10, .fin 20, .fin 50] := by decide +kernel
example : geoStream 20 (1/2 : ℚ) 50 = .ok (rungs (-1) 7) := by decide +kernel
example : p2 (-800) ≤ 1/2 ∧ (50 : ℚ) ≤ p2 900 := by decide +kernel

end Tricorder
