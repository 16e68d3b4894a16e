import Verif.Proof.Types
import Verif.Spec.Types
import Verif.Model.Messages
/-!
# C47, C57: package `types`
-/

namespace Tricorder
open Go Spec

/-! ## C47 -/

/-- convert to float and back -/
def roundTrip (t : Ty) (v : Val) : Conv Val :=
  match t.toFloat v with
  | .ok f => t.fromFloat f
  | .panic => .panic
  | .unspecified => .unspecified

/-- **C47 (integers, partial)** For every sized integer type and every value of it that `float64`
represents exactly, except the odd values with `2^52 ≤ |x| < 2^53`, the round trip gives the value
back.  The exception is real: `C47_odd_integers_move`. -/
theorem C47_int_roundtrip_partial (t : Ty) (k : IntKind) (hk : intKindOf t = some k) (x : ℤ)
    (hx : k.InRange x) (hrep : rnd b64 (x : ℚ) = .fin (x : ℚ))
    (hodd : 2 ^ 52 ≤ |x| → |x| < 2 ^ 53 → x % 2 = 0) :
    roundTrip t (.scalar none (.int k x)) = .ok (.scalar none (.int k x)) := by
  have h := fromFloatInt_ofInt k x hx hrep hodd
  cases t <;> simp [intKindOf] at hk <;> subst hk <;>
    simp [roundTrip, Ty.toFloat, toFloatInt, Ty.fromFloat, h]

/-- a large value that needs rounding in the addition but survives -/
example : IntKind.int64.InRange (2 ^ 62 + 2 ^ 10) ∧
    rnd b64 ((2 ^ 62 + 2 ^ 10 : ℤ) : ℚ) = .fin ((2 ^ 62 + 2 ^ 10 : ℤ) : ℚ) := by decide +kernel

/-- **C47 (integers up to 32 bits)** Every value of every integer type of at most 32 bits survives
the round trip. -/
theorem C47_small_int_roundtrip (t : Ty) (k : IntKind) (hk : intKindOf t = some k)
    (hb : k.bits ≤ 32) (x : ℤ) (hx : k.InRange x) :
    roundTrip t (.scalar none (.int k x)) = .ok (.scalar none (.int k x)) := by
  obtain ⟨h1, h2⟩ := small_int k x hx hb
  exact C47_int_roundtrip_partial t k hk x hx h1 h2

/-- **C47 is false for odd integers between `2^52` and `2^53`**: `round` adds one half in float64,
which ties to the next even number. -/
theorem C47_odd_integers_move :
    rnd b64 ((4503599627370497 : ℤ) : ℚ) = .fin ((4503599627370497 : ℤ) : ℚ) ∧
    roundTrip .int64 (.scalar none (.int .int64 4503599627370497)) =
      .ok (.scalar none (.int .int64 4503599627370498)) := by
  constructor <;> decide +kernel

/-- **C47 (floats)** `float64` and `float32` values, including infinities, NaN and the negative
zero, survive the round trip. -/
theorem C47_float_roundtrip (x : Fl) :
    roundTrip .float64 (.scalar none (.float64 x)) = .ok (.scalar none (.float64 x)) ∧
    (x.Rep b32 → roundTrip .float32 (.scalar none (.float32 x)) = .ok (.scalar none (.float32 x))) := by
  refine ⟨rfl, ?_⟩
  intro hr
  simp only [roundTrip, Ty.toFloat, Ty.fromFloat, Conv.ok.injEq, Val.scalar.injEq, Base.float32.injEq,
    true_and]
  cases x with
  | nan => rfl
  | inf n => rfl
  | negZero => rfl
  | fin q =>
    have h32 : rnd b32 q = .fin q := hr
    simp only [Fl.conv]
    rw [rep32_rep64 q h32]
    exact h32

example : (Fl.fin (13421773 / 134217728)).Rep b32 := by decide +kernel

/-- **C47 (durations, partial)** A non-negative duration below `2^50` nanoseconds (13 days)
survives exactly.  A negative one always comes back one nanosecond too high, because `FromFloat`
adds one half before truncating toward zero. -/
theorem C47_duration_roundtrip_partial (d : ℤ) (h : |d| < 2 ^ 50) :
    roundTrip .goDuration (.scalar none (.duration d)) =
      .ok (.scalar none (.duration (if d < 0 then d + 1 else d))) := by
  simp only [roundTrip, Ty.toFloat, Ty.fromFloat]
  rw [dur_roundtrip d h]

example : |(-86400000000001 : ℤ)| < 2 ^ 50 := by decide

/-- **C47 (durations, all)** Up to 146 years the result is within 2 ns plus a relative `2^-50`. -/
theorem C47_duration_close (d : ℤ) (h : |d| ≤ 2 ^ 62) :
    ∃ r, roundTrip .goDuration (.scalar none (.duration d)) = .ok (.scalar none (.duration r)) ∧
      |(r : ℚ) - d| ≤ 2 + |(d : ℚ)| / 2 ^ 50 := by
  obtain ⟨r, h1, h2⟩ := dur_close d h
  refine ⟨r, ?_, h2⟩
  simp only [roundTrip, Ty.toFloat, Ty.fromFloat]
  rw [h1]

/-- **C47 (times, partial)** A time within 142 million years of 1970 comes back as a valid time
whose distance is at most 3 ns plus `2^-53` of its distance from the epoch (the precision of a
float64). -/
theorem C47_time_roundtrip_partial (t : Time) (hv : t.Valid) (ht : |t.sec| ≤ 2 ^ 52) :
    ∃ r, roundTrip .goTime (.scalar none (.time t)) = .ok (.scalar none (.time r)) ∧ r.Valid ∧
      |(instantNs r : ℚ) - instantNs t| ≤ 3 + |(instantNs t : ℚ)| / 2 ^ 53 := by
  obtain ⟨v, h1, h2⟩ := timeToFloat_close t hv ht
  have hs : |t.sec| ≤ 4503599627370496 := by simpa using ht
  have hI : |(instantNs t : ℚ) / 1000000000| = |(instantNs t : ℚ)| / 1000000000 := by
    rw [abs_div]; norm_num
  rw [hI] at h2
  have hIb : |(instantNs t : ℚ)| ≤ 4503599627370497000000000 := by
    have : |instantNs t| ≤ 4503599627370497000000000 := by
      unfold instantNs; unfold Time.Valid at hv; rw [abs_le] at *; omega
    exact_mod_cast this
  have ha := abs_sub_abs_le_abs_sub v ((instantNs t : ℚ) / 1000000000)
  rw [hI] at ha
  obtain ⟨r, h3, h4, h5⟩ := floatToTime_close h1 (by linarith)
  refine ⟨r, ?_, h4, ?_⟩
  · simp only [roundTrip, Ty.toFloat, Ty.fromFloat]
    rw [h3]
  · have e53 : (2 : ℚ) ^ 53 = 9007199254740992 := by norm_num
    rw [e53]
    rw [abs_le] at h2 h5 ⊢
    constructor <;> linarith

example : (⟨1500000000, 123456789⟩ : Time).Valid ∧ |(1500000000 : ℤ)| ≤ 2 ^ 52 := by decide

/-- Times are not preserved to the nanosecond: one nanosecond is lost in 2017. -/
theorem C47_time_inexact :
    roundTrip .goTime (.scalar none (.time ⟨1500000000, 1⟩)) =
      .ok (.scalar none (.time ⟨1500000000, 0⟩)) := by decide +kernel

/-- **C47 (domain)** `CanToFromFloat` tells exactly for which types both functions do not panic;
`ToFloat` panics on every value whose Go type is not the named one. -/
theorem C47_domain (t : Ty) :
    (t.canToFromFloat = false → (∀ v, t.toFloat v = .panic) ∧ ∀ f, t.fromFloat f = .panic) ∧
    (t.canToFromFloat = true → (∀ f, t.fromFloat f ≠ .panic) ∧
      ∀ v, fromGoValue v = t ↔ t.toFloat v ≠ .panic) := by
  constructor
  · intro h
    cases t <;> simp [Ty.canToFromFloat] at h <;> exact ⟨fun _ => rfl, fun _ => rfl⟩
  · intro h
    constructor
    · intro f
      have hi : ∀ k, fromFloatInt k f ≠ .panic := by
        intro k; unfold fromFloatInt; split <;> simp
      cases t <;> simp [Ty.canToFromFloat] at h <;> simp only [Ty.fromFloat] <;>
        first
          | exact hi _
          | (intro hc; cases hc; done)
          | (split <;> (intro hc; cases hc))
    · intro v
      rcases v with _ | ⟨_ | n, b⟩ | d | ⟨_ | n, ⟨_ | m, e⟩, es⟩ | _
      case scalar.none =>
        cases t <;> simp [Ty.canToFromFloat] at h <;>
          rcases b with _ | ⟨k, _⟩ | _ | _ | _ | _ | _ <;> (try cases k) <;>
          simp [fromGoValue, fromGoValueWithSubType, scalarKind, Base.ty, Ty.toFloat, toFloatInt]
      case slice.none.none =>
        cases t <;> simp [Ty.canToFromFloat] at h <;>
          rcases e with _ | ⟨k⟩ | _ | _ | _ | _ | _ <;> (try cases k) <;>
          simp [fromGoValue, fromGoValueWithSubType, scalarKind, Ty.toFloat, toFloatInt]
      all_goals
        cases t <;> simp [Ty.canToFromFloat] at h <;>
          simp [fromGoValue, fromGoValueWithSubType, Ty.toFloat, toFloatInt]

/-! ## C57 -/

/-- **C57 (zero values)** `SafeZeroValue t` exists exactly for the scalar kinds; it is a valid
value whose kind is `t` (a string for the JSON kinds `time` and `duration`) and no sub-type, and it
is the zero value of its Go type (or the text of a zero duration). -/
theorem C57_zero_value (t : Ty) :
    (safeZeroValue t = none ↔ ¬ HasZero t) ∧
    ∀ v, safeZeroValue t = some v → fromGoValueWithSubType v = (goKind t, .unknown) ∧
      ∃ b, v = .scalar none b ∧
        (t ≠ .time → t ≠ .duration → IsZero b) ∧
        (t = .time ∨ t = .duration → b = .string ((Dur.mk 0 0).toString)) := by
  constructor
  · cases t <;> simp [safeZeroValue, HasZero]
  · intro v hv
    cases t <;> simp [safeZeroValue] at hv <;> subst hv <;>
      refine ⟨by decide, _, rfl, ?_, ?_⟩ <;> simp [IsZero] <;> decide

/-- the JSON zero values are the JSON form of the Go zero values -/
theorem C57_json_zero (u : MUnit) :
    asJson (.scalar none (.time Time.zero)) .goTime .unknown u =
      (safeZeroValue .time).map (·, .time, .unknown) ∧
    asJson (.scalar none (.duration 0)) .goDuration .unknown u =
      (safeZeroValue .duration).map (·, .duration, .unknown) := by
  cases u <;> constructor <;> first | decide | rfl

/-- **C57 (nil slices)** `SafeNilSlice t` exists exactly for the scalar kinds; it is a nil slice
whose kind is list and whose sub-type is `t` (string for JSON times and durations). -/
theorem C57_nil_slice (t : Ty) :
    (safeNilSlice t = none ↔ ¬ HasZero t) ∧
    ∀ v, safeNilSlice t = some v → fromGoValueWithSubType v = (.list, goKind t) ∧
      ∃ e, v = .slice none e none := by
  constructor
  · cases t <;> simp [safeNilSlice, HasZero]
  · intro v hv
    cases t <;> simp [safeNilSlice] at hv <;> subst hv <;> exact ⟨by decide, _, rfl⟩

/-- **C57 (`messages.ZeroValue`)** additionally knows distributions: the nil pointer, of kind dist -/
theorem C57_message_zero (t : Ty) :
    (zeroValueMsg t = none ↔ ¬ (HasZero t ∨ t = .dist)) ∧
    ∀ v, zeroValueMsg t = some v → fromGoValueWithSubType v = (goKind t, .unknown) := by
  constructor
  · cases t <;> simp [zeroValueMsg, safeZeroValue, HasZero]
  · intro v hv
    cases t <;> simp [zeroValueMsg, safeZeroValue] at hv <;> subst hv <;> decide

example : HasZero .goTime ∧ ¬ HasZero .list ∧ ¬ HasZero (.other (lit "int")) := by
  simp [HasZero]

/-! ## C60 -/

/-- **C60** What the predicates on types say about a Go value whose type is known (`FromGoValueWithSubType`):
`IsInt`, `IsUint` and `IsFloat` hold exactly for signed and unsigned integers and floating point numbers, `Bits` is
their size and zero for all others, `UsesSubType` holds exactly for slices, which are the values with a sub-type, and
`SupportsEquality` exactly for scalars, the values that can be compared with `==` by value. -/
theorem C60_predicates (v : Val) (k st : Ty) (h : fromGoValueWithSubType v = (k, st)) (hk : k ≠ .unknown) :
    (k.isInt = true ↔ ∃ i x, v = .scalar none (.int i x) ∧ i.signed = true) ∧
    (k.isUint = true ↔ ∃ i x, v = .scalar none (.int i x) ∧ i.signed = false) ∧
    (k.isFloat = true ↔ ∃ x, v = .scalar none (.float32 x) ∨ v = .scalar none (.float64 x)) ∧
    (∀ i x, v = .scalar none (.int i x) → k.bits = i.bits) ∧
    (∀ x, v = .scalar none (.float32 x) → k.bits = 32) ∧
    (∀ x, v = .scalar none (.float64 x) → k.bits = 64) ∧
    (k.isInt = false → k.isUint = false → k.isFloat = false → k.bits = 0) ∧
    (k.usesSubType = true ↔ ∃ n e es, v = .slice n e es) ∧ (k.usesSubType = true ↔ st ≠ .unknown) ∧
    (k.supportsEquality = true ↔ ∃ b, v = .scalar none b) := by
  cases v with
  | nil => cases h; exact absurd rfl hk
  | other i => cases h; exact absurd rfl hk
  | dist d => cases h; simp [Ty.isInt, Ty.isUint, Ty.isFloat, Ty.bits, Ty.usesSubType, Ty.supportsEquality]
  | scalar n b =>
    cases n with
    | some n => cases h; exact absurd rfl hk
    | none =>
      cases b with
      | int i x =>
        cases i <;> simp [fromGoValueWithSubType, Base.ty, scalarKind] at h <;> obtain ⟨rfl, rfl⟩ := h <;>
          simp_all [Ty.isInt, Ty.isUint, Ty.isFloat, Ty.bits, Ty.usesSubType, Ty.supportsEquality, IntKind.signed,
            IntKind.bits] <;> (intro a b h; subst h; simp [IntKind.signed, IntKind.bits])
      | _ =>
        simp [fromGoValueWithSubType, Base.ty, scalarKind] at h
        obtain ⟨rfl, rfl⟩ := h
        simp [Ty.isInt, Ty.isUint, Ty.isFloat, Ty.bits, Ty.usesSubType, Ty.supportsEquality]
  | slice n e es =>
    obtain ⟨en, b⟩ := e
    cases n with
    | some n => cases h; exact absurd rfl hk
    | none =>
      cases en with
      | some en => cases h; exact absurd rfl hk
      | none =>
        cases hb : scalarKind b with
        | none => simp [fromGoValueWithSubType, hb] at h; exact absurd h.1.symm hk
        | some k' =>
          simp [fromGoValueWithSubType, hb] at h
          obtain ⟨rfl, rfl⟩ := h
          have : k' ≠ .unknown := by
            rintro rfl
            cases b <;> first | cases hb | (rename_i i; cases i <;> cases hb)
          simp [Ty.isInt, Ty.isUint, Ty.isFloat, Ty.bits, Ty.usesSubType, Ty.supportsEquality, this]

example : fromGoValueWithSubType (.scalar none (.int .uint16 7)) = (.uint16, .unknown) ∧
    fromGoValueWithSubType (.slice none ⟨none, .float32⟩ none) = (.list, .float32) := by decide

/-- **C60 (unknown)** An unknown type is none of these. -/
theorem C60_unknown : Ty.unknown.isInt = false ∧ Ty.unknown.isUint = false ∧ Ty.unknown.isFloat = false ∧
    Ty.unknown.bits = 0 ∧ Ty.unknown.usesSubType = false ∧ Ty.unknown.supportsEquality = false := by decide

end Tricorder
