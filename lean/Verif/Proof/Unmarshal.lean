import Verif.Model.Unmarshal
import Verif.Spec.Unmarshal
import Verif.Proof.JsonText
import Verif.Proof.Client
/-!
# What a client reads from the bytes of a JSON answer: proofs
-/

namespace Tricorder
open Go Spec _root_.Spec

variable {f : JsonFmt} {gen : JVal → ℕ}

theorem runes_goString {s : Str} (h : Utf8Text s) : goString (runesOf s.length s) = s := by
  obtain ⟨cs, h1, rfl⟩ := h
  have := (quote_chars ⟨fun _ _ => [], false⟩ (cs.flatMap utf8)).2
  rw [this.unique (runes_utf8 h1)]
  rfl

theorem ascii_utf8 {s : Str} (h : Ascii s) : Utf8Text s := utf8Text_ascii fun b hb => by
  have := h b hb
  rw [u8lt] at this
  exact this

theorem goString_ascii {k : Str} {cs : List ℕ} (h : Runes k cs) {key : Str} (hk : Ascii key) (e : goString cs = key) : k = key := by
  unfold goString at e
  induction h generalizing key with
  | nil => exact e
  | @rune c s cs h1 h2 ih =>
    rw [List.flatMap_cons] at e
    have := ih (key := cs.flatMap utf8) (fun b hb => hk b (by rw [← e]; simp only [List.mem_append]; exact .inr hb)) rfl
    rw [this, e]
  | bad h1 h2 ih =>
    rw [List.flatMap_cons] at e
    have : (239 : UInt8) ∈ key := by rw [← e]; exact List.mem_append_left _ (by decide)
    exact absurd (hk _ this) (by decide)

theorem key_iff (k : Str) {key : Str} (hk : Ascii key) : goString (runesOf k.length k) = key ↔ k = key := by
  refine ⟨goString_ascii (quote_chars ⟨fun _ _ => [], false⟩ k).2 hk, ?_⟩
  rintro rfl
  exact runes_goString (ascii_utf8 hk)

/-- the decoder of documents that does what the decoder of texts does -/
noncomputable def inpOf (f : JsonFmt) (gen : JVal → ℕ) : JsonIn :=
  ⟨fun s => goString (runesOf s.length s), fun l => base64 (l.map Int.toNat), fun x => rnd b64 x,
    fun small x => rnd b64 (numOf f small x), fun j => gen (valueOf f j)⟩

theorem inpOf_ascii : KeepsAscii (inpOf f gen) := fun _ h => runes_goString (ascii_utf8 h)

theorem goString_base64 (l : List ℕ) : goString ((base64 l).map UInt8.toNat) = base64 l := by
  have h := base64_safe l
  generalize base64 l = t at h
  unfold goString
  induction t with
  | nil => rfl
  | cons b t ih =>
    rw [List.map_cons, List.flatMap_cons, utf8_byte (h b (by simp)).2, ih fun x hx => h x (by simp [hx])]
    rfl

theorem value_agree (j : Json) : valueJ gen (valueOf f j) = (inpOf f gen).value j := by
  cases j with
  | bytes l =>
    show Val.scalar none (.string (goString ((base64 (l.map Int.toNat)).map UInt8.toNat))) = _
    rw [goString_base64]; rfl
  | _ => rfl

theorem stamp_agree (j : Json) : stampJ (valueOf f j) = (inpOf f gen).stamp j := by
  cases j with
  | bytes l =>
    show TS.str (goString ((base64 (l.map Int.toNat)).map UInt8.toNat)) = _
    rw [goString_base64]; rfl
  | _ => rfl

theorem text_agree (o : Option Json) : textJ (o.map (valueOf f)) = (inpOf f gen).text o := by
  rcases o with _ | j
  · rfl
  cases j with
  | bytes l =>
    show some (goString ((base64 (l.map Int.toNat)).map UInt8.toNat)) = _
    rw [goString_base64]; rfl
  | _ => rfl

theorem nat_agree {o : Option Json} {n : ℕ} (h : jsonNat o = some n) : natJ (o.map (valueOf f)) = some n := by
  rcases o with _ | j
  · exact h
  cases j with
  | null => exact h
  | int x =>
    simp only [jsonNat] at h
    split at h
    · rename_i hx
      show (if (x : ℚ).den = 1 ∧ 0 ≤ (x : ℚ).num then some (x : ℚ).num.toNat else none) = _
      rw [if_pos ⟨Rat.den_intCast x, by rw [Rat.num_intCast]; exact hx⟩, Rat.num_intCast]
      exact h
    · cases h
  | _ => cases h

theorem field_agree {key : Str} (hk : Ascii key) (fs : List (Str × Json)) :
    fieldJ key (fieldsOf f fs) = (field key fs).map (valueOf f) := by
  have h1 : fieldsOf f fs = fs.map fun x => (runesOf x.1.length x.1, valueOf f x.2) := by
    induction fs with
    | nil => rfl
    | cons x fs ih => obtain ⟨k, j⟩ := x; rw [fieldsOf, ih]; rfl
  unfold fieldJ field
  rw [h1, List.filter_map]
  have h2 : ((fun f : List ℕ × JVal => decide (goString f.1 = key)) ∘ fun x : Str × Json => (runesOf x.1.length x.1, valueOf f x.2)) =
      fun x => decide (x.1 = key) := by
    funext x
    simp only [Function.comp_apply]
    exact decide_eq_decide.mpr (key_iff x.1 hk)
  rw [h2, List.getLast?_map]
  simp [Option.map_map, Function.comp_def]

/-- decoding the value of a document gives the same as decoding the document -/
theorem metric_agree {j : Json} {m : Metric} (h : (inpOf f gen).metric j = some m) : metricJ gen (valueOf f j) = some m := by
  cases j with
  | obj fs =>
    simp only [JsonIn.metric] at h
    split at h
    · rename_i path desc unit kind subType bits groupId e1 e2 e3 e4 e5 e6 e7
      show metricJ gen (.obj (fieldsOf f fs)) = _
      simp only [metricJ]
      rw [field_agree (by unfold Ascii; decide +kernel), field_agree (by unfold Ascii; decide +kernel), field_agree (by unfold Ascii; decide +kernel),
        field_agree (by unfold Ascii; decide +kernel), field_agree (by unfold Ascii; decide +kernel), field_agree (by unfold Ascii; decide +kernel),
        field_agree (by unfold Ascii; decide +kernel), field_agree (by unfold Ascii; decide +kernel), field_agree (by unfold Ascii; decide +kernel),
        text_agree (gen := gen), text_agree (gen := gen), text_agree (gen := gen), text_agree (gen := gen), text_agree (gen := gen),
        nat_agree e6, nat_agree e7, e1, e2, e3, e4, e5]
      rw [← h]
      simp only [Option.map_map, Function.comp_def, value_agree, stamp_agree (gen := gen)]
    · cases h
  | _ => cases h

theorem list_agree {l : List Json} {ms : List Metric} (h : mapAll (inpOf f gen).metric l = some ms) :
    mapAll (metricJ gen) (valuesOf f l) = some ms := by
  induction l generalizing ms with
  | nil => exact h
  | cons j l ih =>
    rw [mapAll] at h
    rw [valuesOf, mapAll]
    cases e1 : (inpOf f gen).metric j with
    | none => simp [e1] at h
    | some m =>
      cases e2 : mapAll (inpOf f gen).metric l with
      | none => simp [e1, e2] at h
      | some ms' =>
        rw [metric_agree e1, ih e2]
        rw [e1, e2] at h
        exact h

theorem ofFormat64 {x : Fl} (hv : x.Rep b64) (hf : IsFinite x) : OfFormat false x := by
  cases x with
  | nan => exact absurd rfl hf.1
  | inf n => exact absurd rfl (hf.2 n)
  | negZero => exact .inl rfl
  | fin q => exact .inr ⟨q, rfl, hv⟩

theorem ofFormat32 {x : Fl} (hv : x.Rep b32) (hf : IsFinite x) : OfFormat true x := by
  cases x with
  | nan => exact absurd rfl hf.1
  | inf n => exact absurd rfl (hf.2 n)
  | negZero => exact .inl rfl
  | fin q => exact .inr ⟨q, rfl, hv⟩

theorem uint8_elem {e : ScalarTy} {es : Option (List Base)} (h : ElemsOk e es) {x : ℤ}
    (hx : Base.int .uint8 x ∈ es.getD []) : 0 ≤ x ∧ x < 256 := by
  have h1 : 0 ≤ x ∧ x < 2 ^ 8 := (h _ hx).2
  omega

theorem received (hf : NumText f) {y : Metric} {v : Val} (hw : WellTyped y) (hfin : FiniteMetric y)
    (hv : ClientValue (inpOf f gen) y v) : Received gen y v := by
  obtain ⟨path, desc, unit, kind, subType, bits, value, ts, gid⟩ := y
  have hw := hw.2
  cases value with
  | scalar n b =>
    cases b with
    | bool b => exact hv
    | int k x => exact ⟨_, hv, fun hx => rnd_int _ hx⟩
    | float32 x => exact ⟨_, (numOf_spec hf true x).2 (ofFormat32 hw.1 hfin), hv⟩
    | float64 x =>
      replace hv : v = .scalar none (.float64 (rnd b64 (numOf f false x))) := hv
      rcases (numOf_spec hf false x).2 (ofFormat64 hw.1 hfin) with h1 | ⟨h1, h2⟩
      · exact .inl (hv.trans (by rw [show rnd b64 (numOf f false x) = x from h1]))
      · refine .inr ⟨h1, hv.trans ?_⟩
        rw [h2, show rnd b64 0 = .fin 0 by decide +kernel]
    | string t => exact fun hu => Eq.trans hv (by rw [show (inpOf f gen).str t = t from runes_goString hu])
    | time t => exact hv
    | duration d =>
      cases n with
      | none => exact hv
      | some n => exact ⟨_, hv, fun hx => rnd_int _ hx⟩
  | slice n e es =>
    unfold ClientValue at hv
    unfold Received
    simp only at hv ⊢
    split
    · rename_i he
      rw [if_pos he] at hv
      obtain ⟨l, l1, l2⟩ := hv
      refine ⟨l, _, l2, base64_spec _ ?_, l1⟩
      intro x hx
      obtain ⟨z, z1, rfl⟩ := List.mem_map.mp hx
      have := uint8_elem hw.2.2 (x := z) (by rw [l2]; exact List.mem_map.mpr ⟨z, z1, rfl⟩)
      omega
    · rename_i he
      rw [if_neg he] at hv
      obtain ⟨parts, p1, p2⟩ := hv
      refine ⟨.arr parts, _, ?_, (pretty_means f hf (.arr parts) 0).2, p1⟩
      unfold JsonValue
      simp only
      rw [if_neg he]
      exact ⟨parts, rfl, p2⟩
  | dist d =>
    cases d with
    | none => exact hv.elim
    | some d =>
      obtain ⟨j, j1, j2⟩ := hv
      exact ⟨j, _, j1, (pretty_means f hf j 0).2, j2⟩
  | _ => exact False.elim hv

/-- what the client has is the metric -/
theorem recovered (hf : NumText f) {y r : Metric} (hw : WellTyped y) (hfin : FiniteMetric y) (h : ClientOf (inpOf f gen) y r) :
    Recovered gen y r where
  path hu := h.path.trans (runes_goString hu)
  description hu := h.description.trans (runes_goString hu)
  unit := h.unit
  kind := h.kind
  subType := h.subType
  bits := h.bits
  timeStamp := h.timeStamp
  groupId := h.groupId
  value := received hf hw hfin h.value

end Tricorder
