import Verif.Proof.JsonText
import Verif.Proof.FloatErr
import Verif.Props.Http
/-!
# C94: the text of JSON answers

`Verif/Spec/JsonText.lean` says what a JSON text is and which value it has (RFC 8259), and which value stands for a document.
The only assumption about the library is how it writes floating point numbers (`NumLaw`).
-/

namespace Tricorder
open Go Spec Tree _root_.Spec

variable {w : World} {s s' : State} {W : Type}

/-- **C94** The text of a document is a JSON text, and its value is that of the document. -/
theorem C94_text {f : JsonFmt} (hf : NumLaw f.num) (j : Json) : ∃ v, JsonText (jsonText f j) v ∧ Means j v := by
  obtain ⟨h1, h2⟩ := pretty_means f (numText hf) j 0
  have w0 : White [] := by simp [White]
  refine ⟨_, ⟨[], pretty f 0 j, [], ?_, w0, w0, h1⟩, h2⟩
  rw [jsonText_pretty f (numText hf) j]
  simp

/-- **C94 (no other reading)** A text has at most one value. -/
theorem C94_unique {t : Str} {v v' : JVal} (h : JsonText t v) (h' : JsonText t v') : v = v' := h.unique h'

/-- **C94 (any reader)** Whoever reads the text by the grammar finds the value of the document. -/
theorem C94_read {f : JsonFmt} (hf : NumLaw f.num) {j : Json} {v : JVal} (h : JsonText (jsonText f j) v) : Means j v := by
  obtain ⟨v', h1, h2⟩ := C94_text hf j
  rwa [h.unique h1]

/-- **C94 (strings)** A string in UTF-8 arrives as it is. -/
theorem C94_string {f : JsonFmt} (hf : NumLaw f.num) {cs : List ℕ} (hc : ∀ c ∈ cs, ScalarValue c) (v : JVal) :
    JsonText (jsonText f (.str (cs.flatMap utf8))) v ↔ v = .str cs := by
  have key : ∀ v, JsonText (jsonText f (.str (cs.flatMap utf8))) v → v = .str cs := by
    intro v h
    have := C94_read hf h
    rw [Means] at this
    obtain ⟨cs', rfl, h2⟩ := this
    rw [h2.unique (runes_utf8 hc)]
  refine ⟨key v, ?_⟩
  rintro rfl
  obtain ⟨v, h1, -⟩ := C94_text hf (.str (cs.flatMap utf8))
  rwa [key v h1] at h1

/-- **C94 (bytes)** The text is UTF-8, without `<`, `>` and `&`, and without control characters other than tab and newline. -/
theorem C94_bytes {f : JsonFmt} (hf : NumLaw f.num) (j : Json) : Utf8Text (jsonText f j) ∧ Harmless (jsonText f j) := by
  constructor
  · obtain ⟨v, h, -⟩ := C94_text hf j
    exact h.utf8
  · rw [jsonText_pretty f (numText hf) j]
    exact harmless_pretty f (numText hf) j 0

/-- `lib` writes texts like `encoding/json` -/
def JsonLib.Writes (lib : JsonLib) (f : JsonFmt) : Prop := lib.text = jsonText f ∧ NumLaw f.num

/-- **C94 (listings)** The answer to a JSON request without `singleton`, with steps of everybody else in between, see `C66_list`:
what is sent is a JSON text, and its only value is the array of the objects of the metrics. -/
theorem C94_list (hs : Reachable w s) {lib : JsonLib} {f : JsonFmt} (hl : lib.Writes f) {wr : Writer W} {fuel : ℕ} {req : Req} {x : W}
    {h : List Ev} {v : Resp W} {st : Status} (hr : RunI w (jsonHandler lib (plainResp wr) fuel req ⟨[], none, x⟩) s h s' (v, st))
    (hq : req.form (lit "singleton") = []) (hf : s'.tree.entries.length < fuel) :
    (st = .panic ∧ v.sent = none ∧ v.out = x) ∨
    ∃ rs, RunI w (listMetrics false fuel req.path) s h s' (rs, .ok) ∧ st = .ok ∧
      ((∀ r ∈ rs, WellTyped r) → (∀ r ∈ rs, FiniteMetric r) →
        ∃ body, Sent wr x v 200 jsonHdr body ∧ Utf8Text body ∧ Harmless body ∧
          ∃ docs vs, List.Forall₂ JsonOf rs docs ∧ List.Forall₂ Means docs vs ∧ ∀ u, JsonText body u ↔ u = .arr vs) := by
  rcases C66_list hs hr hq hf with h1 | ⟨rs, h1, h2, h3⟩
  · exact .inl h1
  · refine .inr ⟨rs, h1, h2, fun hw hfin => ?_⟩
    obtain ⟨docs, d1, d2⟩ := (h3 hw).1 hfin
    rw [hl.1] at d2
    obtain ⟨b1, b2⟩ := C94_bytes hl.2 (.arr docs)
    obtain ⟨u, t1, t2⟩ := C94_text hl.2 (.arr docs)
    rw [Means] at t2
    obtain ⟨vs, rfl, t2⟩ := t2
    refine ⟨_, d2, b1, b2, docs, vs, d1, ?_, fun u => ⟨fun hu => hu.unique t1, fun hu => hu ▸ t1⟩⟩
    clear d1 d2 b1 b2 t1
    induction docs generalizing vs with
    | nil => rw [MeanAll] at t2; rw [t2]; exact .nil
    | cons d docs ih =>
      rw [MeanAll] at t2
      obtain ⟨u, us, rfl, k1, k2⟩ := t2
      exact .cons k1 (ih us k2)

/-- **C94 (one metric)** The answer to a JSON request with `singleton`, see `C66_get`: if there is the metric and it can be
encoded, what is sent is a JSON text, and its only value is the object of the metric. -/
theorem C94_get (hs : Reachable w s) {lib : JsonLib} {f : JsonFmt} (hl : lib.Writes f) {wr : Writer W} {fuel : ℕ} {req : Req} {x : W}
    {h : List Ev} {v : Resp W} {st : Status} (hr : RunI w (jsonHandler lib (plainResp wr) fuel req ⟨[], none, x⟩) s h s' (v, st))
    (hq : req.form (lit "singleton") ≠ []) :
    ∃ r, RunI w (getMetricMsg false req.path) s h s' r ∧ ∀ y, r = some (.ok y) → ¬ NamedTimes y → st = .ok ∧
      (WellTyped y → FiniteMetric y → ∃ body, Sent wr x v 200 jsonHdr body ∧ Utf8Text body ∧ Harmless body ∧
        ∃ doc u, JsonOf y doc ∧ Means doc u ∧ ∀ u', JsonText body u' ↔ u' = u) := by
  obtain ⟨r, h1, h2⟩ := C66_get hs hr hq
  refine ⟨r, h1, ?_⟩
  rintro y rfl hn
  obtain ⟨k1, k2⟩ := h2.2 hn
  refine ⟨k1, fun hw hfin => ?_⟩
  obtain ⟨doc, d1, d2⟩ := (k2 hw).1 hfin
  rw [hl.1] at d2
  obtain ⟨b1, b2⟩ := C94_bytes hl.2 doc
  obtain ⟨u, t1, t2⟩ := C94_text hl.2 doc
  exact ⟨_, d2, b1, b2, doc, u, d1, t2, fun u' => ⟨fun hu => hu.unique t1, fun hu => hu ▸ t1⟩⟩

/-! ### the hypotheses can be met -/

/-- floating point numbers need at most so many decimals -/
def maxPlaces : ℕ := 1074

/-- how many decimals a number needs, if that is at most 1074 -/
def places (q : ℚ) : Option ℕ := (List.range (maxPlaces + 1)).find? fun k => decide ((q * 10 ^ k).den = 1)

theorem places_some {q : ℚ} {k : ℕ} (h : places q = some k) : ((⌊q * 10 ^ k⌋ : ℤ) : ℚ) = q * 10 ^ k := by
  have hk := List.find?_some h
  simp only [decide_eq_true_eq] at hk
  have : (((q * 10 ^ k).num : ℤ) : ℚ) = q * 10 ^ k := Rat.coe_int_num_of_den_eq_one hk
  rw [← this]; simp

theorem places_none {q : ℚ} (h : places q = none) : (q * 10 ^ maxPlaces).den ≠ 1 := by
  have := List.find?_eq_none.mp h maxPlaces (by rw [List.mem_range]; omega)
  simpa only [decide_eq_true_eq] using this

/-- a way to write floating point numbers: their decimals, all of them, as an integer with an exponent -/
def exactNum (_ : Bool) : Fl → Str
  | .fin q =>
    match places q with
    | some k => if k = 0 then fmtInt ⌊q⌋ else fmtInt ⌊q * 10 ^ k⌋ ++ (lit "e-" ++ fmtNat k)
    | none => [48]
  | _ => [48]

theorem p2_nat_mul {e : ℤ} {K : ℕ} (h : -(K : ℤ) ≤ e) : ∃ m : ℤ, p2 e * 10 ^ K = m := by
  cases e with
  | ofNat n => exact ⟨2 ^ n * 10 ^ K, by simp [p2]⟩
  | negSucc n =>
    have hn : n + 1 ≤ K := by omega
    obtain ⟨k, hk⟩ : ∃ k, K = (n + 1) + k := ⟨K - (n + 1), by omega⟩
    refine ⟨5 ^ (n + 1) * 10 ^ k, ?_⟩
    rw [hk, pow_add, show (10 : ℚ) ^ (n + 1) = 2 ^ (n + 1) * 5 ^ (n + 1) by rw [← mul_pow]; norm_num]
    simp only [p2]
    push_cast
    field_simp

theorem rep_decimal {fmt : Fmt} {K : ℕ} (hm : -(K : ℤ) ≤ fmt.emin) {q : ℚ} (h : rnd fmt q = .fin q) : ∃ m : ℤ, q * 10 ^ K = m := by
  by_cases h0 : q = 0
  · exact ⟨0, by rw [h0]; simp⟩
  unfold rnd at h
  rw [if_neg h0] at h
  simp only at h
  have key : ∃ m : ℤ, fmt.rndAbs |q| * 10 ^ K = m := by
    obtain ⟨m, hm⟩ := p2_nat_mul (e := fmt.ulpExp |q|) (le_trans hm (le_max_right _ _))
    exact ⟨rne (|q| / p2 (fmt.ulpExp |q|)) * m, by unfold Fmt.rndAbs; rw [mul_assoc, hm]; push_cast; rfl⟩
  obtain ⟨m, hm⟩ := key
  split at h
  · cases h
  split at h
  · split at h
    · cases h
    · simp only [Fl.fin.injEq] at h; exact absurd h.symm h0
  · simp only [Fl.fin.injEq] at h
    split at h
    · exact ⟨-m, by push_cast; rw [← hm, ← neg_mul, h]⟩
    · exact ⟨m, by rw [← hm, h]⟩

theorem number_exp {x : ℤ} {k : ℕ} : Number (fmtInt x ++ (lit "e-" ++ fmtNat k)) (x / 10 ^ k) := by
  obtain ⟨ws, h1, h2, h3, h4⟩ := fmtInt_spec x
  obtain ⟨ks, k1, k2, k3, k4⟩ := fmtInt_spec k
  have k5 : fmtNat k = ks := by
    have : fmtInt k = fmtNat k := by unfold fmtInt; simp
    rw [← this, k4]; simp
  have hne : ks ≠ [] := by rintro rfl; rcases k2 with h | ⟨_, _, h, _⟩ <;> cases h
  refine ⟨if x < 0 then [45] else [], ws, [], lit "e-" ++ ks, 0, -numVal ks, by rw [h4, k5]; simp, h1, h2, .inl ⟨rfl, rfl⟩,
    .inr ⟨101, [45], ks, rfl, .inl rfl, hne, k1, .inr ⟨rfl, rfl⟩⟩, ?_⟩
  rw [← k3, Int.natAbs_natCast]
  have h5 : (x : ℚ) = if x < 0 then -(numVal ws : ℚ) else numVal ws := by
    rw [← h3]
    split
    · rw [show (x.natAbs : ℚ) = ((x.natAbs : ℤ) : ℚ) by simp, Int.ofNat_natAbs_of_nonpos (by omega)]; simp
    · rw [show (x.natAbs : ℚ) = ((x.natAbs : ℤ) : ℚ) by simp, Int.natAbs_of_nonneg (by omega)]
  rw [h5, zpow_neg, zpow_natCast]
  split
  · exact .inr ⟨rfl, by field_simp; simp⟩
  · exact .inl ⟨rfl, by field_simp; simp⟩

theorem exactNum_fin (small : Bool) (q : ℚ) :
    ∃ q', Number (exactNum small (.fin q)) q' ∧ (OfFormat small (.fin q) → ReadsAs small q' (.fin q)) := by
  have rd : OfFormat small (.fin q) → ReadsAs small q (.fin q) := by
    rintro (h | ⟨q', h, h'⟩)
    · cases h
    · cases h; exact .inl h'
  unfold exactNum
  dsimp only
  cases hk : places q with
  | some k =>
    dsimp only
    by_cases h0 : k = 0
    · subst h0
      have := places_some hk
      rw [pow_zero, mul_one] at this
      exact ⟨_, number_int ⌊q⌋, fun h => this.symm ▸ rd h⟩
    · have hq : ((⌊q * 10 ^ k⌋ : ℤ) : ℚ) / 10 ^ k = q := by rw [places_some hk]; field_simp
      rw [if_neg h0]
      exact ⟨_, number_exp, fun h => hq.symm ▸ rd h⟩
  | none =>
    refine ⟨(0 : ℤ), number_int 0, fun h => ?_⟩
    exfalso
    rcases h with h | ⟨q', h, h'⟩
    · cases h
    · rw [← Fl.fin.inj h] at h'
      have hm : -(maxPlaces : ℤ) ≤ (fmtOf small).emin := by unfold fmtOf; cases small <;> decide
      obtain ⟨m, hm⟩ := rep_decimal hm h'
      exact places_none hk (by rw [hm]; simp)

/-- `NumLaw` can be met -/
theorem exactNum_law : NumLaw exactNum := by
  intro small x _ _
  have zero : ∃ q, Number [48] q ∧ q = 0 := ⟨(0 : ℤ), number_int 0, by simp⟩
  obtain ⟨z, z1, rfl⟩ := zero
  cases x with
  | nan => exact ⟨0, z1, fun h => by rcases h with h | ⟨q, h, -⟩ <;> cases h⟩
  | inf n => exact ⟨0, z1, fun h => by rcases h with h | ⟨q, h, -⟩ <;> cases h⟩
  | negZero => exact ⟨0, z1, fun _ => .inr ⟨rfl, rfl⟩⟩
  | fin q => exact exactNum_fin small q

/-- a library that writes like this -/
def exJson : JsonFmt := ⟨exactNum, true⟩

example : ∀ j, ∃ v, JsonText (jsonText exJson j) v ∧ Means j v := C94_text exactNum_law

/-- an object with all kinds of values -/
def exDoc : Json :=
  .obj [(lit "path", .str (lit "/a<b>\n\"")), (lit "bits", .int (-64)), (lit "value", .arr [.num false (.fin (1 / 2)), .bool true, .null]),
    (lit "bytes", .bytes [1, 2]), (lit "none", .arr []), (lit "s", .str [0xC3, 0xA4, 0xFF, 0xE2, 0x80, 0xA8])]

/-- its text, as `encoding/json` writes it but for `0.5` -/
example : jsonText exJson exDoc = lit "{\n\t\"path\": \"/a\\u003cb\\u003e\\n\\\"\",\n\t\"bits\": -64,\n\t\"value\": [\n\t\t5e-1,\n\t\ttrue,\n\t\tnull\n\t],\n\t\"bytes\": \"AQI=\",\n\t\"none\": [],\n\t\"s\": \"" ++ [0xC3, 0xA4] ++ lit "\\ufffd\\u2028\"\n}" := by
  decide +kernel

/-- `exJson` as a library -/
def exTextLib : JsonLib := ⟨jsonText exJson, fun _ => none, fun _ => none⟩

example : exTextLib.Writes exJson := ⟨rfl, exactNum_law⟩

/-- an answer for one metric, as in `C94_get` -/
example : (∃ h, RunI exW (jsonHandler exTextLib (plainResp sink) 20 (exReq1 (lit "/l")) ⟨[], none, []⟩) exTextS h
      ((jsonHandler exTextLib (plainResp sink) 20 (exReq1 (lit "/l")) ⟨[], none, []⟩).run exW exTextS).1
      ((jsonHandler exTextLib (plainResp sink) 20 (exReq1 (lit "/l")) ⟨[], none, []⟩).run exW exTextS).2) ∧
    ((jsonHandler exTextLib (plainResp sink) 20 (exReq1 (lit "/l")) ⟨[], none, []⟩).run exW exTextS).2.1.out =
      lit "{\n\t\"path\": \"/l\",\n\t\"description\": \"\",\n\t\"unit\": \"Seconds\",\n\t\"kind\": \"list\",\n\t\"subType\": \"duration\",\n\t\"value\": [\n\t\t\"1.500000000\",\n\t\t\"-0.000000003\"\n\t],\n\t\"timestamp\": \"-62135596800.000000000\",\n\t\"groupId\": 2\n}" :=
  ⟨(RunI_of_run (w := exW) (jsonHandler exTextLib (plainResp sink) 20 (exReq1 (lit "/l")) ⟨[], none, []⟩) exTextS).imp fun _ h => h.1, by decide +kernel⟩

/-- an answer with three metrics, as in `C94_list` -/
example : (∃ h, RunI exW (jsonHandler exTextLib (plainResp sink) 20 (exReq [47]) ⟨[], none, []⟩) exTextS h
      ((jsonHandler exTextLib (plainResp sink) 20 (exReq [47]) ⟨[], none, []⟩).run exW exTextS).1
      ((jsonHandler exTextLib (plainResp sink) 20 (exReq [47]) ⟨[], none, []⟩).run exW exTextS).2) ∧
    (((jsonHandler exTextLib (plainResp sink) 20 (exReq [47]) ⟨[], none, []⟩).run exW exTextS).2.1.out.take 20 =
      lit "[\n\t{\n\t\t\"path\": \"/a/f") :=
  ⟨(RunI_of_run (w := exW) (jsonHandler exTextLib (plainResp sink) 20 (exReq [47]) ⟨[], none, []⟩) exTextS).imp fun _ h => h.1, by decide +kernel⟩

end Tricorder
