import Verif.Proof.Unmarshal
import Verif.Props.Client
import Verif.Props.JsonText
/-!
# C95: from the bytes of a JSON answer to the metrics

The text of the answer has one value by the grammar of JSON (C94).  From this value, `json.Unmarshal` and `ConvertToGoRPC` give a
client the metrics of the RPC answer.  Unlike in C69, nothing is assumed about how `encoding/json` reads strings and numbers
but the grammar and rounding to the nearest `float64`.
-/

namespace Tricorder
open Go Spec _root_.Spec

variable {w : World} {s s' : State} {W : Type}

theorem gives {f : JsonFmt} (hf : NumLaw f.num) (gen : JVal → ℕ) {y m : Metric} (hw : WellTyped y) (hfin : FiniteMetric y)
    (h : ClientGets (inpOf f gen) y m) : Gives gen y m :=
  ⟨h.1, fun hn => by
    obtain ⟨r, r1, r2⟩ := h.2 hn
    exact ⟨r, r1, recovered (numText hf) hw hfin r2⟩⟩

/-- **C95** The document that is sent for the metric `y`: its text has a value, and whoever reads the text, has a metric from which
`ConvertToGoRPC` gives `y`, or an error if `y` is a list of times or durations. -/
theorem C95_metric {f : JsonFmt} (hf : NumLaw f.num) (gen : JVal → ℕ) {y : Metric} (hw : WellTyped y) (hr : Readable y)
    (hfin : FiniteMetric y) {x : Json} (hx : JsonOf y x) :
    (∃ v, JsonText (jsonText f x) v) ∧ ∃ m, (∀ v, JsonText (jsonText f x) v → metricJ gen v = some m) ∧ Gives gen y m := by
  have h0 : JsonText (jsonText f x) (valueOf f x) := jsonText_value (numText hf) x
  refine ⟨⟨_, h0⟩, ?_⟩
  obtain ⟨ms, m1, m2⟩ := client_list (inp := inpOf f gen) inpOf_ascii (.cons hx .nil) (by simpa using ⟨hw, hr⟩)
  cases m2 with
  | @cons _ m _ ms' c1 c2 =>
    cases c2
    refine ⟨m, fun v hv => ?_, gives hf gen hw hfin c1⟩
    rw [hv.unique h0]
    refine metric_agree ?_
    rw [mapAll] at m1
    cases e : (inpOf f gen).metric x with
    | none => rw [e] at m1; cases m1
    | some m' =>
      rw [e] at m1
      simp only [mapAll, Option.some.injEq, List.cons.injEq, and_true] at m1
      rw [m1]

theorem listing_read {f : JsonFmt} (hf : NumLaw f.num) (gen : JVal → ℕ) {rs : List Metric} {docs : List Json}
    (hd : List.Forall₂ JsonOf rs docs) (hw : ∀ r ∈ rs, WellTyped r ∧ Readable r ∧ FiniteMetric r) :
    (∃ v, JsonText (jsonText f (.arr docs)) v) ∧
    ∃ ms, (∀ v, JsonText (jsonText f (.arr docs)) v → listJ gen v = some ms) ∧ List.Forall₂ (Gives gen) rs ms := by
  have h0 : JsonText (jsonText f (.arr docs)) (valueOf f (.arr docs)) := jsonText_value (numText hf) _
  obtain ⟨ms, m1, m2⟩ := client_list (inp := inpOf f gen) inpOf_ascii hd fun r h => ⟨(hw r h).1, (hw r h).2.1⟩
  refine ⟨⟨_, h0⟩, ms, fun v hv => ?_, ?_⟩
  · rw [hv.unique h0]
    exact list_agree m1
  · clear m1 hd h0
    induction m2 with
    | nil => exact .nil
    | cons c1 _ ih =>
      have := hw _ (List.mem_cons_self ..)
      exact .cons (gives hf gen this.1 this.2.2 c1) (ih fun r h => hw r (List.mem_cons_of_mem _ h))

/-- **C95 (listings)** From the handler to the client: the answer to a JSON request for a listing is a text from which every reader has,
in order, the metrics that `ListMetrics` would have answered. -/
theorem C95_listing (ht : Typed w s) {lib : JsonLib} {f : JsonFmt} (hl : lib.Writes f) (gen : JVal → ℕ) (wr : Writer W) (fuel : ℕ)
    {req : Req} (x : W) (hq : req.form (lit "singleton") = []) (hok : ((listMetrics false fuel req.path).run w s).2.2 = .ok)
    (hr : ∀ r ∈ ((listMetrics false fuel req.path).run w s).2.1, Readable r ∧ FiniteMetric r ∧ ¬ NamedTimes r) :
    ∃ body, Sent wr x ((jsonHandler lib (plainResp wr) fuel req ⟨[], none, x⟩).run w s).2.1 200 jsonHdr body ∧
      (∃ v, JsonText body v) ∧
      ∃ ms, (∀ v, JsonText body v → listJ gen v = some ms) ∧
        List.Forall₂ (Gives gen) ((listMetrics false fuel req.path).run w s).2.1 ms := by
  obtain ⟨-, h⟩ := C66_alone ht lib wr fuel (req := req) x hq
  obtain ⟨docs, d1, d2⟩ := (h hok fun r h => (hr r h).2.2).2.1 fun r h => (hr r h).2.1
  rw [hl.1] at d2
  obtain ⟨h1, h2⟩ := listing_read hl.2 gen d1 fun r h => ⟨list_well ht hok r h, (hr r h).1, (hr r h).2.1⟩
  exact ⟨_, d2, h1, h2⟩

/-- **C95 (listings, with steps of everybody else in between)** The same for the metrics of `ListMetrics`, if they are typed. -/
theorem C95_run (hs : Reachable w s) {lib : JsonLib} {f : JsonFmt} (hl : lib.Writes f) (gen : JVal → ℕ) {wr : Writer W} {fuel : ℕ}
    {req : Req} {x : W} {h : List Ev} {v : Resp W} {st : Status}
    (hr : RunI w (jsonHandler lib (plainResp wr) fuel req ⟨[], none, x⟩) s h s' (v, st))
    (hq : req.form (lit "singleton") = []) (hf : s'.tree.entries.length < fuel) :
    (st = .panic ∧ v.sent = none ∧ v.out = x) ∨
    ∃ rs, RunI w (listMetrics false fuel req.path) s h s' (rs, .ok) ∧ st = .ok ∧
      ((∀ r ∈ rs, WellTyped r ∧ Readable r ∧ FiniteMetric r) →
        ∃ body, Sent wr x v 200 jsonHdr body ∧ (∃ u, JsonText body u) ∧
          ∃ ms, (∀ u, JsonText body u → listJ gen u = some ms) ∧ List.Forall₂ (Gives gen) rs ms) := by
  rcases C66_list hs hr hq hf with h1 | ⟨rs, h1, h2, h3⟩
  · exact .inl h1
  · refine .inr ⟨rs, h1, h2, fun hw => ?_⟩
    obtain ⟨docs, d1, d2⟩ := (h3 fun r h => (hw r h).1).1 fun r h => (hw r h).2.2
    rw [hl.1] at d2
    obtain ⟨k1, k2⟩ := listing_read hl.2 gen d1 hw
    exact ⟨_, d2, k1, k2⟩

/-- **C95 (one metric)** The same for a request with `singleton`. -/
theorem C95_get (hs : Reachable w s) {lib : JsonLib} {f : JsonFmt} (hl : lib.Writes f) (gen : JVal → ℕ) {wr : Writer W} {fuel : ℕ}
    {req : Req} {x : W} {h : List Ev} {v : Resp W} {st : Status}
    (hr : RunI w (jsonHandler lib (plainResp wr) fuel req ⟨[], none, x⟩) s h s' (v, st)) (hq : req.form (lit "singleton") ≠ []) :
    ∃ r, RunI w (getMetricMsg false req.path) s h s' r ∧ ∀ y, r = some (.ok y) → ¬ NamedTimes y → st = .ok ∧
      (WellTyped y → Readable y → FiniteMetric y → ∃ body, Sent wr x v 200 jsonHdr body ∧ (∃ u, JsonText body u) ∧
        ∃ m, (∀ u, JsonText body u → metricJ gen u = some m) ∧ Gives gen y m) := by
  obtain ⟨r, h1, h2⟩ := C66_get hs hr hq
  refine ⟨r, h1, ?_⟩
  rintro y rfl hn
  obtain ⟨k1, k2⟩ := h2.2 hn
  refine ⟨k1, fun hw hrd hfin => ?_⟩
  obtain ⟨doc, d1, d2⟩ := (k2 hw).1 hfin
  rw [hl.1] at d2
  obtain ⟨c1, c2⟩ := C95_metric hl.2 gen hw hrd hfin d1
  exact ⟨_, d2, c1, c2⟩

/-! ## examples -/

theorem exA_readable : ∀ r ∈ ((listMetrics false 20 (lit "/a")).run exW exTextS).2.1, Readable r ∧ FiniteMetric r ∧ ¬ NamedTimes r := by
  have h : ((listMetrics false 20 (lit "/a")).run exW exTextS).2.1 = [
      ⟨lit "/a/f", [], .none, .int16, .unknown, 16, .scalar none (.int .int16 (-7)), .time ⟨0, 0⟩, 0⟩] := by decide +kernel
  rw [h]
  rintro r (_ | ⟨_, _ | _⟩)
  exact ⟨⟨(fun s h => nomatch h), trivial, fun t h => by cases h; exact ⟨by decide, by unfold TimeRange; decide⟩⟩, trivial,
    fun h => nomatch h.1⟩

theorem exL_readable : ∀ r ∈ ((listMetrics false 20 (lit "/l")).run exW exTextS).2.1,
    TimeList r ∧ Readable r ∧ FiniteMetric r ∧ ¬ NamedTimes r := by
  have h : ((listMetrics false 20 (lit "/l")).run exW exTextS).2.1 = [
      ⟨lit "/l", [], .second, .list, .goDuration, 0, .slice none ⟨none, .duration⟩
        (some [.duration 1500000000, .duration (-3)]), .time ⟨-62135596800, 0⟩, 2⟩] := by decide +kernel
  rw [h]
  rintro r (_ | ⟨_, _ | _⟩)
  refine ⟨⟨rfl, .inr rfl⟩, ⟨(fun s h => nomatch h), ?_, fun t h => by cases h; exact ⟨by decide, by unfold TimeRange; decide⟩⟩,
    by simp [FiniteMetric, FiniteBase], fun h => (by simpa [NamedVal] using h.2.2)⟩
  intro t h
  simp at h

/-- the hypotheses of `C95_listing`, for a number and for a list of durations -/
example : Typed exW exTextS ∧ exTextLib.Writes exJson ∧
    ((listMetrics false 20 (lit "/a")).run exW exTextS).2.2 = .ok ∧ ((listMetrics false 20 (lit "/a")).run exW exTextS).2.1.length = 1 ∧
    ((listMetrics false 20 (lit "/l")).run exW exTextS).2.2 = .ok ∧ ((listMetrics false 20 (lit "/l")).run exW exTextS).2.1.length = 1 :=
  ⟨exTextS_typed, ⟨rfl, exactNum_law⟩, by decide +kernel, by decide +kernel, by decide +kernel, by decide +kernel⟩

/-- the client gets -7 from the answer -/
example (gen : JVal → ℕ) : ∃ body, Sent sink [] ((jsonHandler exTextLib (plainResp sink) 20 (exReq (lit "/a")) ⟨[], none, []⟩).run exW exTextS).2.1
      200 jsonHdr body ∧
    ∃ m r, (∀ v, JsonText body v → listJ gen v = some [m]) ∧ m.convertToGoRPC = (true, r) ∧ r.path = lit "/a/f" ∧ r.kind = .int16 ∧
      r.value = .scalar none (.float64 (.fin (-7))) := by
  have h : ((listMetrics false 20 (lit "/a")).run exW exTextS).2.1 = [
      ⟨lit "/a/f", [], .none, .int16, .unknown, 16, .scalar none (.int .int16 (-7)), .time ⟨0, 0⟩, 0⟩] := by decide +kernel
  obtain ⟨body, h1, h2, ms, h3, h4⟩ := C95_listing exTextS_typed (lib := exTextLib) (f := exJson) ⟨rfl, exactNum_law⟩ gen sink 20
    (req := exReq (lit "/a")) [] rfl (by decide +kernel) exA_readable
  rw [show (exReq (lit "/a")).path = lit "/a" from rfl, h] at h4
  cases h4 with
  | cons c1 c2 =>
    cases c2
    obtain ⟨r, r1, r2⟩ := c1.2 fun h => nomatch h.1
    refine ⟨body, h1, _, r, h3, r1, r2.path (ascii_utf8 (by unfold Ascii; decide)), r2.kind, ?_⟩
    obtain ⟨z, z1, z2⟩ := r2.value
    rw [z1, z2 (by decide)]
    norm_num

end Tricorder
