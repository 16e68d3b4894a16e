import Verif.Spec.Rest
import Verif.Props.Unmarshal
/-!
# C98: REST requests from the connection to the metrics

`gzipHandler.ServeHTTP` around `jsonHandlerFunc` (`/repo/go/tricorder/http.go:65-75`, `/repo/go/tricorder/json.go:12-57`), for all
values of `Accept-Encoding`, with steps of everybody else in between; C66, C67, C94 and C95 together.
-/

namespace Tricorder
open Go Spec _root_.Spec

variable {w : World} {s s' : State}

/-- the result does not depend on compression -/
theorem rest_same {z : Compressor} {dec : Str → Option Str} (hdec : ∀ xs, dec (z.stream xs) = some xs.flatten) {lib : JsonLib}
    {fuel : ℕ} {req : Req} {h : List Ev} {v : Resp Str} {st : Status}
    (hr : RunI w (gzipHandler z lib (plainResp sink) fuel req ⟨[], none, []⟩) s h s' (v, st)) :
    ∃ v', RunI w (jsonHandler lib (plainResp sink) fuel req ⟨[], none, []⟩) s h s' (v', st) ∧
      (st = .ok → (answered v').2.get (lit "Content-Encoding") ≠ lit "gzip" →
        httpResult dec v = some ((answered v').1, v'.out) ∧
        (answered v).2.get (lit "Content-Type") = (answered v').2.get (lit "Content-Type")) := by
  by_cases ha : ∃ a b, req.accept = a ++ lit "gzip" ++ b
  · obtain ⟨v', h1, h2⟩ := C67_gzip hdec ha hr
    refine ⟨v', h1, fun hst _ => ?_⟩
    obtain ⟨k1, k2, k3, k4, k5⟩ := h2 hst
    unfold httpResult
    rw [if_pos k3, k1, k2]
    exact ⟨rfl, k5 _ (by decide +kernel)⟩
  · rw [C67_plain z lib (plainResp sink) fuel _ (fun a b hab => ha ⟨a, b, hab⟩)] at hr
    refine ⟨v, hr, fun _ hne => ?_⟩
    unfold httpResult
    rw [if_neg hne]
    exact ⟨rfl, rfl⟩

/-- what was sent, as the client sees it -/
theorem sent_result {v : Resp Str} {code : ℕ} {hdr : Hdr} {body : Str} (h : Sent sink [] v code hdr body) :
    (answered v).1 = code ∧ (answered v).2 = hdr ∧ v.out = body := by
  obtain ⟨h1, h2⟩ := h
  unfold answered
  rw [h1, h2]
  exact ⟨rfl, rfl, rfl⟩

/-- **C98 (listings)** Whatever `Accept-Encoding` says: if the handler does not panic, a client receives status 200,
`application/json`, and a body from which every reader of JSON has, in order, the metrics that `ListMetrics` would have answered
for the same steps. -/
theorem C98_list (hs : Reachable w s) {lib : JsonLib} {f : JsonFmt} (hl : lib.Writes f) (gen : JVal → ℕ) {z : Compressor}
    {dec : Str → Option Str} (hdec : ∀ xs, dec (z.stream xs) = some xs.flatten) {fuel : ℕ} {req : Req} {h : List Ev} {v : Resp Str}
    {st : Status} (hr : RunI w (gzipHandler z lib (plainResp sink) fuel req ⟨[], none, []⟩) s h s' (v, st))
    (hq : req.form (lit "singleton") = []) (hf : s'.tree.entries.length < fuel) :
    st = .panic ∨
    ∃ rs, RunI w (listMetrics false fuel req.path) s h s' (rs, .ok) ∧ st = .ok ∧
      ((∀ r ∈ rs, WellTyped r ∧ Readable r ∧ FiniteMetric r) →
        (answered v).2.get (lit "Content-Type") = lit "application/json" ∧
        ∃ body, httpResult dec v = some (200, body) ∧ (∃ u, JsonText body u) ∧
          ∃ ms, (∀ u, JsonText body u → listJ gen u = some ms) ∧ List.Forall₂ (Gives gen) rs ms) := by
  obtain ⟨v', h1, h2⟩ := rest_same hdec hr
  rcases C95_run hs hl gen h1 hq hf with ⟨h3, -⟩ | ⟨rs, h3, h4, h5⟩
  · exact .inl h3
  · refine .inr ⟨rs, h3, h4, fun hw => ?_⟩
    obtain ⟨body, b1, b2, b3⟩ := h5 hw
    obtain ⟨c1, c2, c3⟩ := sent_result b1
    obtain ⟨k1, k2⟩ := h2 h4 (by rw [c2]; decide +kernel)
    rw [c1, c3] at k1
    rw [c2] at k2
    exact ⟨k2.trans (by decide +kernel), body, k1, b2, b3⟩

/-- **C98 (one metric)** The same for a request with `singleton`; status 404 if there is no such metric. -/
theorem C98_get (hs : Reachable w s) {lib : JsonLib} {f : JsonFmt} (hl : lib.Writes f) (gen : JVal → ℕ) {z : Compressor}
    {dec : Str → Option Str} (hdec : ∀ xs, dec (z.stream xs) = some xs.flatten) {fuel : ℕ} {req : Req} {h : List Ev} {v : Resp Str}
    {st : Status} (hr : RunI w (gzipHandler z lib (plainResp sink) fuel req ⟨[], none, []⟩) s h s' (v, st))
    (hq : req.form (lit "singleton") ≠ []) :
    ∃ r, RunI w (getMetricMsg false req.path) s h s' r ∧
      (r = none → st = .ok ∧ httpResult dec v = some (404, lit "404 Not Found\n")) ∧
      ∀ y, r = some (.ok y) → ¬ NamedTimes y → st = .ok ∧
        (WellTyped y → Readable y → FiniteMetric y →
          (answered v).2.get (lit "Content-Type") = lit "application/json" ∧
          ∃ body, httpResult dec v = some (200, body) ∧ (∃ u, JsonText body u) ∧
            ∃ m, (∀ u, JsonText body u → metricJ gen u = some m) ∧ Gives gen y m) := by
  obtain ⟨v', h1, h2⟩ := rest_same hdec hr
  obtain ⟨r, h3, h4⟩ := C66_get hs h1 hq
  refine ⟨r, h3, ?_, ?_⟩
  · rintro rfl
    obtain ⟨h5, h6⟩ := h4
    obtain ⟨c1, c2, c3⟩ := sent_result h6
    obtain ⟨k1, -⟩ := h2 h5 (by rw [c2]; decide +kernel)
    rw [c1, c3] at k1
    exact ⟨h5, k1⟩
  · rintro y rfl hn
    obtain ⟨h5, h6⟩ := h4.2 hn
    refine ⟨h5, fun hw hrd hfin => ?_⟩
    obtain ⟨doc, d1, d2⟩ := (h6 hw).1 hfin
    rw [hl.1] at d2
    obtain ⟨c1, c2, c3⟩ := sent_result d2
    obtain ⟨k1, k2⟩ := h2 h5 (by rw [c2]; decide +kernel)
    rw [c1, c3] at k1
    rw [c2] at k2
    obtain ⟨m1, m2⟩ := C95_metric hl.2 gen hw hrd hfin d1
    exact ⟨k2.trans (by decide +kernel), _, k1, m1, m2⟩

/-! ## examples -/

/-- a request with compression for a registry that nobody changes -/
def exRest : Prog (Resp Str × Status) :=
  gzipHandler idZ exTextLib (plainResp sink) 20 ⟨lit "/a", fun _ => [], lit "gzip, deflate"⟩ ⟨[], none, []⟩

example : Reachable exW exTextS ∧ exTextLib.Writes exJson ∧ (∀ xs, some (idZ.stream xs) = some xs.flatten) ∧
    (∃ h s', RunI exW exRest exTextS h s' (exRest.run exW exTextS).2 ∧ s'.tree.entries.length < 20) ∧
    (exRest.run exW exTextS).2.2 = .ok ∧
    (answered (exRest.run exW exTextS).2.1).2.get (lit "Content-Encoding") = lit "gzip" ∧
    (httpResult some (exRest.run exW exTextS).2.1).map (·.1) = some 200 ∧
    lit "\"value\": -7" <:+: (exRest.run exW exTextS).2.1.out ∧
    ∀ r ∈ ((listMetrics false 20 (lit "/a")).run exW exTextS).2.1, WellTyped r ∧ Readable r ∧ FiniteMetric r := by
  refine ⟨grown_reachable exTextS_grown, ⟨rfl, exactNum_law⟩, idZ_stream, ?_, by decide +kernel, by decide +kernel, by decide +kernel,
    by decide +kernel,
    fun r hr => ⟨list_well exTextS_typed (by decide +kernel) r hr, (exA_readable r hr).1, (exA_readable r hr).2.1⟩⟩
  obtain ⟨h, h1, -⟩ := RunI_of_run (w := exW) exRest exTextS
  exact ⟨h, _, h1, by decide +kernel⟩

end Tricorder
