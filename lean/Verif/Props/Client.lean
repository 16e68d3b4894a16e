import Verif.Proof.Client
import Verif.Props.Http
/-!
# C69: what a client reads from a JSON answer

`inp.metric x` is `json.Unmarshal` of the document `x` into a `messages.Metric`; then the client calls `ConvertToGoRPC`.
`JsonOf y x` is the document that is sent for the metric `y` of the RPC answer (C66).
-/

namespace Tricorder
open Go Spec _root_.Spec

variable {w : World} {s s' : State} {W : Type}

/-- **C69 (metrics)** Reading a document succeeds and `ConvertToGoRPC` gives the metric of the RPC answer: kind, subtype, unit, bits,
group, time stamp, and times and durations exactly.

Partial: this is so only for metrics that are no lists of times or durations (`C69_times_false`), numbers come as `float64` and lists
as `[]interface{}` or, for bytes, as a string (`ClientValue`), which is not what the table at
`/repo/go/tricorder/messages/api.go:58-98` says (`C69_number_false`), and the zero time is 1970. -/
theorem C69_metric_partial {inp : JsonIn} (hi : KeepsAscii inp) {y : Metric} (hw : WellTyped y) (hr : Readable y)
    (hn : ¬ TimeList y) {x : Json} (hx : JsonOf y x) :
    ∃ m r, inp.metric x = some m ∧ m.convertToGoRPC = (true, r) ∧ ClientOf inp y r := client_ok hi hw hr hn hx

/-- **C69 is false for lists of times and durations**, all of them: `ConvertToGoRPC` gives an error, because `[]interface{}` is not
`[]string`. -/
theorem C69_times_false {inp : JsonIn} (hi : KeepsAscii inp) {y : Metric} (hw : WellTyped y) (hu : UnitOk y.unit)
    (hn : TimeList y) {x : Json} (hx : JsonOf y x) :
    ∃ m, inp.metric x = some m ∧ m.convertToGoRPC = (false, m) := client_times hi hw hu hn hx

/-- **C69 is false for numbers**: the value of an `int16` metric is a `float64` afterwards, though the kind is still `int16`. -/
theorem C69_number_false {inp : JsonIn} (hi : KeepsAscii inp) {y : Metric} (hw : WellTyped y) (hr : Readable y)
    {n : Option ℕ} {k : IntKind} {z : ℤ} (hv : y.value = .scalar n (.int k z)) {x : Json} (hx : JsonOf y x) :
    ∃ m r, inp.metric x = some m ∧ m.convertToGoRPC = (true, r) ∧ r.kind = y.kind ∧
      r.value = .scalar none (.float64 (inp.int z)) ∧ fromGoValueWithSubType r.value ≠ (r.kind, r.subType) := by
  have hk : elemType (.scalar ⟨n, .int k⟩) = some y.kind := by
    have := hw.2
    rw [hv] at this
    exact this.2
  have hl : ¬ TimeList y := fun h => (elemType_not _ hk).1 h.1
  obtain ⟨m, r, h1, h2, h3⟩ := client_ok hi hw hr hl hx
  have h4 := h3.value
  unfold ClientValue at h4
  rw [hv] at h4
  have h4 : r.value = .scalar none (.float64 (inp.int z)) := h4
  refine ⟨m, r, h1, h2, h3.kind, h4, fun h => ?_⟩
  rw [h4] at h
  have h5 := congrArg Prod.fst h
  have h5 : Ty.float64 = r.kind := h5
  rw [h3.kind] at h5
  rw [← h5] at hk
  revert hk
  cases n <;> cases k <;> simp [elemType]

theorem client_list {inp : JsonIn} (hi : KeepsAscii inp) : ∀ {rs : List Metric} {docs : List Json},
    List.Forall₂ JsonOf rs docs → (∀ r ∈ rs, WellTyped r ∧ Readable r) →
    ∃ ms, mapAll inp.metric docs = some ms ∧ List.Forall₂ (ClientGets inp) rs ms := by
  intro rs docs h
  induction h with
  | nil => exact fun _ => ⟨[], rfl, .nil⟩
  | @cons y x rs docs h1 _ ih =>
    intro hw
    obtain ⟨ms, m1, m2⟩ := ih fun r hr => hw r (List.mem_cons_of_mem _ hr)
    obtain ⟨w1, w2⟩ := hw y (List.mem_cons_self ..)
    by_cases hn : TimeList y
    · obtain ⟨m, c1, c2⟩ := client_times hi w1 w2.unit hn h1
      refine ⟨m :: ms, ?_, .cons ⟨fun _ => c2, fun h => absurd hn h⟩ m2⟩
      rw [mapAll, c1, m1]
    · obtain ⟨m, r, c1, c2⟩ := client_ok hi w1 w2 hn h1
      refine ⟨m :: ms, ?_, .cons ⟨fun h => absurd h hn, fun _ => ⟨r, c2⟩⟩ m2⟩
      rw [mapAll, c1, m1]

/-- **C69 (listings)** The same for a whole listing, from the handler to the client: the answer is the text of a document that the client
can read, and that gives, in order, the metrics that `ListMetrics` would have answered; exactly the lists of times and durations
cannot be converted.

Partial: as `C69_metric_partial`. -/
theorem C69_listing_partial (ht : Typed w s) {inp : JsonIn} (hi : KeepsAscii inp) (lib : JsonLib) (wr : Writer W) (fuel : ℕ)
    {req : Req} (x : W) (hq : req.form (lit "singleton") = []) (hok : ((listMetrics false fuel req.path).run w s).2.2 = .ok)
    (hr : ∀ r ∈ ((listMetrics false fuel req.path).run w s).2.1, Readable r ∧ FiniteMetric r ∧ ¬ NamedTimes r) :
    ∃ doc ms, Sent wr x ((jsonHandler lib (plainResp wr) fuel req ⟨[], none, x⟩).run w s).2.1 200 jsonHdr (lib.text doc) ∧
      inp.list doc = some ms ∧
      List.Forall₂ (ClientGets inp) ((listMetrics false fuel req.path).run w s).2.1 ms := by
  obtain ⟨-, h⟩ := C66_alone ht lib wr fuel (req := req) x hq
  obtain ⟨docs, d1, d2⟩ := (h hok fun r h => (hr r h).2.2).2.1 fun r h => (hr r h).2.1
  obtain ⟨ms, m1, m2⟩ := client_list hi d1 fun r h => ⟨list_well ht hok r h, (hr r h).1⟩
  exact ⟨_, ms, d2, m1, m2⟩

/-! ## examples -/

/-- strings are kept, numbers become `float64` -/
def exIn : JsonIn := ⟨id, fun _ => lit "bytes", fun x => .fin x, fun _ x => x, fun _ => 5⟩

theorem exIn_ascii : KeepsAscii exIn := fun _ _ => rfl

/-- a duration of -1.5 s in milliseconds with a time stamp -/
def exDur : Metric :=
  ⟨lit "/d", lit "a duration", .millisecond, .goDuration, .unknown, 0, .scalar none (.duration (-1500000000)), .time ⟨7, 5⟩, 3⟩

/-- its document -/
def exDurDoc : Json := .obj [(lit "path", .str (lit "/d")), (lit "description", .str (lit "a duration")),
  (lit "unit", .str (lit "Milliseconds")), (lit "kind", .str (lit "duration")), (lit "value", .str (lit "-1500.000000000")),
  (lit "timestamp", .str (lit "7.000000005")), (lit "groupId", .int 3)]

theorem exDur_well : WellTyped exDur ∧ Readable exDur ∧ ¬ TimeList exDur := by
  refine ⟨⟨.inr ⟨_, rfl⟩, ?_, rfl⟩, ⟨(fun s h => nomatch h), trivial, ?_⟩, (fun h => nomatch h.1)⟩
  · show InI64 _; decide
  · intro t h; cases h; exact ⟨by decide, by unfold TimeRange; decide⟩

example : WellTyped exDur ∧ Readable exDur ∧ ¬ TimeList exDur ∧
    (∃ x, JsonOf exDur x) ∧ ∃ m, exIn.metric exDurDoc = some m ∧ m.convertToGoRPC = (true, exDur) := by
  obtain ⟨h1, h2, h3⟩ := exDur_well
  obtain ⟨x, -, hx⟩ := (metric_doc exLib h1 (r := exDur) (j := _) rfl).1 trivial
  exact ⟨h1, h2, h3, ⟨x, hx⟩, _, rfl, by decide +kernel⟩

/-- a list of durations in the listing of `exTextS` -/
example : Typed exW exTextS ∧ ((listMetrics false 20 [47]).run exW exTextS).2.2 = .ok ∧
    (∃ y ∈ ((listMetrics false 20 [47]).run exW exTextS).2.1, TimeList y) ∧
    (∃ y ∈ ((listMetrics false 20 [47]).run exW exTextS).2.1, y.value = .scalar none (.int .int16 (-7))) := by
  refine ⟨exTextS_typed, by decide +kernel, ?_, by decide +kernel⟩
  have : ∃ y ∈ ((listMetrics false 20 [47]).run exW exTextS).2.1, y.kind = .list ∧ y.subType = .goDuration := by
    decide +kernel
  obtain ⟨y, h1, h2, h3⟩ := this
  exact ⟨y, h1, h2, .inr h3⟩

end Tricorder
