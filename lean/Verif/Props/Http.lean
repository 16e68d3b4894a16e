import Verif.Proof.Http
import Verif.Proof.Page
import Verif.Props.Html
import Verif.Props.Json
import Verif.Props.Request
/-!
# C66, C67, C68: the HTTP handlers

`Verif/Spec/Http.lean` says what a JSON document for a metric is (`JsonOf`), in terms of what RPC reports.
-/

namespace Tricorder
open Go Spec Tree _root_.Spec

variable {w : World} {s s' : State} {W : Type}

/-! ## C66 -/

theorem list_doc (lib : JsonLib) {js rs : List Metric} (hw : ∀ r ∈ rs, WellTyped r) (h : Converted₂ js rs) :
    ((∀ r ∈ rs, FiniteMetric r) → ∃ docs, jsonList lib js = some (.arr docs) ∧ List.Forall₂ JsonOf rs docs) ∧
    ((∃ r ∈ rs, ¬ FiniteMetric r) → jsonList lib js = none) := by
  unfold jsonList
  induction h with
  | nil => exact ⟨fun _ => ⟨[], rfl, .nil⟩, fun ⟨r, hr, _⟩ => nomatch hr⟩
  | @cons j r js rs h1 _ ih =>
    obtain ⟨i1, i2⟩ := ih fun r hr => hw r (List.mem_cons_of_mem _ hr)
    obtain ⟨k1, k2⟩ := metric_doc lib (hw r List.mem_cons_self) h1
    constructor
    · intro hf
      obtain ⟨docs, d1, d2⟩ := i1 fun r hr => hf r (List.mem_cons_of_mem _ hr)
      obtain ⟨x, x1, x2⟩ := k1 (hf r List.mem_cons_self)
      obtain ⟨l, l1, l2⟩ := Option.map_eq_some_iff.mp d1
      cases l2
      exact ⟨x :: docs, by simp [mapAll, x1, l1], .cons x2 d2⟩
    · rintro ⟨a, ha, hf⟩
      rcases List.mem_cons.mp ha with rfl | ha
      · simp [mapAll, k2 hf]
      · have := i2 ⟨a, ha, hf⟩
        rw [Option.map_eq_none_iff] at this
        unfold mapAll
        rw [this]
        cases jsonMetric lib j <;> rfl

theorem sent_answer (lib : JsonLib) (wr : Writer W) (x : W) (o : Option Json) :
    Sent wr x (jsonAnswer lib (plainResp wr) (jsonHeaders (plainResp wr) ⟨[], none, x⟩) o) 200 jsonHdr
      (match o with | none => lit "Error in template.\n" | some j => lib.text j) := by
  cases o <;> exact ⟨rfl, rfl⟩

/-- **C66 (listings)** The answer to a JSON request without `singleton`, with steps of everybody else in between: if the handler
does not panic (then nothing is sent), `ListMetrics` would have answered for the same steps, and what is sent, as
`application/json` with status 200 and in one piece, is an array with one object per metric of that answer, in the same order;
but only if all floating point numbers in there are finite; otherwise it is the message "Error in template". -/
theorem C66_list (hs : Reachable w s) {lib : JsonLib} {wr : Writer W} {fuel : ℕ} {req : Req} {x : W} {h : List Ev}
    {v : Resp W} {st : Status} (hr : RunI w (jsonHandler lib (plainResp wr) fuel req ⟨[], none, x⟩) s h s' (v, st))
    (hq : req.form (lit "singleton") = []) (hf : s'.tree.entries.length < fuel) :
    (st = .panic ∧ v.sent = none ∧ v.out = x) ∨
    ∃ rs, RunI w (listMetrics false fuel req.path) s h s' (rs, .ok) ∧ st = .ok ∧ ((∀ r ∈ rs, WellTyped r) →
      ((∀ r ∈ rs, FiniteMetric r) →
        ∃ docs, List.Forall₂ JsonOf rs docs ∧ Sent wr x v 200 jsonHdr (lib.text (.arr docs))) ∧
      ((∃ r ∈ rs, ¬ FiniteMetric r) → Sent wr x v 200 jsonHdr (lit "Error in template.\n"))) := by
  unfold jsonHandler at hr
  rw [if_neg (by simp [hq])] at hr
  obtain ⟨⟨js, rst⟩, h1, h2⟩ := RunI_map hr
  obtain ⟨-, h3, h4⟩ := listMetrics_run hs h1
  rcases h3 with rfl | rfl | rfl
  · right
    obtain ⟨rs, h5, h6⟩ := C62_list h1 (by simp)
    simp only [listAnswer, Prod.mk.injEq] at h2
    obtain ⟨rfl, rfl⟩ := h2
    refine ⟨rs, h5, rfl, fun hw => ?_⟩
    obtain ⟨k1, k2⟩ := list_doc lib hw h6
    constructor
    · intro hfin
      obtain ⟨docs, d1, d2⟩ := k1 hfin
      rw [d1]
      exact ⟨docs, d2, sent_answer lib wr x _⟩
    · intro hfin
      rw [k2 hfin]
      exact sent_answer lib wr x _
  · left
    simp only [listAnswer, Prod.mk.injEq] at h2
    obtain ⟨rfl, rfl⟩ := h2
    exact ⟨rfl, rfl, rfl⟩
  · exact absurd rfl (h4 hf)

/-- **C66 (single metrics)** The answer to a JSON request with `singleton`, for the same steps as `GetMetric`: status 404 if there
is no metric; otherwise the object for the metric, if all its floating point numbers are finite. -/
theorem C66_get (hs : Reachable w s) {lib : JsonLib} {wr : Writer W} {fuel : ℕ} {req : Req} {x : W} {h : List Ev}
    {v : Resp W} {st : Status} (hr : RunI w (jsonHandler lib (plainResp wr) fuel req ⟨[], none, x⟩) s h s' (v, st))
    (hq : req.form (lit "singleton") ≠ []) :
    ∃ r, RunI w (getMetricMsg false req.path) s h s' r ∧ match r with
      | none => st = .ok ∧ Sent wr x v 404 [(lit "X-Tricorder-Media-Type", lit "tricorder.v1"),
          (lit "Content-Type", lit "text/plain; charset=utf-8"), (lit "X-Content-Type-Options", lit "nosniff")]
          (lit "404 Not Found\n")
      | some .panic => st = .panic ∧ v.sent = none ∧ v.out = x
      | some (.ok y) => (NamedTimes y → st = .panic ∧ v.sent = none ∧ v.out = x) ∧ (¬ NamedTimes y → st = .ok ∧
          (WellTyped y →
            (FiniteMetric y → ∃ doc, JsonOf y doc ∧ Sent wr x v 200 jsonHdr (lib.text doc)) ∧
            (¬ FiniteMetric y → Sent wr x v 200 jsonHdr (lit "Error in template.\n")))) := by
  unfold jsonHandler at hr
  rw [if_pos hq] at hr
  obtain ⟨j, h1, h2⟩ := RunI_map hr
  obtain ⟨r, h3, h4⟩ := C62_get hs h1
  refine ⟨r, h3, ?_⟩
  rcases r with _ | y | _
  · rcases j with _ | j | _
    · simp only [singleAnswer, Prod.mk.injEq] at h2
      obtain ⟨rfl, rfl⟩ := h2
      refine ⟨rfl, ?_, rfl⟩
      show some (404, _) = some (404, _)
      congr 2
    · cases h4
    · cases h4
  · rcases j with _ | j | _
    · cases h4
    · obtain ⟨k1, k2⟩ := h4
      simp only [singleAnswer, Prod.mk.injEq] at h2
      obtain ⟨rfl, rfl⟩ := h2
      refine ⟨fun hn => absurd hn k2, fun _ => ⟨rfl, fun hw => ?_⟩⟩
      obtain ⟨d1, d2⟩ := metric_doc lib hw k1
      constructor
      · intro hf
        obtain ⟨doc, e1, e2⟩ := d1 hf
        rw [e1]
        exact ⟨doc, e2, sent_answer lib wr x _⟩
      · intro hf
        rw [d2 hf]
        exact sent_answer lib wr x _
    · simp only [singleAnswer, Prod.mk.injEq] at h2
      obtain ⟨rfl, rfl⟩ := h2
      exact ⟨fun _ => ⟨rfl, rfl, rfl⟩, fun hn => absurd h4 hn⟩
  · rcases j with _ | j | _
    · cases h4
    · cases h4
    · simp only [singleAnswer, Prod.mk.injEq] at h2
      obtain ⟨rfl, rfl⟩ := h2
      exact ⟨rfl, rfl, rfl⟩

theorem list_well (ht : Typed w s) {fuel : ℕ} {path : Str} (hok : ((listMetrics false fuel path).run w s).2.2 = .ok) :
    ∀ r ∈ ((listMetrics false fuel path).run w s).2.1, WellTyped r := by
  have hs := grown_reachable ht.grown
  have hc := C01_components path
  obtain ⟨L, hL⟩ := canonical_exists (reachable_isTree hs) (newPathSpec path)
  obtain ⟨V, h, sess, v1, v2, v3, v4⟩ := C12_prefix (w := w) hs (coll := msgColl false) (msgColl_reads false)
    (fuel := fuel) [] hc hL
  obtain ⟨hno, hlist⟩ := (calls_now v4 v3 Sane.nil).1 hok
  intro r hr
  have : ((listMetrics false fuel path).run w s).2.1 = _ := hlist
  rw [this, List.nil_append, List.mem_filterMap] at hr
  obtain ⟨m, hm, hr⟩ := hr
  split at hr
  · rename_i o ho
    subst hr
    unfold nowItem at ho
    split at ho
    · cases ho
    · rename_i mv hmv
      split at ho
      · cases ho
      · cases ho
      · cases hn : nowMetric w s mv with
        | none => rw [hn] at ho; cases ho
        | some y =>
          rw [hn] at ho
          have ho' : Out.ok (some y) = Out.ok (some r) := ho
          cases ho'
          exact well_metric ht hmv hn
  · cases hr

/-- **C66 (listings, alone)** For a registry as in `Typed` that nobody changes meanwhile: which of the three answers is given is
determined by what `ListMetrics` reports. -/
theorem C66_alone (ht : Typed w s) (lib : JsonLib) (wr : Writer W) (fuel : ℕ) {req : Req} (x : W)
    (hq : req.form (lit "singleton") = []) :
    let rpc := ((listMetrics false fuel req.path).run w s).2
    let res := ((jsonHandler lib (plainResp wr) fuel req ⟨[], none, x⟩).run w s).2
    ((rpc.2 = .panic ∨ ∃ r ∈ rpc.1, NamedTimes r) → res.2 = .panic ∧ res.1.sent = none ∧ res.1.out = x) ∧
    (rpc.2 = .ok → (∀ r ∈ rpc.1, ¬ NamedTimes r) → res.2 = .ok ∧
      ((∀ r ∈ rpc.1, FiniteMetric r) →
        ∃ docs, List.Forall₂ JsonOf rpc.1 docs ∧ Sent wr x res.1 200 jsonHdr (lib.text (.arr docs))) ∧
      ((∃ r ∈ rpc.1, ¬ FiniteMetric r) → Sent wr x res.1 200 jsonHdr (lit "Error in template.\n"))) := by
  intro rpc res
  have hs := grown_reachable ht.grown
  have hres : res = listAnswer lib (plainResp wr) (jsonHeaders (plainResp wr) ⟨[], none, x⟩)
      ((listMetrics true fuel req.path).run w s).2 := by
    show ((jsonHandler lib (plainResp wr) fuel req ⟨[], none, x⟩).run w s).2 = _
    unfold jsonHandler
    rw [if_neg (by simp [hq]), run_bind]
    rfl
  obtain ⟨a1, a2⟩ := C62_list_alone hs fuel req.path
  have hp : ((listMetrics true fuel req.path).run w s).2.2 = .panic → res.2 = .panic ∧ res.1.sent = none ∧ res.1.out = x := by
    intro h
    rw [hres]
    generalize ((listMetrics true fuel req.path).run w s).2 = q at h
    obtain ⟨q1, q2⟩ := q
    dsimp only at h
    subst h
    exact ⟨rfl, rfl, rfl⟩
  constructor
  · intro h
    by_cases hn : ∃ r ∈ rpc.1, NamedTimes r
    · exact hp (a1 hn)
    · rcases h with h | h
      · refine hp ?_
        rw [(a2 fun r hr hh => hn ⟨r, hr, hh⟩).2]
        exact h
      · exact absurd h hn
  · intro hok hn
    obtain ⟨b1, b2⟩ := a2 hn
    have hb : ((listMetrics true fuel req.path).run w s).2.2 = .ok := b2.trans hok
    obtain ⟨k1, k2⟩ := list_doc lib (list_well ht hok) b1
    have hres' : res = (jsonAnswer lib (plainResp wr) (jsonHeaders (plainResp wr) ⟨[], none, x⟩)
        (jsonList lib ((listMetrics true fuel req.path).run w s).2.1), .ok) := by
      rw [hres]
      generalize ((listMetrics true fuel req.path).run w s).2 = q at hb
      obtain ⟨q1, q2⟩ := q
      dsimp only at hb
      subst hb
      rfl
    rw [hres']
    refine ⟨rfl, fun hfin => ?_, fun hfin => ?_⟩
    · obtain ⟨docs, d1, d2⟩ := k1 hfin
      rw [d1]
      exact ⟨docs, d2, sent_answer lib wr x _⟩
    · rw [k2 hfin]
      exact sent_answer lib wr x _

/-- the library for examples: texts are lengths of lists -/
def exLib : JsonLib := ⟨fun | .arr l => fmtNat l.length | .bytes _ => lit "bytes" | .obj _ => lit "obj" | _ => [], fun _ => none, fun _ => none⟩

/-- a request for a listing -/
def exReq (path : Str) : Req := ⟨path, fun _ => [], []⟩

/-- a request for a single metric -/
def exReq1 (path : Str) : Req := ⟨path, fun k => if k = lit "singleton" then lit "1" else [], []⟩

/-- a listing with three metrics -/
example : Typed exW exTextS ∧ ((listMetrics false 20 (exReq [47]).path).run exW exTextS).2.2 = .ok ∧
    (((jsonHandler exLib (plainResp sink) 20 (exReq [47]) ⟨[], none, []⟩).run exW exTextS).2.1.out = lit "3") :=
  ⟨exTextS_typed, by decide +kernel, by decide +kernel⟩

/-- a single metric, and one that does not exist -/
example : (((jsonHandler exLib (plainResp sink) 20 (exReq1 (lit "/l")) ⟨[], none, []⟩).run exW exTextS).2.1.out = lit "obj") ∧
    (((jsonHandler exLib (plainResp sink) 20 (exReq1 (lit "/no")) ⟨[], none, []⟩).run exW exTextS).2.1.sent.map Prod.fst =
      some 404) := ⟨by decide +kernel, by decide +kernel⟩

/-- **C66 (not finite)** It does happen: `ListMetrics` lists three metrics, one of them a list with NaN, and nothing of them is in
the JSON answer, which has status 200 and content type `application/json` nevertheless. -/
theorem C66_nan : ∃ (w : World) (s : State) (req : Req), Reachable w s ∧ req.form (lit "singleton") = [] ∧
    ((listMetrics false 20 req.path).run w s).2.2 = .ok ∧ 3 ≤ ((listMetrics false 20 req.path).run w s).2.1.length ∧
    ∀ lib : JsonLib, Sent sink [] ((jsonHandler lib (plainResp sink) 20 req ⟨[], none, []⟩).run w s).2.1 200 jsonHdr
      (lit "Error in template.\n") := by
  refine ⟨exW, exFloat, exReq [47], exFloat_reachable, rfl, by decide +kernel, by decide +kernel, fun lib => ?_⟩
  have hx : ∃ x ∈ ((listMetrics true 20 [47]).run exW exFloat).2.1,
      x.value = .slice none ⟨none, .float64⟩ (some [.float64 .nan]) := by decide +kernel
  have hok : ((listMetrics true 20 [47]).run exW exFloat).2.2 = .ok := by decide +kernel
  unfold jsonHandler
  rw [if_neg (by simp [exReq]), run_bind]
  show Sent sink [] (listAnswer lib (plainResp sink) (jsonHeaders (plainResp sink) ⟨[], none, []⟩)
    ((listMetrics true 20 [47]).run exW exFloat).2).1 200 jsonHdr _
  generalize ((listMetrics true 20 [47]).run exW exFloat).2 = q at *
  obtain ⟨ms, st⟩ := q
  dsimp only at hx hok
  subst hok
  obtain ⟨x, h1, h2⟩ := hx
  have hn : jsonList lib ms = none := by
    unfold jsonList
    rw [mapAll_none ⟨x, h1, ?_⟩]
    · rfl
    · unfold jsonMetric
      rw [h2]
      rfl
  simp only [listAnswer, hn]
  exact ⟨rfl, rfl⟩

/-- a list of the bytes 1 and 2 at `z` -/
def exBytesCmds : List Cmd :=
  [.newSlice ⟨none, .scalar ⟨none, .int .uint8⟩, some [.int .uint8 1, .int .uint8 2], false⟩, .newList (.slice 2) true Time.zero,
   .storeMetric 0 [122] [] ⟨none, none, none, some 1, .list, false, .none⟩]

def exBytes : State := exBytesCmds.foldl (fun s c => (exec exW c s).1) exS

theorem exBytes_reachable : Reachable exW exBytes := by
  have h : play exW exBytesCmds exS = some exBytes := by
    have h : ∀ (cs : List Cmd) (s : State), (play exW cs s).isSome →
        play exW cs s = some (cs.foldl (fun s c => (exec exW c s).1) s) := by
      intro cs
      induction cs with
      | nil => intro s _; rfl
      | cons c cs ih =>
        intro s hs
        rw [play] at hs ⊢
        split at hs
        · rename_i hc; rw [if_pos hc]; exact ih _ hs
        · cases hs
    exact h _ _ (by decide +kernel)
  exact play_reachable h exS_reachable

/-- **C66 (bytes)** A list of `uint8` is a string in the JSON answer, not an array. -/
theorem C66_bytes : ∃ (w : World) (s : State) (req : Req), Reachable w s ∧ req.form (lit "singleton") ≠ [] ∧
    (∃ y, ((getMetricMsg false req.path).run w s).2 = some (.ok y) ∧ y.kind = .list ∧ y.subType = .uint8 ∧
      y.value = .slice none ⟨none, .int .uint8⟩ (some [.int .uint8 1, .int .uint8 2])) ∧
    ∀ lib : JsonLib, ∃ fs, (lit "value", Json.bytes [1, 2]) ∈ fs ∧
      Sent sink [] ((jsonHandler lib (plainResp sink) 20 req ⟨[], none, []⟩).run w s).2.1 200 jsonHdr (lib.text (.obj fs)) := by
  refine ⟨exW, exBytes, exReq1 [122], exBytes_reachable, by decide, ?_, fun lib => ?_⟩
  · have : (match ((getMetricMsg false [122]).run exW exBytes).2 with
      | some (.ok y) => decide (y.kind = .list ∧ y.subType = .uint8 ∧
        y.value = .slice none ⟨none, .int .uint8⟩ (some [.int .uint8 1, .int .uint8 2]))
      | _ => false) = true := by decide +kernel
    show ∃ y, ((getMetricMsg false [122]).run exW exBytes).2 = some (.ok y) ∧ _
    split at this
    · rename_i y hy
      exact ⟨y, hy, of_decide_eq_true this⟩
    · cases this
  · have : (match ((getMetricMsg true [122]).run exW exBytes).2 with
      | some (.ok y) => (match y.timeStamp with | .str _ => true | _ => false) && decide (
        y.value = .slice none ⟨none, .int .uint8⟩ (some [.int .uint8 1, .int .uint8 2]))
      | _ => false) = true := by decide +kernel
    unfold jsonHandler
    rw [if_pos (by decide), run_bind]
    show ∃ fs, _ ∧ Sent sink [] (singleAnswer lib (plainResp sink) (jsonHeaders (plainResp sink) ⟨[], none, []⟩)
      ((getMetricMsg true [122]).run exW exBytes).2).1 200 jsonHdr _
    generalize ((getMetricMsg true [122]).run exW exBytes).2 = q at *
    split at this
    · rename_i y
      rw [Bool.and_eq_true] at this
      obtain ⟨h1, h2⟩ := this
      have h2 := of_decide_eq_true h2
      cases h3 : y.timeStamp with
      | str t =>
        have hj : ∃ fs, (lit "value", Json.bytes [1, 2]) ∈ fs ∧ jsonMetric lib y = some (.obj fs) := by
          unfold jsonMetric
          rw [h2, h3]
          exact ⟨_, by simp [intOf], rfl⟩
        obtain ⟨fs, f1, f2⟩ := hj
        refine ⟨fs, f1, ?_⟩
        simp only [singleAnswer, f2]
        exact ⟨rfl, rfl⟩
      | nil => rw [h3] at h1; cases h1
      | time t => rw [h3] at h1; cases h1
      | other t => rw [h3] at h1; cases h1
    · cases this

/-! ## C67 -/

theorem RunI_then_ret {α β : Type} {p : Prog α} (f : α → β) {h : List Ev} {a : α} (hr : RunI w p s h s' a) :
    RunI w (p.bind fun a => .ret (f a)) s h s' (f a) := by
  induction hr with
  | ret a s => exact .ret _ _
  | env c hc _ ih => exact .env c hc ih
  | op _ ih => exact .op ih

/-- **C67 (without gzip)** Without `gzip` in `Accept-Encoding`, the answer is not compressed. -/
theorem C67_plain (z : Compressor) (lib : JsonLib) {V : Type} (rw : RespWriter V) (fuel : ℕ) {req : Req} (v : V)
    (h : ∀ a b, req.accept ≠ a ++ lit "gzip" ++ b) {e : List Ev} {r : V × Status} :
    RunI w (gzipHandler z lib rw fuel req v) s e s' r ↔ RunI w (jsonHandler lib rw fuel req v) s e s' r := by
  unfold gzipHandler
  rw [if_pos (fun ⟨a, b, hab⟩ => h a b hab.symm)]

/-- the state of a response to which everything is sent in chunks -/
theorem sink_all (v : Resp Str) (cs : List Str) :
    ∃ v' : Resp Str, (plainResp sink).wr.all v cs = (v', .ok) ∧ v'.out = v.out ++ cs.flatten ∧ answered v' = answered v := by
  induction cs generalizing v with
  | nil => exact ⟨v, rfl, by simp, rfl⟩
  | cons c cs ih =>
    obtain ⟨v', h1, h2, h3⟩ := ih ({ v.writeHeader 200 with out := v.out ++ c })
    refine ⟨v', ?_, ?_, ?_⟩
    · exact h1
    · rw [h2]; simp
    · rw [h3]
      unfold answered Resp.writeHeader
      cases h : v.sent <;> simp [h]

theorem gzip_one (z : Compressor) (v : Resp Str) (b : Str) :
    let g := ((gzipResp z (plainResp sink)).wr.write ⟨z.new, none, v⟩ b).1
    (gzipClose z (plainResp sink) g).out = v.out ++ z.stream [b] ∧
    answered (gzipClose z (plainResp sink) g) = answered v := by
  obtain ⟨v1, h1, h2, h3⟩ := sink_all v (z.write z.new b).2
  obtain ⟨v2, k1, k2, k3⟩ := sink_all v1 (z.close (z.write z.new b).1)
  intro g
  have hg : g = ⟨(z.write z.new b).1, none, v1⟩ := by
    show ((gzipResp z (plainResp sink)).wr.write ⟨z.new, none, v⟩ b).1 = _
    simp only [gzipResp, gzipEmit, h1]
  have hc : gzipClose z (plainResp sink) g = v2 := by
    rw [hg]
    simp only [gzipClose, gzipEmit, k1]
  rw [hc]
  refine ⟨?_, k3.trans h3⟩
  rw [k2, h2]
  simp [Compressor.stream, Compressor.runs]

/-- `v` is the compressed answer, `v'` the other -/
def Compressed (dec : Str → Option Str) (v v' : Resp Str) : Prop :=
  dec v.out = some v'.out ∧ (answered v).1 = (answered v').1 ∧
  (answered v).2.get (lit "Content-Encoding") = lit "gzip" ∧ (answered v').2.get (lit "Content-Encoding") = [] ∧
  ∀ k, k ≠ lit "Content-Encoding" → (answered v).2.get k = (answered v').2.get k

theorem compressed_one {z : Compressor} {dec : Str → Option Str} (hdec : ∀ xs, dec (z.stream xs) = some xs.flatten)
    {v v' : Resp Str} (h1 : v.out = []) (h2 : v'.out = []) {c : ℕ} {H : Hdr}
    (h3 : answered v = (c, (lit "Content-Encoding", lit "gzip") :: H)) (h4 : answered v' = (c, H))
    (h5 : ∀ e ∈ H, e.1 ≠ lit "Content-Encoding") (b : Str) :
    Compressed dec (gzipClose z (plainResp sink) ((gzipResp z (plainResp sink)).wr.write ⟨z.new, none, v⟩ b).1)
      ((plainResp sink).wr.write v' b).1 := by
  obtain ⟨k1, k2⟩ := gzip_one z v b
  obtain ⟨v'', m1, m2, m3⟩ := sink_all v' [b]
  have : ((plainResp sink).wr.write v' b).1 = v'' := by
    have := congrArg Prod.fst m1
    exact this
  rw [this]
  refine ⟨?_, ?_, ?_, ?_, ?_⟩
  · rw [k1, h1, List.nil_append, hdec, m2, h2]; rfl
  · rw [k2, m3, h3, h4]
  · rw [k2, h3]; rfl
  · rw [m3, h4]
    unfold Hdr.get
    rw [List.find?_eq_none.mpr (by simpa using fun a b => h5 (a, b))]
    rfl
  · intro k hk
    rw [k2, m3, h3, h4]
    unfold Hdr.get
    rw [List.find?_cons_of_neg (by simpa using fun h => hk h.symm)]

/-- **C67 (with gzip)** If `Accept-Encoding` contains `gzip`, the answer has the status and the headers of the answer without
compression for the same steps, and `Content-Encoding: gzip`; what the compressed body stands for is the other body. -/
theorem C67_gzip {z : Compressor} {dec : Str → Option Str} (hdec : ∀ xs, dec (z.stream xs) = some xs.flatten) {lib : JsonLib}
    {fuel : ℕ} {req : Req} (ha : ∃ a b, req.accept = a ++ lit "gzip" ++ b) {h : List Ev} {v : Resp Str} {st : Status}
    (hr : RunI w (gzipHandler z lib (plainResp sink) fuel req ⟨[], none, []⟩) s h s' (v, st)) :
    ∃ v', RunI w (jsonHandler lib (plainResp sink) fuel req ⟨[], none, []⟩) s h s' (v', st) ∧ (st = .ok →
      dec v.out = some v'.out ∧ (answered v).1 = (answered v').1 ∧
      (answered v).2.get (lit "Content-Encoding") = lit "gzip" ∧ (answered v').2.get (lit "Content-Encoding") = [] ∧
      ∀ k, k ≠ lit "Content-Encoding" → (answered v).2.get k = (answered v').2.get k) := by
  unfold gzipHandler at hr
  rw [if_neg (by obtain ⟨a, b, h⟩ := ha; exact fun hn => hn ⟨a, b, h.symm⟩)] at hr
  obtain ⟨⟨g, st'⟩, h1, h2⟩ := RunI_map hr
  obtain ⟨rfl, rfl⟩ := Prod.mk.inj h2
  clear h2
  unfold jsonHandler at h1 ⊢
  have key : ∀ (o : Option Json), Compressed dec
      (gzipClose z (plainResp sink) (jsonAnswer lib (gzipResp z (plainResp sink))
        (jsonHeaders (gzipResp z (plainResp sink)) ⟨z.new, none, ⟨[(lit "Content-Encoding", lit "gzip")], none, []⟩⟩) o))
      (jsonAnswer lib (plainResp sink) (jsonHeaders (plainResp sink) ⟨[], none, []⟩) o) := by
    have := fun b => compressed_one hdec (v := ⟨(lit "Content-Encoding", lit "gzip") :: jsonHdr, none, []⟩)
      (v' := ⟨jsonHdr, none, []⟩) rfl rfl (c := 200) (H := jsonHdr) rfl rfl (by decide) b
    intro o
    cases o with
    | none => exact this _
    | some j => exact this _
  split at h1
  · rename_i hq
    rw [if_pos hq]
    obtain ⟨r, k1, k2⟩ := RunI_map h1
    refine ⟨(singleAnswer lib (plainResp sink) (jsonHeaders (plainResp sink) ⟨[], none, []⟩) r).1, ?_, ?_⟩
    · have := RunI_then_ret (singleAnswer lib (plainResp sink) (jsonHeaders (plainResp sink) ⟨[], none, []⟩)) k1
      have e : st = (singleAnswer lib (plainResp sink) (jsonHeaders (plainResp sink) ⟨[], none, []⟩) r).2 := by
        rw [show st = _ from congrArg Prod.snd k2]
        rcases r with _ | _ | _ <;> rfl
      rw [e]
      exact this
    · intro hst
      have k3 := congrArg Prod.fst k2
      have k4 := congrArg Prod.snd k2
      dsimp only at k3 k4
      rw [k3]
      rcases r with _ | y | _
      · exact compressed_one hdec (v := ⟨(lit "Content-Encoding", lit "gzip") ::
          [(lit "X-Tricorder-Media-Type", lit "tricorder.v1"),
          (lit "Content-Type", lit "text/plain; charset=utf-8"), (lit "X-Content-Type-Options", lit "nosniff")], _, []⟩)
          (v' := ⟨_, _, []⟩) rfl rfl (c := 404) (H := [(lit "X-Tricorder-Media-Type", lit "tricorder.v1"),
          (lit "Content-Type", lit "text/plain; charset=utf-8"), (lit "X-Content-Type-Options", lit "nosniff")])
          rfl rfl (by decide) (lit "404 Not Found\n")
      · exact key _
      · rw [hst] at k4; cases k4
  · rename_i hq
    rw [if_neg hq]
    obtain ⟨r, k1, k2⟩ := RunI_map h1
    refine ⟨(listAnswer lib (plainResp sink) (jsonHeaders (plainResp sink) ⟨[], none, []⟩) r).1, ?_, ?_⟩
    · have := RunI_then_ret (listAnswer lib (plainResp sink) (jsonHeaders (plainResp sink) ⟨[], none, []⟩)) k1
      have e : st = (listAnswer lib (plainResp sink) (jsonHeaders (plainResp sink) ⟨[], none, []⟩) r).2 := by
        rw [show st = _ from congrArg Prod.snd k2]
        rcases r with ⟨ms, _ | _ | _ | _⟩ <;> rfl
      rw [e]
      exact this
    · intro hst
      have k3 := congrArg Prod.fst k2
      have k4 := congrArg Prod.snd k2
      dsimp only at k3 k4
      rw [k3]
      rcases r with ⟨ms, _ | _ | _ | _⟩
      · exact key _
      · exact key _
      · rw [hst] at k4; cases k4
      · rw [hst] at k4; cases k4

/-- a compressor: everything is passed on as it is -/
def idZ : Compressor := ⟨Unit, (), fun _ x => ((), [x]), fun _ => []⟩

theorem idZ_stream (xs : List Str) : some (idZ.stream xs) = some xs.flatten := by
  have : ∀ g, (idZ.runs g xs).2 = xs := by
    induction xs with
    | nil => intro g; rfl
    | cons x xs ih => intro g; unfold Compressor.runs; simp only [ih]; rfl
  unfold Compressor.stream
  simp only [this]
  simp [idZ]

/-- **C67 (quality values)** A client that says that it does not want `gzip` gets it nevertheless. -/
theorem C67_q0 : ∃ (w : World) (s : State) (z : Compressor) (lib : JsonLib) (req : Req), Reachable w s ∧
    lit "gzip;q=0" ∈ commaParts req.accept ∧
    (answered ((gzipHandler z lib (plainResp sink) 20 req ⟨[], none, []⟩).run w s).2.1).2.get (lit "Content-Encoding") =
      lit "gzip" :=
  ⟨exW, exTextS, idZ, ⟨fun _ => [], fun _ => none, fun _ => none⟩, ⟨lit "/", fun _ => [], lit "identity,gzip;q=0"⟩,
    grown_reachable exTextS_grown, by decide +kernel, by decide +kernel⟩

/-- a compressed listing, and one that is not -/
example : (∀ xs, some (idZ.stream xs) = some xs.flatten) ∧
    (((gzipHandler idZ exLib (plainResp sink) 20 ⟨[47], fun _ => [], lit "gzip, deflate"⟩ ⟨[], none, []⟩).run exW
      exTextS).2.2 = .ok) ∧
    (((gzipHandler idZ exLib (plainResp sink) 20 ⟨[47], fun _ => [], lit "deflate"⟩ ⟨[], none, []⟩).run exW
      exTextS).2.1.hdr.get (lit "Content-Encoding") = []) := ⟨idZ_stream, by decide +kernel, by decide +kernel⟩

/-! ## C68 -/

/-- **C68 (pages)** Each answer of the page handler, with steps of everybody else in between, has status 200 and the security
headers; it is the text page, as `text/plain`, if `format` is `text`, and otherwise the HTML page, for the same steps; after an
error of the connection "Error in template" follows. -/
theorem C68_page {fm : Fmts} {wr : Writer W} {fuel : ℕ} {req : Req} {x : W} {h : List Ev} {v : Resp W} {st : Status}
    (hr : RunI w (pageHandler fm (plainResp wr) fuel req ⟨[], none, x⟩) s h s' (v, st)) :
    ∃ y st', (if req.form (lit "format") = lit "text"
        then RunI w (textEndpoint fm wr fuel req.path x) s h s' (y, st') ∧
          answered v = (200, pageHdr ++ [(lit "Content-Type", lit "text/plain")])
        else RunI w (htmlEndpoint fm wr req.path x) s h s' (y, st') ∧ answered v = (200, pageHdr)) ∧
      (∀ e, st' = .err e → st = .ok ∧ v.out = (wr.write y (lit "Error in template.\n")).1) ∧
      ((∀ e, st' ≠ .err e) → st = st' ∧ v.out = y) := by
  unfold pageHandler at hr
  obtain ⟨⟨v1, st1⟩, h1, h2⟩ := RunI_map hr
  have hend : ∀ H y, Conn H v1 y → answered v = (200, H) ∧
      (∀ e, st1 = .err e → st = .ok ∧ v.out = (wr.write y (lit "Error in template.\n")).1) ∧
      ((∀ e, st1 ≠ .err e) → st = st1 ∧ v.out = y) := by
    rintro H y ⟨rfl, rfl, hc⟩
    cases st1 with
    | err e =>
      obtain ⟨rfl, rfl⟩ := Prod.mk.inj h2
      refine ⟨?_, fun _ _ => ⟨rfl, rfl⟩, fun h => absurd rfl (h e)⟩
      unfold answered
      show (v1.writeHeader 200).sent.getD (200, (v1.writeHeader 200).hdr) = _
      unfold Resp.writeHeader
      rcases hc with hc | hc <;> simp [hc]
    | ok =>
      obtain ⟨rfl, rfl⟩ := Prod.mk.inj h2
      refine ⟨?_, fun _ h => (nomatch h), fun _ => ⟨rfl, rfl⟩⟩
      unfold answered
      rcases hc with hc | hc <;> simp [hc]
    | panic =>
      obtain ⟨rfl, rfl⟩ := Prod.mk.inj h2
      refine ⟨?_, fun _ h => (nomatch h), fun _ => ⟨rfl, rfl⟩⟩
      unfold answered
      rcases hc with hc | hc <;> simp [hc]
    | timeout =>
      obtain ⟨rfl, rfl⟩ := Prod.mk.inj h2
      refine ⟨?_, fun _ h => (nomatch h), fun _ => ⟨rfl, rfl⟩⟩
      unfold answered
      rcases hc with hc | hc <;> simp [hc]
  by_cases hq : req.form (lit "format") = lit "text"
  · rw [if_pos hq] at h1
    have hconn : Conn (pageHdr ++ [(lit "Content-Type", lit "text/plain")])
      ((plainResp wr).set (securityHeaders (plainResp wr) ⟨[], none, x⟩) (lit "Content-Type") (lit "text/plain")) x :=
      ⟨rfl, rfl, Or.inl rfl⟩
    obtain h3 | ⟨⟨y, st'⟩, ⟨h3, h4⟩, h5⟩ := (textEndpoint_same (conn_same _ wr) fm fuel req.path hconn).left h1
    · exact False.elim h3
    · dsimp only at h3 h4
      subst h4
      obtain ⟨k1, k2⟩ := hend _ y h3
      refine ⟨y, st1, ?_, k2⟩
      rw [if_pos hq]
      exact ⟨h5, k1⟩
  · rw [if_neg hq] at h1
    have hconn : Conn pageHdr (securityHeaders (plainResp wr) ⟨[], none, x⟩) x := ⟨rfl, rfl, Or.inl rfl⟩
    obtain h3 | ⟨⟨y, st'⟩, ⟨h3, h4⟩, h5⟩ := (htmlEndpoint_same (conn_same _ wr) fm req.path hconn).left h1
    · exact False.elim h3
    · dsimp only at h3 h4
      subst h4
      obtain ⟨k1, k2⟩ := hend _ y h3
      refine ⟨y, st1, ?_, k2⟩
      rw [if_neg hq]
      exact ⟨h5, k1⟩

/-- **C68 (marker)** The answer of `/has-tricorder-metrics`. -/
theorem C68_has (wr : Writer W) (x : W) : Sent wr x (hasTricorder (plainResp wr) ⟨[], none, x⟩) 200 pageHdr (lit "true") :=
  ⟨rfl, rfl⟩

theorem under_iff {pre path p : Str} : under pre path = some p ↔ path = pre ++ p ∧ ∃ q, p = 47 :: q := by
  unfold under
  split
  · rename_i h
    rw [List.isPrefixOf_iff_prefix] at h
    obtain ⟨t, rfl⟩ := h
    simp only [List.append_assoc, List.drop_left, Option.some.injEq, List.append_cancel_left_eq]
    constructor
    · rintro rfl; exact ⟨rfl, t, rfl⟩
    · rintro ⟨rfl, -⟩; rfl
  · rename_i h
    refine ⟨fun hn => (nomatch hn), ?_⟩
    rintro ⟨rfl, q, rfl⟩
    exact absurd (List.isPrefixOf_iff_prefix.mpr ⟨q, by simp⟩) h

/-- **C68 (routes)** The page at `path` is at the URL `/metrics` followed by `path`, the JSON answers are at `/metricsapi`
followed by `path`; no URL has two meanings. -/
theorem C68_routes (url path : Str) :
    (route url = some (.page path) ↔ url = lit "/metrics" ++ path ∧ ∃ q, path = 47 :: q) ∧
    (route url = some (.json path) ↔ url = lit "/metricsapi" ++ path ∧ ∃ q, path = 47 :: q) ∧
    (route url = some (.static path) ↔ url = lit "/metricsstatic" ++ path ∧ ∃ q, path = 47 :: q) ∧
    (route url = some .has ↔ url = lit "/has-tricorder-metrics") := by
  unfold route
  cases h1 : under (lit "/metrics") url with
  | some p =>
    obtain ⟨rfl, q, rfl⟩ := under_iff.mp h1
    refine ⟨?_, ?_, ?_, ?_⟩
    · simp only [Option.some.injEq, Route.page.injEq, List.append_cancel_left_eq]
      exact ⟨fun h => ⟨h, q, h.symm⟩, fun h => h.1⟩
    · simp [lit]
    · simp [lit]
    · simp [lit]
  | none =>
    have n1 : ¬ (url = lit "/metrics" ++ path ∧ ∃ q, path = 47 :: q) := fun h => by
      rw [under_iff.mpr h] at h1; cases h1
    cases h2 : under (lit "/metricsapi") url with
    | some p =>
      obtain ⟨rfl, q, rfl⟩ := under_iff.mp h2
      refine ⟨?_, ?_, ?_, ?_⟩
      · simpa using n1
      · simp only [Option.some.injEq, Route.json.injEq, List.append_cancel_left_eq]
        exact ⟨fun h => ⟨h, q, h.symm⟩, fun h => h.1⟩
      · simp [lit]
      · simp [lit]
    | none =>
      have n2 : ¬ (url = lit "/metricsapi" ++ path ∧ ∃ q, path = 47 :: q) := fun h => by
        rw [under_iff.mpr h] at h2; cases h2
      cases h3 : under (lit "/metricsstatic") url with
      | some p =>
        obtain ⟨rfl, q, rfl⟩ := under_iff.mp h3
        refine ⟨?_, ?_, ?_, ?_⟩
        · simpa using n1
        · simpa using n2
        · simp only [Option.some.injEq, Route.static.injEq, List.append_cancel_left_eq]
          exact ⟨fun h => ⟨h, q, h.symm⟩, fun h => h.1⟩
        · simp [lit]
      | none =>
        have n3 : ¬ (url = lit "/metricsstatic" ++ path ∧ ∃ q, path = 47 :: q) := fun h => by
          rw [under_iff.mpr h] at h3; cases h3
        simp only [n1, n2, n3, iff_false]
        split <;> simp_all

/-- a text page through the handler, and a connection that fails -/
example : ((pageHandler exFm (plainResp exWriter) 20 ⟨[108], fun _ => lit "text", []⟩ ⟨[], none, []⟩).run exW exTextS).2.1.out =
      lit "1.500000000|-0.000000003\n" ∧
    ((pageHandler exFm (plainResp (W := ℕ) ⟨fun n _ => (n + 1, some 7)⟩) 20 ⟨[108], fun _ => [], []⟩ ⟨[], none, 0⟩).run exW
      exTextS).2.1.out = 2 := ⟨by decide +kernel, by decide +kernel⟩

example : route (lit "/metrics/a/b") = some (.page (lit "/a/b")) ∧ route (lit "/metricsapi/") = some (.json (lit "/")) ∧
    route (lit "/metrics") = none := by decide +kernel

end Tricorder
