import Verif.Proof.Careful
import Verif.Props.Ex2
/-!
# C23, C24, C52, C58, C59: requests
-/

namespace Tricorder
open Go Spec Tree

variable {A : Type} {w : World} {s s' : State}

/-! ## C23 -/

theorem sameTime_of_listing (hs : Reachable w s) {json : Bool} {fuel : ℕ} {path : Str} {h : List Ev}
    {ms : List Metric} {st : Status} (hr : RunI w (listMetrics json fuel path) s h s' (ms, st)) {x y : Metric}
    (hx : x ∈ ms) (hy : y ∈ ms) (hg : x.groupId = y.groupId)
    (hset : Settled (fun τ => τ ∈ statesOf h s') x.groupId) : x.timeStamp = y.timeStamp := by
  obtain ⟨⟨U, sess, h1, -, h3, -, -⟩, -⟩ := listMetrics_run hs hr
  rw [h1] at hx hy
  obtain ⟨u, hu, rfl⟩ := List.mem_map.mp hx
  obtain ⟨u', hu', rfl⟩ := List.mem_map.mp hy
  obtain ⟨-, -, -, mv, y, -, b2, -, b4, b5, -⟩ := h3 u hu
  obtain ⟨-, -, -, mv', y', -, c2, -, c4, c5, -⟩ := h3 u' hu'
  have hre := (RunI_reads (listMetrics_reads _ _ _) hr hs).1
  have hok := reachable_idsOk (hre s' (by simp [statesOf]))
  have e1 := (encode_keeps b2).2.2
  have e2 := (encode_keeps c2).2.2
  refine encode_time b2 c2 (same_time hok (fun τ hτ => RunI_idsExt hr τ hτ) b4 b5 c4 c5 ?_ ?_)
  · rw [← e1, ← e2, hg]
  · rw [← e1]; exact hset

/-- **C23, partial.**  Full statement: in one listing, two metrics with the same group id have the same time stamp.
Proved for all interleavings in which no distribution or list with that group id changes its time stamp while the
listing runs; in particular for all metrics that are neither distributions nor lists.  What is missing is
false of the code, see `C23_false`. -/
theorem C23_same_time_partial (hs : Reachable w s) {json : Bool} {fuel : ℕ} {path : Str} {h : List Ev}
    {ms : List Metric} {st : Status} (hr : RunI w (listMetrics json fuel path) s h s' (ms, st)) :
    ∀ x ∈ ms, ∀ y ∈ ms, x.groupId = y.groupId → Settled (fun τ => τ ∈ statesOf h s') x.groupId →
      x.timeStamp = y.timeStamp :=
  fun _ hx _ hy hg hset => sameTime_of_listing hs hr hx hy hg hset

/-- two metrics, `a/b/m` and `a/f`, of the same group, whose time is changing during the listing -/
example : ∃ h s' ms st, RunI exW (listMetrics false 20 [47]) exS h s' (ms, st) ∧ st = .ok ∧
    ms.map Metric.groupId = [0, 0, 1, 2] := by
  have h : playsTo exW (listMetrics false 20 [47]) exSched exS
      (fun r => decide (r.2 = .ok ∧ r.1.map Metric.groupId = [0, 0, 1, 2])) = true := by decide +kernel
  obtain ⟨h, s', ⟨ms, st⟩, hr, hq⟩ := playsTo_run h
  exact ⟨h, s', ms, st, hr, of_decide_eq_true hq⟩

/-- **C23 (alone)** In a listing that is not interrupted two metrics with the same group id have the same time
stamp. -/
theorem C23_alone (hs : Reachable w s) (json : Bool) (fuel : ℕ) (path : Str) :
    ∀ x ∈ ((listMetrics json fuel path).run w s).2.1, ∀ y ∈ ((listMetrics json fuel path).run w s).2.1,
      x.groupId = y.groupId → x.timeStamp = y.timeStamp := by
  obtain ⟨h, hr, -, hst⟩ := RunI_alone (w := w) (listMetrics_reads json fuel path) s
  intro x hx y hy hg
  refine sameTime_of_listing hs (ms := ((listMetrics json fuel path).run w s).2.1)
    (st := ((listMetrics json fuel path).run w s).2.2) hr hx hy hg ⟨?_, ?_⟩
  · intro σ σ' i d d' h1 h2 h3 h4 _
    rw [hst σ h1] at h3
    rw [hst σ' h2, h3] at h4
    cases h4; rfl
  · intro σ σ' i d d' h1 h2 h3 h4 _
    rw [hst σ h1] at h3
    rw [hst σ' h2, h3] at h4
    cases h4; rfl

/-- the distribution of `d` is also registered as `e` -/
def exTwice : State := (exec exW (.storeMetric 0 [101] [] ⟨none, none, some 0, none, .dist, false, .second⟩) exS).1

theorem exTwice_reachable : Reachable exW exTwice := .step _ exS_reachable (by decide +kernel)

example : ((listMetrics false 20 [47]).run exW exTwice).2.1.map Metric.groupId = [0, 0, 1, 1, 2] := by
  decide +kernel

/-- **C23 is false of the code:** the same distribution registered at two paths, with an `Add` between the two
reads, is reported with the same group id and two time stamps. -/
theorem C23_false : ∃ (w : World) (s : State) (h : List Ev) (s' : State) (ms : List Metric), Reachable w s ∧
    RunI w (listMetrics false 20 [47]) s h s' (ms, .ok) ∧
    ∃ x ∈ ms, ∃ y ∈ ms, x.groupId = y.groupId ∧ x.timeStamp ≠ y.timeStamp := by
  have h : playsTo exW (listMetrics false 20 [47]) (List.replicate 16 [] ++
        [[.distCall 0 (.add (.scalar none (.float64 (.fin 1))) ⟨7, 0⟩)]]) exTwice
      (fun r => decide (r.2 = .ok ∧ ∃ x ∈ r.1, ∃ y ∈ r.1, x.groupId = y.groupId ∧ x.timeStamp ≠ y.timeStamp)) = true := by
    decide +kernel
  obtain ⟨h, s', ⟨ms, st⟩, hr, hq⟩ := playsTo_run h
  obtain ⟨h1, h2⟩ := of_decide_eq_true hq
  cases h1
  exact ⟨exW, exTwice, h, s', ms, exTwice_reachable, hr, h2⟩

/-! ## C24: groups -/

/-- **C24 (listings, RPC and JSON)** Every group that a listing takes is released once before it is taken again or
the listing ends, however it ends and whatever happens in between. -/
theorem C24_list {json : Bool} {fuel : ℕ} {path : Str} {h : List Ev} {res : List Metric × Status}
    (hr : RunI w (listMetrics json fuel path) s h s' res) (r : ℕ) : Paired (moves r h) :=
  balanced_paired (listMetrics_balanced json fuel path) hr r

/-- **C24 (GetMetric and singleton JSON)** -/
theorem C24_get {json : Bool} {path : Str} {h : List Ev} {res : Option (Out Metric)}
    (hr : RunI w (getMetricMsg json path) s h s' res) (r : ℕ) : Paired (moves r h) :=
  balanced_paired (getMetricMsg_balanced json path) hr r

/-- **C24 (text)** also when the writer fails -/
theorem C24_text {fm : Fmts} {W : Type} {wr : Writer W} {fuel : ℕ} {path : Str} {x : W} {h : List Ev}
    {res : W × Status} (hr : RunI w (textEndpoint fm wr fuel path x) s h s' res) (r : ℕ) : Paired (moves r h) :=
  balanced_paired (textEndpoint_balanced fm wr fuel path x) hr r

/-- **C24 (HTML)** -/
theorem C24_html {fm : Fmts} {W : Type} {wr : Writer W} {path : Str} {x : W} {h : List Ev}
    {res : W × Status} (hr : RunI w (htmlEndpoint fm wr path x) s h s' res) (r : ℕ) : Paired (moves r h) :=
  balanced_paired (htmlEndpoint_balanced fm wr path x) hr r

/-- **C24 (any collector)** A traversal releases what it takes if the collector uses groups only through the
session it is given. -/
theorem C24_collector {coll : Coll A} (hc : CollTrack coll) {fuel d : ℕ} {path : Str} {a : A} {h : List Ev}
    {res : A × Status} (hr : RunI w (getAllMetricsByPath coll fuel d path a) s h s' res) (r : ℕ) :
    Paired (moves r h) :=
  balanced_paired (getAllMetricsByPath_balanced hc fuel d path a) hr r

/-- the state with a callback that panics at `m` -/
def exPanics : State := (exec exW (.storeMetric 0 nM [] ⟨some (.fn 9), some 0, none, none, .int64, false, .none⟩) exS).1

/-- the steps of group 0 in a scheduled run -/
def movesOf {α : Type} (p : Prog α) (sched : List (List Cmd)) (s : State) (Q : α → Bool) : Option (List Bool) :=
  (playI exW p sched s).bind fun x => if Q x.2.2 then some (moves 0 x.1) else none

/-- a listing that is stopped by a panicking callback; a single metric; a page; a writer that fails -/
example : movesOf (listMetrics false 20 [47]) exSched exPanics (fun r => r.2 = .panic) = some [true, false] ∧
    movesOf (getMetricMsg true [109]) [] exPanics (fun r => r = some .panic) = some [true, false] ∧
    movesOf (htmlEndpoint ⟨fun _ => [], fun _ => [], fun _ => [], fun _ => [], fun _ => []⟩ exWriter [97] []) [] exS
      (fun r => r.2 = .ok) = some [true, false] ∧
    movesOf (textEndpoint ⟨fun _ => [], fun _ => [], fun _ => [], fun _ => [], fun _ => []⟩
      ⟨fun (x : ℕ) _ => (x + 1, if x = 3 then some 5 else none)⟩ 20 [97] 0) [] exS
      (fun r => r.2 = .err 5) = some [true, false] := by decide +kernel

/-! ## C52: infinite and NaN numbers -/

/-- **C52, partial.**  Full statement: no listing contains a scalar floating point metric whose reported value is
infinite or NaN, and so a JSON listing is always encodable.  Proved for all interleavings for every metric
whose source is either always or never infinite or NaN while the listing runs.  What is missing is false of the
code: `C52_false` and `C52_not_encodable`. -/
theorem C52_finite_partial (hs : Reachable w s) {json : Bool} {fuel : ℕ} {path : Str} {h : List Ev}
    {ms : List Metric} {st : Status} (hr : RunI w (listMetrics json fuel path) s h s' (ms, st)) :
    let S := fun τ => τ ∈ statesOf h s'
    ∃ U : List ((List Str × ℕ) × Metric), ms = U.map Prod.snd ∧
      ∀ u ∈ U, Seen S 0 u.1.1 u.1.2 ∧ u.2.path = 47 :: List.intercalate [47] u.1.1 ∧
        (u.2.kind.isFloat = true → Steady w S u.1.2 → ¬ OddFloat u.2.value) := by
  intro S
  obtain ⟨⟨U, sess, h1, h2, h3, h4, h5⟩, -⟩ := listMetrics_run hs hr
  refine ⟨U, h1, ?_⟩
  intro u hu
  obtain ⟨-, a2, a3, mv, y, ⟨σ, hσ, hm⟩, b2, b3, b4, b5, b6⟩ := h3 u hu
  refine ⟨a2, a3, ?_⟩
  intro hf hst ho
  obtain ⟨e1, e2⟩ := encode_float b2 hf
  have hk : mv.value.valType.isFloat = true := by rw [← b3.2.2.2.1, e1]; exact hf
  obtain ⟨sc, d, τ, c1, c2, c3, c4⟩ := b6 hk
  rw [← e2] at ho
  cases b4 with
  | dist g1 => rw [g1] at hk; cases hk
  | list g1 => rw [g1] at hk; cases hk
  | scalar g1 g2 g3 g4 g5 g6 =>
    rw [g3] at c1
    cases c1
    exact c4 ((hst σ mv sc hσ hm g3 τ _ d _ c2 g4 c3 g5).mpr (interface_odd hk g6 ho))

/-- **C52 (alone)** A listing that is not interrupted contains no infinite or NaN floating point metric. -/
theorem C52_alone (hs : Reachable w s) (json : Bool) (fuel : ℕ) (path : Str) :
    ∀ x ∈ ((listMetrics json fuel path).run w s).2.1, x.kind.isFloat = true → ¬ OddFloat x.value := by
  obtain ⟨h, hr, -, hst⟩ := RunI_alone (w := w) (listMetrics_reads json fuel path) s
  obtain ⟨U, h1, h2⟩ := C52_finite_partial hs (ms := ((listMetrics json fuel path).run w s).2.1)
    (st := ((listMetrics json fuel path).run w s).2.2) hr
  intro x hx
  rw [h1] at hx
  obtain ⟨u, hu, rfl⟩ := List.mem_map.mp hx
  refine fun hf => (h2 u hu).2.2 hf ?_
  intro σ mv sc _ _ _ σ₁ σ₂ d₁ d₂ k1 k2 k3 k4
  rw [hst σ₁ k1] at k3
  rw [hst σ₂ k2, k3] at k4
  cases k4
  exact Iff.rfl

/-- variables 1 and 2 are floating point numbers, 1 and +Inf, at `x` and `y`; the list `z` contains NaN -/
def exFloatCmds : List Cmd :=
  [.newVar (.scalar none (.float64 (.fin 1))), .newVar (.scalar none (.float64 (.inf false))),
   .storeMetric 0 [120] [] ⟨some (.var 1), some 0, none, none, .float64, false, .none⟩,
   .storeMetric 0 [121] [] ⟨some (.var 2), some 0, none, none, .float64, false, .none⟩,
   .newSlice ⟨none, .scalar ⟨none, .float64⟩, some [.float64 .nan], false⟩, .newList (.slice 2) true Time.zero,
   .storeMetric 0 [122] [] ⟨none, none, none, some 1, .list, false, .none⟩]

def exFloat : State := exFloatCmds.foldl (fun s c => (exec exW c s).1) exS

theorem exFloat_reachable : Reachable exW exFloat := by
  have h : play exW exFloatCmds exS = some exFloat := by
    have h : ∀ (cs : List Cmd) (s : State), (play exW cs s).isSome →
        play exW cs s = some (cs.foldl (fun s c => (exec exW c s).1) s) := by
      intro cs
      induction cs with
      | nil => intro s _; rfl
      | cons c cs ih =>
        intro s hs
        rw [play] at hs ⊢
        split at hs
        · rename_i hc; rw [if_pos hc]; exact ih _ hs
        · cases hs
    exact h _ _ (by decide +kernel)
  exact play_reachable h exS_reachable

/-- of `x` and `y` only `x` is listed -/
example : ((listMetrics true 20 [47]).run exW exFloat).2.1.map Metric.path = exZ ++ [[47, 120], [47, 122]] := by
  decide +kernel

/-- **C52 is false of the code:** the value is tested and then read again for the response; if it becomes
infinite in between, it is reported. -/
theorem C52_false : ∃ (w : World) (s : State) (h : List Ev) (s' : State) (ms : List Metric), Reachable w s ∧
    RunI w (listMetrics true 20 [120]) s h s' (ms, .ok) ∧ ∃ x ∈ ms, x.kind = .float64 ∧ OddFloat x.value := by
  have h : playsTo exW (listMetrics true 20 [120]) (List.replicate 5 [] ++
        [[.writeVar 1 (.scalar none (.float64 (.inf true)))]]) exFloat
      (fun r => decide (r.2 = .ok ∧ ∃ x ∈ r.1, x.kind = .float64 ∧
        x.value = .scalar none (.float64 (.inf true)))) = true := by
    decide +kernel
  obtain ⟨h, s', ⟨ms, st⟩, hr, hq⟩ := playsTo_run h
  obtain ⟨h1, x, h2, h3, h4⟩ := of_decide_eq_true hq
  cases h1
  exact ⟨exW, exFloat, h, s', ms, exFloat_reachable, hr, x, h2, h3, by rw [h4]; exact Or.inl rfl⟩

/-- **C52 is false of the code:** the elements of lists are not tested; a JSON listing can contain a list with NaN,
which `encoding/json` rejects. -/
theorem C52_not_encodable : ∃ (w : World) (s : State), Reachable w s ∧
    ∃ x ∈ ((listMetrics true 20 [47]).run w s).2.1, x.value = .slice none ⟨none, .float64⟩ (some [.float64 .nan]) :=
  ⟨exW, exFloat, exFloat_reachable, by decide +kernel⟩

/-! ## C58: requests only read -/

theorem own_keeps {α : Type} {p : Prog α} (hp : OnlyReads p) {h : List Ev} {a : α} (hr : RunI w p s h s' a) :
    ∀ e ∈ h, e.own = true → (exec w e.cmd e.pre).1 = e.pre := fun e he ho =>
  exec_reads (RunI_all hp hr e he ho) e.pre

/-- **C58 (listings)** No step of a listing changes anything. -/
theorem C58_list {json : Bool} {fuel : ℕ} {path : Str} {h : List Ev} {res : List Metric × Status}
    (hr : RunI w (listMetrics json fuel path) s h s' res) :
    ∀ e ∈ h, e.own = true → (exec w e.cmd e.pre).1 = e.pre := own_keeps (listMetrics_reads _ _ _) hr

/-- **C58 (GetMetric)** -/
theorem C58_get {json : Bool} {path : Str} {h : List Ev} {res : Option (Out Metric)}
    (hr : RunI w (getMetricMsg json path) s h s' res) :
    ∀ e ∈ h, e.own = true → (exec w e.cmd e.pre).1 = e.pre := own_keeps (getMetricMsg_reads _ _) hr

/-- **C58 (text)** -/
theorem C58_text {fm : Fmts} {W : Type} {wr : Writer W} {fuel : ℕ} {path : Str} {x : W} {h : List Ev}
    {res : W × Status} (hr : RunI w (textEndpoint fm wr fuel path x) s h s' res) :
    ∀ e ∈ h, e.own = true → (exec w e.cmd e.pre).1 = e.pre := own_keeps (textEndpoint_reads _ _ _ _ _) hr

/-- **C58 (HTML)** -/
theorem C58_html {fm : Fmts} {W : Type} {wr : Writer W} {path : Str} {x : W} {h : List Ev}
    {res : W × Status} (hr : RunI w (htmlEndpoint fm wr path x) s h s' res) :
    ∀ e ∈ h, e.own = true → (exec w e.cmd e.pre).1 = e.pre := own_keeps (htmlEndpoint_reads _ _ _ _) hr

/-- a listing with 20 steps of its own and 5 of others -/
example : (playI exW (listMetrics false 20 [47]) exSched exS).map (fun x => (x.1.filter Ev.own).length) = some 20 ∧
    (playI exW (listMetrics false 20 [47]) exSched exS).map (fun x => x.1.length) = some 25 := by decide +kernel

/-! ## C59: sources are read while the group is held -/

/-- **C59 (listings, RPC and JSON)** -/
theorem C59_list {json : Bool} {fuel : ℕ} {path : Str} {h : List Ev} {res : List Metric × Status}
    (hr : RunI w (listMetrics json fuel path) s h s' res) :
    ReadsHolding (fun τ => τ ∈ statesOf h s') h := tidy_reads (listMetrics_tidy _ _ _) hr

/-- **C59 (GetMetric and singleton JSON)** -/
theorem C59_get {json : Bool} {path : Str} {h : List Ev} {res : Option (Out Metric)}
    (hr : RunI w (getMetricMsg json path) s h s' res) :
    ReadsHolding (fun τ => τ ∈ statesOf h s') h := tidy_reads (getMetricMsg_tidy _ _) hr

/-- **C59 (HTML)** -/
theorem C59_html {fm : Fmts} {W : Type} {wr : Writer W} {path : Str} {x : W} {h : List Ev}
    {res : W × Status} (hr : RunI w (htmlEndpoint fm wr path x) s h s' res) :
    ReadsHolding (fun τ => τ ∈ statesOf h s') h := tidy_reads (htmlEndpoint_tidy _ _ _ _) hr

/-- **C59 (text), partial.**  Full statement: the text endpoint holds the group too.  Proved for the traversal of a
directory, which is all it does for a path that denotes one (`C55_text`).  For a single metric it is false of
the code, see `C59_text_false`. -/
theorem C59_text_partial {fm : Fmts} {W : Type} {wr : Writer W} {fuel d : ℕ} {x : W} {h : List Ev}
    {res : W × Status} (hr : RunI w (getAllMetrics (textColl fm wr) fuel d x) s h s' res) :
    ReadsHolding (fun τ => τ ∈ statesOf h s') h := tidy_reads (getAllMetrics_tidy (textColl_careful _ _) _ _ _) hr

/-- the reads and the moves of group 0, in order -/
def exTrace {α : Type} (p : Prog α) : Option (List (Option Src ⊕ Bool)) :=
  (playI exW p [] exS).map fun x => x.1.flatMap fun e =>
    (match readsSource e.cmd with | some sc => [.inl (some sc)] | none => []) ++ (moves 0 [e]).map .inr

/-- a listing takes the group, reads the variable and the callback, and then releases the group -/
example : exTrace (listMetrics false 20 [47]) =
    some [.inr true, .inl (some (.var 0)), .inl (some (.fn 0)), .inr false] := by decide +kernel

def exFmts : Fmts := ⟨fun _ => [], fun _ => [], fun _ => [], fun _ => [], fun _ => []⟩

example : exTrace (textEndpoint exFmts exWriter 20 [97] []) =
    some [.inr true, .inl (some (.var 0)), .inl (some (.fn 0)), .inr false] := by decide +kernel

/-- the group that a step of the request takes or releases -/
def groupMove (e : Ev) : Option (ℕ × Bool) := match e.own, e.cmd with
  | true, .rlock r => some (r, true)
  | true, .runlock r => some (r, false)
  | _, _ => none

theorem moves_eq (r : ℕ) (h : List Ev) :
    moves r h = (h.filterMap groupMove).filterMap fun x => if x.1 = r then some x.2 else none := by
  induction h with
  | nil => rfl
  | cons e h ih =>
    obtain ⟨o, c, σ⟩ := e
    cases o with
    | false => cases c <;> exact ih
    | true =>
      cases c with
      | rlock r' =>
        by_cases hr : r' = r
        · simp [moves, groupMove, hr, ih]
        · simp [moves, groupMove, hr, ih]
      | runlock r' =>
        by_cases hr : r' = r
        · simp [moves, groupMove, hr, ih]
        · simp [moves, groupMove, hr, ih]
      | _ => exact ih

/-- **C59 is false of the code for a single metric in the text endpoint:** `evaluate` without a session releases the
group and returns a reference to the variable, which is read afterwards. -/
theorem C59_text_false : ∃ (w : World) (s s' : State) (h : List Ev) (res : Str × Status), Reachable w s ∧
    RunI w (textEndpoint exFmts exWriter 20 [97, 47, 98, 47, 109] []) s h s' res ∧ res = (lit "5\n", .ok) ∧
    ∃ before e after, h = before ++ e :: after ∧ e.own = true ∧ readsSource e.cmd = some (.var 0) ∧
      ∀ r, ¬ Taken r before := by
  have hp : ∃ h s' res, playI exW (textEndpoint exFmts exWriter 20 [97, 47, 98, 47, 109] []) [] exS = some (h, s', res) ∧
      res = (lit "5\n", .ok) := by
    have h1 : (playI exW (textEndpoint exFmts exWriter 20 [97, 47, 98, 47, 109] []) [] exS).map (fun x => x.2.2) =
        some (lit "5\n", .ok) := by decide +kernel
    obtain ⟨⟨h, s', res⟩, h2, h3⟩ := Option.map_eq_some_iff.mp h1
    exact ⟨h, s', res, h2, h3⟩
  obtain ⟨h, s', res, hp, hres⟩ := hp
  refine ⟨exW, exS, s', h, res, exS_reachable, playI_run hp, hres, ?_⟩
  have h4 : (playI exW (textEndpoint exFmts exWriter 20 [97, 47, 98, 47, 109] []) [] exS).map (fun x =>
      (x.1.length, (x.1.take 6).filterMap groupMove, x.1[6]?.map Ev.own, x.1[6]?.bind fun e => readsSource e.cmd)) =
      some (7, [(0, true), (0, false)], some true, some (.var 0)) := by decide +kernel
  rw [hp] at h4
  simp only [Option.map_some, Option.some.injEq, Prod.mk.injEq] at h4
  obtain ⟨h5, h6, h7, h8⟩ := h4
  have hlen : 6 < h.length := by omega
  rw [List.getElem?_eq_getElem hlen] at h7 h8
  refine ⟨h.take 6, h[6], h.drop 7, ?_, by simpa using h7, by simpa using h8, ?_⟩
  · rw [← List.drop_eq_getElem_cons hlen, List.take_append_drop]
  · intro r hr
    unfold Taken at hr
    rw [moves_eq, h6] at hr
    by_cases h0 : 0 = r <;> simp [h0] at hr

end Tricorder
