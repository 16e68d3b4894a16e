import Verif.Proof.Sim
import Verif.Props.Ex
/-!
# JSON answers are RPC answers, converted (C62)
-/

namespace Tricorder
open Go Spec

variable {w : World} {s s' : State}

theorem converted_mem {js rs : List Metric} (h : Converted₂ js rs) {x : Metric} (hx : x ∈ rs) :
    ∃ j, j ∈ js ∧ x.convertToJson = some j := by
  unfold Converted₂ at h
  induction h with
  | nil => cases hx
  | cons h1 _ ih =>
    rcases List.mem_cons.mp hx with rfl | hx
    · exact ⟨_, by simp, h1⟩
    · obtain ⟨j, h2, h3⟩ := ih hx
      exact ⟨j, by simp [h2], h3⟩

/-- **C62 (listings)** A JSON listing that does not panic is, for the same steps of everybody, the RPC listing with
`ConvertToJson` applied to each metric: the same metrics, values and time stamps in the same order, and it ends in
the same way. -/
theorem C62_list {fuel : ℕ} {path : Str} {h : List Ev} {js : List Metric} {st : Status}
    (hr : RunI w (listMetrics true fuel path) s h s' (js, st)) (hst : st ≠ .panic) :
    ∃ rs, RunI w (listMetrics false fuel path) s h s' (rs, st) ∧ Converted₂ js rs := by
  rcases (listMetrics_sim fuel path).left hr with h1 | ⟨⟨rs, st'⟩, ⟨h1, h2⟩, h3⟩
  · exact absurd h1 hst
  · dsimp only at h1 h2
    subst h2
    exact ⟨rs, h3, h1⟩

/-- **C62 (listings, converse)** Where RPC answers, JSON answers.

Partial: if the RPC answer has no list of times or durations in a slice of a declared type; with one, the JSON
listing panics, see `C62_list_alone` and `C62_named_false`. -/
theorem C62_list_converse_partial (hs : Reachable w s) {fuel : ℕ} {path : Str} {h : List Ev} {rs : List Metric}
    {st : Status} (hr : RunI w (listMetrics false fuel path) s h s' (rs, st)) (hn : ∀ x ∈ rs, ¬ NamedTimes x) :
    ∃ js, RunI w (listMetrics true fuel path) s h s' (js, st) ∧ Converted₂ js rs := by
  rcases (listMetrics_sim fuel path).right hr with ⟨x, h1, h2⟩ | ⟨⟨js, st'⟩, ⟨h1, h2⟩, h3⟩
  · exact absurd ((list_stuck hs hr x h1).mp h2) (hn x h1)
  · dsimp only at h1 h2
    subst h2
    exact ⟨js, h3, h1⟩

/-- **C62 (listings, alone)** Both listings of the same state: the JSON listing panics if the RPC listing has a list
of times or durations in a slice of a declared type, and otherwise it is the converted RPC listing. -/
theorem C62_list_alone (hs : Reachable w s) (fuel : ℕ) (path : Str) :
    ((∃ x ∈ ((listMetrics false fuel path).run w s).2.1, NamedTimes x) →
      ((listMetrics true fuel path).run w s).2.2 = .panic) ∧
    ((∀ x ∈ ((listMetrics false fuel path).run w s).2.1, ¬ NamedTimes x) →
      Converted₂ ((listMetrics true fuel path).run w s).2.1 ((listMetrics false fuel path).run w s).2.1 ∧
      ((listMetrics true fuel path).run w s).2.2 = ((listMetrics false fuel path).run w s).2.2) := by
  constructor
  · rintro ⟨x, hx, hn⟩
    obtain ⟨h, h1, h2⟩ := RunI_of_run (w := w) (listMetrics true fuel path) s
    rcases (listMetrics_sim fuel path).left h1 with h3 | ⟨b, ⟨h3, -⟩, h5⟩
    · exact h3
    · exfalso
      have h6 := run_of_RunI h5 h2
      obtain ⟨h', h1', -⟩ := RunI_of_run (w := w) (listMetrics false fuel path) s
      have h7 := (list_stuck hs h1' x hx).mpr hn
      rw [h6] at hx
      obtain ⟨j, -, h8⟩ := converted_mem h3 hx
      rw [h7] at h8
      cases h8
  · intro hn
    obtain ⟨h, h1, h2⟩ := RunI_of_run (w := w) (listMetrics false fuel path) s
    obtain ⟨js, h3, h4⟩ := C62_list_converse_partial hs h1 hn
    rw [run_of_RunI h3 h2]
    exact ⟨h4, rfl⟩

/-- **C62 (single metrics)** For the same steps of everybody, the answer to a JSON request for one metric goes with
the answer of `GetMetric`: both say "not found", or both panic, or the JSON metric is the converted one, or the JSON
request panics because the metric is a list of times or durations in a slice of a declared type. -/
theorem C62_get (hs : Reachable w s) {path : Str} {h : List Ev} {j : Option (Out Metric)}
    (hr : RunI w (getMetricMsg true path) s h s' j) :
    ∃ r, RunI w (getMetricMsg false path) s h s' r ∧ GetAgrees j r := by
  rcases (getMetricMsg_sim path).left hr with h1 | ⟨r, h1, h2⟩
  · exact h1.elim
  · refine ⟨r, h2, ?_⟩
    subst h1
    rcases r with _ | x | _
    · trivial
    · have hk := get_stuck hs h2
      cases hx : x.convertToJson with
      | none =>
        have := hk.mp hx
        simpa [encodeOut, encodeMetric, hx, GetAgrees] using this
      | some y =>
        have : ¬ NamedTimes x := fun hh => by rw [hk.mpr hh] at hx; cases hx
        simpa [encodeOut, encodeMetric, hx, GetAgrees] using this
    · trivial

/-- the converse: every answer of `GetMetric` goes with a JSON answer -/
theorem C62_get_converse (hs : Reachable w s) {path : Str} {h : List Ev} {r : Option (Out Metric)}
    (hr : RunI w (getMetricMsg false path) s h s' r) :
    ∃ j, RunI w (getMetricMsg true path) s h s' j ∧ GetAgrees j r := by
  rcases (getMetricMsg_sim path).right hr with h1 | ⟨j, h1, h2⟩
  · exact h1.elim
  · refine ⟨j, h2, ?_⟩
    subst h1
    rcases r with _ | x | _
    · trivial
    · have hk := get_stuck hs hr
      cases hx : x.convertToJson with
      | none =>
        have := hk.mp hx
        simpa [encodeOut, encodeMetric, hx, GetAgrees] using this
      | some y =>
        have : ¬ NamedTimes x := fun hh => by rw [hk.mpr hh] at hx; cases hx
        simpa [encodeOut, encodeMetric, hx, GetAgrees] using this
    · trivial

/-- the listing of the example state, in both forms: four metrics -/
example : ((listMetrics true 10 []).run exW exS).2.2 = .ok ∧ ((listMetrics true 10 []).run exW exS).2.1.length = 4 ∧
    ((listMetrics false 10 []).run exW exS).2.1.length = 4 := by decide +kernel

/-- `/l` is a list made from a slice of a declared type, like `type T []time.Duration` -/
def exNamed : State :=
  ((apiRegisterMetric exW.fnTy 0 nL (.list (some 0)) none .second []).run exW
    ([Cmd.newSlice ⟨some 3, .scalar ⟨none, .duration⟩, some [.duration 5], false⟩,
      .newList (.slice 0) true Time.zero].foldl (fun s c => (exec exW c s).1) State.init)).1

theorem exNamed_reachable : Reachable exW exNamed := by
  obtain ⟨h, h1, h2⟩ := RunI_of_run (w := exW) (apiRegisterMetric exW.fnTy 0 nL (.list (some 0)) none .second [])
    ([Cmd.newSlice ⟨some 3, .scalar ⟨none, .duration⟩, some [.duration 5], false⟩,
      .newList (.slice 0) true Time.zero].foldl (fun s c => (exec exW c s).1) State.init)
  have hs : Reachable exW _ := .step (.newList (.slice 0) true Time.zero)
    (.step (.newSlice ⟨some 3, .scalar ⟨none, .duration⟩, some [.duration 5], false⟩) .init trivial) trivial
  exact (RunI_reachable h1 hs (registerMetric_safe (fun _ hx => newPathSpec_comp hx) hs (by decide +kernel) h1)).2

/-- **C62 is false for declared slice types**: RPC lists and returns the metric, the JSON requests panic. -/
theorem C62_named_false : ∃ (w : World) (s : State) (path : Str), Reachable w s ∧
    ((listMetrics false 10 path).run w s).2.2 = .ok ∧ ((listMetrics true 10 path).run w s).2.2 = .panic ∧
    (∃ x, ((getMetricMsg false path).run w s).2 = some (.ok x)) ∧ ((getMetricMsg true path).run w s).2 = some .panic := by
  refine ⟨exW, exNamed, 47 :: nL, exNamed_reachable, by decide +kernel, by decide +kernel, ?_, by decide +kernel⟩
  have h : (match ((getMetricMsg false (47 :: nL)).run exW exNamed).2 with
    | some (.ok _) => true
    | _ => false) = true := by decide +kernel
  split at h
  · rename_i x hx; exact ⟨x, hx⟩
  · cases h

end Tricorder
