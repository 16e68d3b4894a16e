import Verif.Proof.Cost2
import Verif.Props.Often
/-!
# C103: how much work a request is

`ownSteps h` is the number of steps that the request itself takes: looking up a name in a directory, listing a directory, describing a
metric, taking or releasing a group, asking the application for a value, copying a list or a distribution.
-/

namespace Tricorder
open Go Spec Tree

variable {w : World} {s s' : State} {h : List Ev}

theorem withSession_parts {A : Type} {body : Session → Prog (Session × A × Status)} {σ σ' : State} {r : A × Status}
    {V : ℕ → Option MetricView} (hV : ∀ e ∈ h, ∀ m mv, metricView e.pre.tree m = some mv → V m = some mv)
    (hr : RunI w (withSession body) σ h σ' r) :
    ∃ h1 h2 σ1 x, h = h1 ++ h2 ∧ RunI w (body []) σ h1 σ1 x ∧ dirsListed h2 = [] := by
  obtain ⟨h1, σ1, x, h2, rfl, r1, r2⟩ := RunI_bind hr
  refine ⟨h1, h2, σ1, x, rfl, r1, ?_⟩
  refine dirsListed_none (V := V) r2 (fun e he => hV e (by simp [he])) (Q := fun _ _ => True) ?_
  exact Costs.bind ((close_costs _).mono fun n l _ h => ⟨by simp [h.1], trivial⟩)

/-- a lookup, followed by a traversal or by something that lists no directory -/
theorem lookup_once {A : Type} {coll : Coll A} {fuel : ℕ} {path : Str} {a : A} {T : Tree MValue} {S : State → Prop} (hT : IsTree T)
    (hS : ∀ τ, S τ → IsTree τ.tree ∧ Ext τ.tree T) (hc : CollCosts (metricView T) coll) {K : Option ℕ × Option ℕ → Prog (A × Status)}
    (hK1 : ∀ d, K (some d, none) = withSession fun se => traverse coll fuel d se a)
    (hK2 : ∀ o, Costs (metricView T) (K (none, o)) fun _ l _ => l = 0 ∧ True) {r : A × Status}
    (hr : RunI w ((lookupPath 0 path).bind K) s h s' r) (hh : ∀ e ∈ h, S e.pre) :
    (dirsListed h).Nodup ∧ entriesFound h ≤ T.entries.length := by
  have hV : ∀ e ∈ h, ∀ m mv, metricView e.pre.tree m = some mv → metricView T m = some mv := fun e he m mv hm =>
    metricView_ext (hS _ (hh e he)).1 hT (hS _ (hh e he)).2 hm
  have hn : (dirsListed h).Nodup := by
    obtain ⟨h1, s1, x, h2, rfl, r1, r2⟩ := RunI_bind hr
    have e1 : dirsListed h1 = [] := dirsListed_none r1 (fun e he => hV e (by simp [he])) (lookupPath_costs 0 path)
    rw [dirsListed_append, e1, List.nil_append]
    rcases lookup_seen hT hS r1 (fun e he => hh e (by simp [he])) with ⟨d, rfl, a1, -⟩ | ⟨m, rfl, -⟩ | ⟨rfl, -⟩
    · rw [hK1] at r2
      obtain ⟨g1, g2, σ1, x, rfl, r3, h4⟩ := withSession_parts (fun e he => hV e (by simp [he])) r2
      rw [dirsListed_append, h4, List.append_nil]
      exact (traverse_once hT hS hc (seenDir_trail hS a1 hT.rootIn hT) r3 fun e he => hh e (by simp [he])).1
    · rw [dirsListed_none r2 (fun e he => hV e (by simp [he])) (hK2 _)]
      exact List.nodup_nil
    · rw [dirsListed_none r2 (fun e he => hV e (by simp [he])) (hK2 _)]
      exact List.nodup_nil
  refine ⟨hn, ?_⟩
  rw [entriesFound_listings]
  refine found_le hT hS (fun x hx => ?_) (by rw [listings_fst]; exact hn)
  obtain ⟨e, he, hx⟩ := listings_mem hx
  rw [← hx]
  exact hh e he

/-- **C103 (listings)** `ReadMyMetrics`, and `ListMetrics` over RPC and as JSON, whatever other goroutines do meanwhile: the number of
steps is at most the number of components of the path and seven for every entry found in the directories listed, plus seven.  No
directory is listed twice, so that the entries found are not more than the entries that there are. -/
theorem C103_listing (hs : Reachable w s) {json : Bool} {fuel : ℕ} {path : Str} {c : List Str} (hc : Components path c)
    {r : List Metric × Status} (hr : RunI w (listMetrics json fuel path) s h s' r) :
    ownSteps h ≤ c.length + 7 * (entriesFound h + 1) ∧ (dirsListed h).Nodup ∧ entriesFound h ≤ s'.tree.entries.length := by
  obtain ⟨hT, hS, hh, hV⟩ := run_fits (listMetrics_reads _ _ _) hs hr
  obtain ⟨l, -, h1, h2⟩ := costs_run hr hV (getAllMetricsByPath_costs (msgColl_costs json) fuel 0 path [])
  rw [← C01_components_unique hc] at h2
  refine ⟨by omega, lookup_once hT hS (msgColl_costs json) (fun d => rfl) (fun o => ?_) hr hh⟩
  rcases o with _ | m
  · exact ⟨rfl, trivial⟩
  · refine Costs.bind ((collect_costs (msgColl_costs json) m [] []).mono fun n l r h => ?_)
    exact Costs.bind ((close_costs _).mono fun n' l' _ h' => ⟨by simp [h.1, h'.1], trivial⟩)

/-- **C103 (text)** the text page, for a directory, a metric or a path with nothing -/
theorem C103_text (hs : Reachable w s) {fm : Fmts} {W : Type} {wr : Writer W} {x : W} {fuel : ℕ} {path : Str} {c : List Str}
    (hc : Components path c) {r : W × Status} (hr : RunI w (textEndpoint fm wr fuel path x) s h s' r) :
    ownSteps h ≤ c.length + 7 * (entriesFound h + 1) ∧ (dirsListed h).Nodup ∧ entriesFound h ≤ s'.tree.entries.length := by
  obtain ⟨hT, hS, hh, hV⟩ := run_fits (textEndpoint_reads _ _ _ _ _) hs hr
  obtain ⟨l, -, h1, h2⟩ := costs_run hr hV (textEndpoint_costs fm wr fuel path x)
  rw [← C01_components_unique hc] at h2
  refine ⟨by omega, lookup_once hT hS (textColl_costs fm wr) (fun d => rfl) (fun o => ?_) hr hh⟩
  rcases o with _ | m
  · exact ⟨rfl, trivial⟩
  · intro r _
    rcases r with _ | mv
    · exact ⟨rfl, trivial⟩
    · exact Costs.bind ((textEmitMetric_costs_alone fm wr mv x).mono fun n l r h => ⟨by simp [h.1, foundIn], trivial⟩)

/-- **C103 (HTML)** the HTML page shows one directory, so that it lists no other one -/
theorem C103_html (hs : Reachable w s) {fm : Fmts} {W : Type} {wr : Writer W} {x : W} {path : Str} {c : List Str}
    (hc : Components path c) {r : W × Status} (hr : RunI w (htmlEndpoint fm wr path x) s h s' r) :
    ownSteps h ≤ c.length + 4 * (entriesFound h + 1) ∧ (dirsListed h).length ≤ 1 := by
  obtain ⟨hT, hS, hh, hV⟩ := run_fits (htmlEndpoint_reads _ _ _ _) hs hr
  obtain ⟨l, h0, h1, h2, h3⟩ := costs_run hr hV (htmlEndpoint_costs fm wr path x)
  rw [← C01_components_unique hc] at h2
  exact ⟨by omega, by omega⟩

/-- **C103 (one metric)** asking for one metric, over RPC or as JSON, takes a number of steps that does not depend on how many metrics
there are: at most the number of components of the path and five -/
theorem C103_metric (hs : Reachable w s) {json : Bool} {path : Str} {c : List Str} (hc : Components path c)
    {r : Option (Out Metric)} (hr : RunI w (getMetricMsg json path) s h s' r) :
    ownSteps h ≤ c.length + 5 ∧ dirsListed h = [] := by
  obtain ⟨hT, hS, hh, hV⟩ := run_fits (getMetricMsg_reads _ _) hs hr
  obtain ⟨l, h0, h1, h2, h3⟩ := costs_run hr hV (getMetricMsg_costs json path)
  rw [← C01_components_unique hc] at h3
  exact ⟨by omega, dirsListed_none hr hV (getMetricMsg_costs json path)⟩

/-- the bounds are met: one metric with a group costs seven steps in a listing and five by itself, beside the two of the lookup -/
example :
    ownSteps (ownTrace exW (listMetrics false 20 (lit "/a/x")) exOftenS) = 2 + 7 * (0 + 1) ∧
    ownSteps (ownTrace exW (getMetricMsg true (lit "/a/x")) exOftenS) = 2 + 5 ∧
    ownSteps (ownTrace exW (listMetrics false 20 [47]) exOftenS) = 21 ∧
    entriesFound (ownTrace exW (listMetrics false 20 [47]) exOftenS) = 6 ∧
    dirsListed (ownTrace exW (listMetrics false 20 [47]) exOftenS) = [0, 1] ∧
    dirsListed (ownTrace exW (htmlEndpoint exFm exWriter (lit "a") []) exOftenS) = [1] := by
  decide +kernel

example : RunI exW (listMetrics false 20 (lit "/a/x")) exOftenS (ownTrace exW (listMetrics false 20 (lit "/a/x")) exOftenS)
    ((listMetrics false 20 (lit "/a/x")).run exW exOftenS).1 ((listMetrics false 20 (lit "/a/x")).run exW exOftenS).2 :=
  ownTrace_run _ _

end Tricorder
