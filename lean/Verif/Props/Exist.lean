import Verif.Props.Http
/-!
# C55: what the endpoints say about paths

(The statements about `GetMetric` and the text endpoint alone are in `Verif.Props.Listing`.)
-/

namespace Tricorder
open Go Spec Tree

variable {w : World} {s s' : State} {W : Type}

/-- **C55 (status)** A request for a single metric is answered with 404 exactly if the path does not denote a metric, and exactly
if `GetMetric` of the RPC server says the same. -/
theorem C55_status (hs : Reachable w s) (lib : JsonLib) (wr : Writer W) (fuel : ℕ) {req : Req} (x : W)
    (hq : req.form (lit "singleton") ≠ []) {c : List Str} (hc : Components req.path c) :
    let res := ((jsonHandler lib (plainResp wr) fuel req ⟨[], none, x⟩).run w s).2
    ((∃ hdr, res.1.sent = some (404, hdr)) ↔ ∀ m, ¬ Reaches s.tree 0 c (.metric m)) ∧
    ((∃ hdr, res.1.sent = some (404, hdr)) ↔ ((getMetricMsg false req.path).run w s).2 = none) := by
  intro res
  have key : (∃ hdr, res.1.sent = some (404, hdr)) ↔ ((getMetricMsg true req.path).run w s).2 = none := by
    have hres : res = singleAnswer lib (plainResp wr) (jsonHeaders (plainResp wr) ⟨[], none, x⟩)
        ((getMetricMsg true req.path).run w s).2 := by
      show ((jsonHandler lib (plainResp wr) fuel req ⟨[], none, x⟩).run w s).2 = _
      unfold jsonHandler
      rw [if_pos hq, run_bind]
      rfl
    rw [hres]
    rcases ((getMetricMsg true req.path).run w s).2 with _ | y | _
    · exact ⟨fun _ => rfl, fun _ => ⟨_, rfl⟩⟩
    · refine ⟨fun ⟨hdr, h⟩ => ?_, fun h => (nomatch h)⟩
      have := (sent_answer lib wr x (jsonMetric lib y)).1
      rw [show (singleAnswer lib (plainResp wr) (jsonHeaders (plainResp wr) ⟨[], none, x⟩) (some (.ok y))).1 =
        jsonAnswer lib (plainResp wr) (jsonHeaders (plainResp wr) ⟨[], none, x⟩) (jsonMetric lib y) from rfl, this] at h
      simp at h
    · exact ⟨fun ⟨hdr, h⟩ => (nomatch h), fun h => (nomatch h)⟩
  exact ⟨key.trans (C55_get_metric hs true hc), key.trans ((C55_get_metric hs true hc).trans (C55_get_metric hs false hc).symm)⟩

/-- **C55 (listings)** A listing of a path that denotes nothing is empty, with RPC and with JSON (status 200), and no error. -/
theorem C55_missing (hs : Reachable w s) (lib : JsonLib) (wr : Writer W) (fuel : ℕ) {req : Req} (x : W)
    (hq : req.form (lit "singleton") = []) {c : List Str} (hc : Components req.path c) (hno : ∀ n, ¬ Reaches s.tree 0 c n) :
    let res := ((jsonHandler lib (plainResp wr) fuel req ⟨[], none, x⟩).run w s).2
    (listMetrics false fuel req.path).run w s = (s, ([], .ok)) ∧ res.2 = .ok ∧ Sent wr x res.1 200 jsonHdr (lib.text (.arr [])) := by
  intro res
  have hres : res = listAnswer lib (plainResp wr) (jsonHeaders (plainResp wr) ⟨[], none, x⟩)
      ((listMetrics true fuel req.path).run w s).2 := by
    show ((jsonHandler lib (plainResp wr) fuel req ⟨[], none, x⟩).run w s).2 = _
    unfold jsonHandler
    rw [if_neg (by simp [hq]), run_bind]
    rfl
  refine ⟨C10_missing_path hs false fuel hc hno, ?_⟩
  rw [hres, C10_missing_path hs true fuel hc hno]
  exact ⟨rfl, sent_answer lib wr x (jsonList lib [])⟩

theorem sink_out (x : Str) (cs : List Str) : sink.all x cs = (x ++ cs.flatten, .ok) := by
  induction cs generalizing x with
  | nil => simp [Writer.all]
  | cons c cs ih => rw [Writer.all]; simp only [sink] at ih ⊢; rw [ih]; simp

/-- the text of one metric is empty or ends with a line feed -/
theorem emit_lf (fm : Fmts) (mv : MetricView) (so : Option Session) (x : Str) :
    Rets (fun r : Option Session × Str × Status => r.2.1 = x ∨ ∃ t, r.2.1 = x ++ t ++ [10]) (textEmitMetric fm sink mv so x) := by
  have hl : ∀ (cs : List Str) (c : Str), (∃ t, (sink.all x (cs ++ [c ++ [10]])).1 = x ++ t ++ [10]) := by
    intro cs c
    exact ⟨cs.flatten ++ c, by rw [sink_out]; simp⟩
  unfold textEmitMetric
  split
  · split
    · exact .ret (Or.inl rfl)
    · refine .op fun r => ?_
      cases r with
      | none => exact .ret (Or.inl rfl)
      | some d => exact .ret (Or.inr (hl (_ :: _) (lit "}")))
  · split
    · split
      · exact .ret (Or.inl rfl)
      · refine .op fun r => ?_
        cases r with
        | none => exact .ret (Or.inl rfl)
        | some d =>
          dsimp only
          split
          · exact .ret (Or.inl rfl)
          · exact .ret (Or.inr (hl [] _))
    · refine (Rets.any _).bind ?_
      rintro ⟨so', _ | _⟩ -
      · exact .ret (Or.inr (hl [] _))
      · exact .ret (Or.inl rfl)

theorem view_slash {t : Tree MValue} {m : ℕ} {mv : MetricView} (h : metricView t m = some mv) : ∃ p, mv.path = 47 :: p := by
  unfold metricView at h
  split at h
  · rename_i mo p h1 h2
    cases h
    unfold Tree.metricAbsPath at h2
    rw [h1] at h2
    obtain ⟨q, -, rfl⟩ := Option.map_eq_some_iff.mp h2
    exact ⟨_, rfl⟩
  · cases h

/-- nothing, or something that begins with a slash -/
def Slashed (x : Str) : Prop := x = [] ∨ ∃ r, x = 47 :: r

theorem slashed_append {x : Str} (h : Slashed x) {p : Str} : Slashed (x ++ 47 :: p) := by
  rcases h with rfl | ⟨r, rfl⟩
  · exact Or.inr ⟨p, rfl⟩
  · exact Or.inr ⟨r ++ 47 :: p, rfl⟩

theorem slashed_more {y : Str} (h : ∃ r, y = 47 :: r) (t : Str) : Slashed (y ++ t) := by
  obtain ⟨r, rfl⟩ := h
  exact Or.inr ⟨r ++ t, rfl⟩

theorem collect_slashed (fm : Fmts) {m : ℕ} {se : Session} {a : Str} {σ σ' : State} {h : List Ev} {r : Session × Str × Status}
    (hr : RunI w (collect (textColl fm sink) m se a) σ h σ' r) (ha : Slashed a) : Slashed r.2.1 := by
  obtain ⟨-, s1, h2, -, -, hr⟩ := RunI_op hr
  cases hv : (exec w (.metric m) s1).2 with
  | none => rw [hv] at hr; rw [← (RunI_ret hr).1]; exact ha
  | some mv =>
    rw [hv] at hr
    obtain ⟨_, _, ⟨s', o⟩, _, -, -, hr⟩ := RunI_bind hr
    rcases o with b | _
    · cases b with
      | true => rw [← (RunI_ret hr).1]; exact ha
      | false =>
        obtain ⟨-, s2, _, -, -, hr⟩ := RunI_op hr
        cases hv2 : (exec w (.metric m) s2).2 with
        | none => rw [hv2] at hr; rw [← (RunI_ret hr).1]; exact ha
        | some mv =>
          rw [hv2] at hr
          obtain ⟨p, hp⟩ := view_slash (t := s2.tree) (m := m) (mv := mv) hv2
          obtain ⟨_, _, q, _, -, he, hr⟩ := RunI_bind hr
          rw [← (RunI_ret hr).1]
          have hx : ∃ y, a ++ (mv.path ++ [32]) = 47 :: y := by
            rw [hp]
            rcases ha with rfl | ⟨r, rfl⟩ <;> exact ⟨_, rfl⟩
          rcases (emit_lf fm mv _ _).runI he with h | ⟨t, h⟩
          · rw [h]
            obtain ⟨y, hy⟩ := hx
            exact Or.inr ⟨y, hy⟩
          · rw [h, List.append_assoc]
            exact slashed_more hx _
    · rw [← (RunI_ret hr).1]; exact ha

theorem calls_slashed (fm : Fmts) {H : List Ev} {V : List ℕ} {se : Session} {a : Str} {se' : Session} {a' : Str} {st : Status}
    (hc : Calls w (textColl fm sink) H V se a se' a' st) (ha : Slashed a) : Slashed a' := by
  induction hc with
  | done => exact ha
  | timeout => exact ha
  | more _ hr _ ih => exact ih (collect_slashed fm hr ha)
  | stop _ hr _ _ => exact collect_slashed fm hr ha

/-- **C55 (text, exact)** The text page reads `*Path does not exist.*` exactly if the path denotes neither a metric nor a
directory, whatever the values of the metrics are. -/
theorem C55_text_exact (hs : Reachable w s) (fm : Fmts) (fuel : ℕ) {path : Str} {c : List Str} (hc : Components path c) :
    ((textEndpoint fm sink fuel path []).run w s).2.1 = lit "*Path does not exist.*" ↔ ∀ n, ¬ Reaches s.tree 0 c n := by
  obtain ⟨h1, h2, h3⟩ := C55_text hs fm sink fuel [] hc
  have ht := reachable_isTree hs
  refine ⟨fun h n hn => ?_, fun h => by rw [h1 h]; rfl⟩
  cases n with
  | dir d =>
    have e1 : (textEndpoint fm sink fuel path []).run w s = (getAllMetricsByPath (textColl fm sink) fuel 0 path []).run w s := by
      rw [h2 d hn]
      unfold getAllMetricsByPath
      rw [run_bind]
      have hl : (lookupPath 0 path).run w s = (s, (some d, none)) := by
        unfold lookupPath
        rw [getDirectoryOrMetric_run ht, ← C01_components_unique hc, (resolve_iff ht).mpr hn]
      rw [hl]
    obtain ⟨L, hL⟩ := canonical_exists ht c
    obtain ⟨V, _, _, -, -, v3, -⟩ := C12_prefix (w := w) hs (coll := textColl fm sink) (textColl_reads fm sink)
      (fuel := fuel) [] hc hL
    have hsl := calls_slashed fm v3 (Or.inl rfl)
    rw [← e1, h] at hsl
    rcases hsl with h | ⟨r, h⟩ <;> exact absurd h (by simp [lit])
  | metric m =>
    obtain ⟨mv, -, h4⟩ := h3 m hn
    rw [h4] at h
    obtain ⟨_, hr, -⟩ := RunI_of_run (w := w) (textEmitMetric fm sink mv none []) s
    rcases (emit_lf fm mv none []).runI hr with h5 | ⟨t, h5⟩
    · have := h5.symm.trans h
      exact absurd this (by simp [lit])
    · have := congrArg List.getLast? (h5.symm.trans h)
      simp [lit] at this

/-- the three of them for a metric, a directory and neither -/
example : Reachable exW exTextS ∧
    ([lit "/d", lit "/a", lit "/b"].map fun p =>
      ((((jsonHandler exLib (plainResp sink) 20 (exReq1 p) ⟨[], none, []⟩).run exW exTextS).2.1.sent.map Prod.fst),
        (((getMetricMsg false p).run exW exTextS).2.isSome),
        decide (((textEndpoint exFm sink 20 p []).run exW exTextS).2.1 = lit "*Path does not exist.*"))) =
    [(some 200, true, false), (some 404, false, false), (some 404, false, true)] :=
  ⟨grown_reachable exTextS_typed.grown, by decide +kernel⟩

/-- a listing of nothing -/
example : ((jsonHandler exLib (plainResp sink) 20 (exReq (lit "/b")) ⟨[], none, []⟩).run exW exTextS).2.1.out = lit "0" := by
  decide +kernel

end Tricorder
