import Verif.Proof.Often
import Verif.Props.Text
import Verif.Props.Html
import Verif.Proof.Http
/-!
# C99: how often a request asks the application

`consults h` are the variables that the request itself reads, the callbacks it calls and the flags it asks, in this order.
-/

namespace Tricorder
open Go Spec Tree

variable {w : World} {s s' : State} {h : List Ev}

/-- the trees during a request; the descriptions of metrics do not change -/
theorem run_fits {α : Type} {p : Prog α} {a : α} (hp : OnlyReads p) (hs : Reachable w s) (hr : RunI w p s h s' a) :
    IsTree s'.tree ∧ (∀ τ, τ ∈ statesOf h s' → IsTree τ.tree ∧ Ext τ.tree s'.tree) ∧
    (∀ e ∈ h, e.pre ∈ statesOf h s') ∧ ∀ e ∈ h, ∀ m mv, metricView e.pre.tree m = some mv → metricView s'.tree m = some mv := by
  obtain ⟨hT, hS⟩ := states_tree hr (RunI_reads hp hr hs).1
  have hin : ∀ e ∈ h, e.pre ∈ statesOf h s' := fun e he => List.mem_append_left _ (List.mem_map.mpr ⟨e, he, rfl⟩)
  exact ⟨hT, hS, hin, fun e he m mv hm => metricView_ext (hS _ (hin e he)).1 hT (hS _ (hin e he)).2 hm⟩

/-- a metric that a request has found can be described, as metric objects are never destroyed -/
theorem found_view {α : Type} {path : Str} {m : ℕ} {K : Option MetricView → Prog α} {b : α} {h1 h2 : List Ev} {s1 : State}
    (hre : ∀ e ∈ h1 ++ h2, Reachable w e.pre) (r1 : RunI w (lookupPath 0 path) s h1 s1 (none, some m))
    (r2 : RunI w (.op (.metric m) K) s1 h2 s' b) :
    ∃ mv g s2, (∃ e ∈ h2, metricView e.pre.tree m = some mv) ∧ RunI w (K (some mv)) s2 g s' b ∧ consults h2 = consults g ∧
      ∀ e ∈ g, e ∈ h2 := by
  obtain ⟨g1, s2, g2, rfl, r3, r4⟩ := RunI_op r2
  have r5 : RunI w ((lookupPath 0 path).bind fun _ => .ret ()) s (h1 ++ g1) s2 () := RunI_bind_intro r1 r3
  obtain ⟨hT, hS⟩ := states_tree r5 (fun τ hτ => by
    rcases List.mem_append.mp hτ with hm | hm
    · obtain ⟨e, he, rfl⟩ := List.mem_map.mp hm
      rcases List.mem_append.mp he with he | he
      · exact hre e (by simp [he])
      · exact hre e (by simp [he])
    · rw [List.mem_singleton.mp hm]
      exact hre ⟨true, .metric m, s2⟩ (by simp))
  have hseen : Seen (fun τ => τ ∈ statesOf (h1 ++ g1) s2) 0 (newPathSpec path) m := by
    rcases lookup_seen hT hS r1 (fun e he => List.mem_append_left _ (List.mem_map.mpr ⟨e, by simp [he], rfl⟩)) with
      ⟨d, hd, -⟩ | ⟨m', hm, a1, -⟩ | ⟨hn, -⟩
    · cases hd
    · cases hm
      exact a1
    · cases hn
  obtain ⟨mv, hm, -⟩ := trail_view hT (seen_trail hS hseen)
  have he : (exec w (.metric m) s2).2 = some mv := hm
  rw [he] at r4
  refine ⟨mv, g2, _, ⟨⟨true, .metric m, s2⟩, by simp, hm⟩, r4, ?_, fun e he => by simp [he]⟩
  rw [consults_append, between_consults (others_between rfl r3)]
  rfl

/-- the visits of a listing and what they report -/
theorem walk_reported {t : Tree MValue} {U : List (List Str × ℕ)} {R : List (Option Bool × List Src)} {a a' : List Metric}
    (h : AskWalk (metricView t) (fun mv a a' => ∃ x : Metric, a' = a ++ [x] ∧ x.path = mv.path) (fun a a' => a' = a)
      (U.map Prod.snd) R a a') :
    ∃ L : List ((List Str × ℕ) × Option (Option Metric) × List Src), L.map Prod.fst = U ∧ L.map (fun x => x.2.2) = R.map Prod.snd ∧
      a' = a ++ L.filterMap (fun x => x.2.1.join) ∧ (∀ x ∈ L, Consulted t x.1.2 x.2.1 x.2.2) ∧
      ((∀ x ∈ R, x.1 ≠ none) → ∀ x ∈ L, x.2.1 ≠ none) := by
  induction U generalizing R a with
  | nil =>
    cases h
    exact ⟨[], rfl, rfl, by simp, by simp, by simp⟩
  | cons u U ih =>
    cases h with
    | @cons m ms mv k l R _ a1 _ hm hst _ hw =>
      obtain ⟨L, h1, h2, h3, h4, h5⟩ := ih hw
      cases hst with
      | shown hg =>
        obtain ⟨x, rfl, hx⟩ := hg
        refine ⟨(u, some (some x), shown mv) :: L, by simp [h1], by simp [h2], ?_, ?_, ?_⟩
        · rw [h3]; simp
        · simp only [List.mem_cons, forall_eq_or_imp]
          exact ⟨.reported hm hx, h4⟩
        · intro hR
          simp only [List.mem_cons, forall_eq_or_imp] at hR ⊢
          exact ⟨by simp, h5 hR.2⟩
      | leftOut hf he =>
        subst he
        refine ⟨(u, some none, once mv) :: L, by simp [h1], by simp [h2], ?_, ?_, ?_⟩
        · rw [h3]; simp
        · simp only [List.mem_cons, forall_eq_or_imp]
          exact ⟨.leftOut hm hf, h4⟩
        · intro hR
          simp only [List.mem_cons, forall_eq_or_imp] at hR ⊢
          exact ⟨by simp, h5 hR.2⟩
      | failed hl he =>
        subst he
        refine ⟨(u, none, l) :: L, by simp [h1], by simp [h2], ?_, ?_, ?_⟩
        · rw [h3]; simp
        · simp only [List.mem_cons, forall_eq_or_imp]
          exact ⟨.failed hm hl, h4⟩
        · intro hR
          simp only [List.mem_cons, forall_eq_or_imp] at hR
          exact absurd rfl hR.1

/-- the visits of the text page -/
theorem walk_lined {t : Tree MValue} {A : Type} {U : List (List Str × ℕ)} {R : List (Option Bool × List Src)} {a a' : A}
    (h : AskWalk (metricView t) (fun _ _ _ => True) (fun _ _ => True) (U.map Prod.snd) R a a') :
    ∃ L : List ((List Str × ℕ) × Option Bool × List Src), L.map Prod.fst = U ∧ L.map Prod.snd = R ∧
      ∀ x ∈ L, Lined t x.1.2 x.2.1 x.2.2 := by
  induction U generalizing R a with
  | nil =>
    cases h
    exact ⟨[], rfl, rfl, by simp⟩
  | cons u U ih =>
    cases h with
    | @cons m ms mv k l R _ a1 _ hm hst _ hw =>
      obtain ⟨L, h1, h2, h3⟩ := ih hw
      refine ⟨(u, k, l) :: L, by simp [h1], by simp [h2], ?_⟩
      simp only [List.mem_cons, forall_eq_or_imp]
      refine ⟨?_, h3⟩
      cases hst with
      | shown => exact .written hm
      | leftOut hf => exact .leftOut hm hf
      | failed hl => exact .failed hm hl

/-- **C99 (listings)** `ListMetrics`, in process, over RPC and as JSON, whatever other goroutines do meanwhile.  `L` are the metrics
it visits, in the order of their paths, all at or under the given path; with each comes what is reported of it and which variables
and callbacks were asked for it.  The response consists of what is reported, and what the request asks of the application is what is
asked for these metrics, in this order, and nothing else.  A metric that is reported is asked for once (lists and distributions:
not at all), except for numbers with a fraction, which are asked for twice; a metric that is left out is asked for once.  If the
listing succeeds, all metrics that are there all the time are among them. -/
theorem C99_listing (hs : Reachable w s) {json : Bool} {fuel : ℕ} {path : Str} {c : List Str} (hc : Components path c)
    {ms : List Metric} {st : Status} (hr : RunI w (listMetrics json fuel path) s h s' (ms, st)) :
    let S := fun τ => τ ∈ statesOf h s'
    ∃ L : List ((List Str × ℕ) × Option (Option Metric) × List Src),
      ms = L.filterMap (fun x => x.2.1.join) ∧ consults h = L.flatMap (fun x => x.2.2) ∧
      L.Pairwise (fun x y => x.1.1 < y.1.1) ∧
      (∀ x ∈ L, c <+: x.1.1 ∧ Seen S 0 x.1.1 x.1.2 ∧ Consulted s'.tree x.1.2 x.2.1 x.2.2 ∧
        ∀ y, x.2.1 = some (some y) → y.path = 47 :: List.intercalate [47] x.1.1) ∧
      (st = .ok → (∀ x ∈ L, x.2.1 ≠ none) ∧ ∀ p m, c <+: p → Stable S 0 p m → ∃ k l, ((p, m), k, l) ∈ L) := by
  intro S
  obtain ⟨hT, hS, hh, hV⟩ := run_fits (listMetrics_reads _ _ _) hs hr
  obtain ⟨⟨U, ⟨sess, hcalls⟩, hsort, hseen, hcomp⟩, -⟩ := byPath_listing (S := S) hT hS hr hh
  rw [← C01_components_unique hc] at hseen hcomp
  have hview : ∀ x ∈ U, ∃ mv, metricView s'.tree x.2 = some mv ∧ mv.path = 47 :: List.intercalate [47] x.1 := fun x hx =>
    trail_view hT (seen_trail hS (hseen x hx).2)
  obtain ⟨R, r1, r2, r3⟩ := calls_walk (msgColl_once json) (fun _ => rfl) hcalls hV fun m hm => by
    obtain ⟨x, hx, rfl⟩ := List.mem_map.mp hm
    obtain ⟨mv, h1, -⟩ := hview x hx
    exact ⟨mv, h1⟩
  obtain ⟨L, l1, l2, l3, l4, l5⟩ := walk_reported r1
  have hmem : ∀ x ∈ L, x.1 ∈ U := fun x hx => l1 ▸ List.mem_map.mpr ⟨x, hx, rfl⟩
  refine ⟨L, by simpa using l3, ?_, ?_, ?_, ?_⟩
  · rw [r2, List.flatMap_def, List.flatMap_def, ← l2]
  · rw [← l1, List.pairwise_map] at hsort
    exact hsort
  · intro x hx
    refine ⟨(hseen _ (hmem x hx)).1, (hseen _ (hmem x hx)).2, l4 x hx, fun y hy => ?_⟩
    obtain ⟨mv, h1, h2⟩ := hview _ (hmem x hx)
    have h3 := l4 x hx
    obtain ⟨xu, xk, xl⟩ := x
    cases hy
    cases h3 with
    | reported h4 h5 =>
      rw [h1] at h4
      cases h4
      rw [h5, h2]
  · intro hst
    refine ⟨l5 (r3 hst), fun p m hp hstab => ?_⟩
    rcases hcomp p m hp hstab with h1 | ⟨h1, -⟩
    · rw [← l1] at h1
      obtain ⟨⟨u, k, l⟩, hx, rfl⟩ := List.mem_map.mp h1
      exact ⟨k, l, hx⟩
    · exact absurd hst h1

/-- what a visited metric is asked for -/
theorem _root_.Tricorder.Spec.Consulted.source {t : Tree MValue} {m : ℕ} {k : Option (Option Metric)} {l : List Src}
    (h : Consulted t m k l) {x : Src} (hx : x ∈ l) : ∃ mv, metricView t m = some mv ∧ mv.value.src = some x := by
  have ho : ∀ mv, x ∈ once mv → mv.value.src = some x := by
    intro mv h1
    unfold once at h1
    split at h1
    · exact absurd h1 (by simp)
    · exact Option.mem_toList.mp h1
  have hsh : ∀ mv, x ∈ shown mv → mv.value.src = some x := by
    intro mv h1
    unfold shown at h1
    split at h1
    · exact ho mv (by simpa using h1)
    · exact ho mv h1
  cases h with
  | reported h1 h2 => exact ⟨_, h1, hsh _ hx⟩
  | leftOut h1 h2 => exact ⟨_, h1, ho _ hx⟩
  | failed h1 h2 => exact ⟨_, h1, hsh _ (h2.subset hx)⟩

/-- **C99 (nothing else)** If a listing asks for a variable or calls a callback, it belongs to a metric that is seen at or under the
given path. -/
theorem C99_nothing_else (hs : Reachable w s) {json : Bool} {fuel : ℕ} {path : Str} {c : List Str} (hc : Components path c)
    {ms : List Metric} {st : Status} (hr : RunI w (listMetrics json fuel path) s h s' (ms, st)) {x : Src} (hx : x ∈ consults h) :
    ∃ p m mv, c <+: p ∧ Seen (fun τ => τ ∈ statesOf h s') 0 p m ∧ metricView s'.tree m = some mv ∧ mv.value.src = some x := by
  obtain ⟨L, -, h2, -, h4, -⟩ := C99_listing hs hc hr
  rw [h2] at hx
  obtain ⟨y, hy, hxy⟩ := List.mem_flatMap.mp hx
  obtain ⟨h5, h6, h7, -⟩ := h4 y hy
  obtain ⟨mv, h8, h9⟩ := h7.source hxy
  exact ⟨_, _, mv, h5, h6, h8, h9⟩

/-- **C99 (GetMetric, singleton JSON)** If the request finds a metric, it is seen at the path and asked for exactly once, unless it is
a list or a distribution; if not, nothing is asked. -/
theorem C99_get (hs : Reachable w s) {json : Bool} {path : Str} {c : List Str} (hc : Components path c)
    {r : Option (Out Metric)} (hr : RunI w (getMetricMsg json path) s h s' r) :
    (r = none ∧ consults h = []) ∨
    (∃ o m mv, r = some o ∧ Seen (fun τ => τ ∈ statesOf h s') 0 c m ∧ metricView s'.tree m = some mv ∧ consults h = once mv) := by
  obtain ⟨hT, hS, hh, hV⟩ := run_fits (getMetricMsg_reads _ _) hs hr
  have hre := (RunI_reads (getMetricMsg_reads _ _) hr hs).1
  unfold getMetricMsg getMetric at hr
  obtain ⟨h1, s1, y, h2, rfl, r1, r2⟩ := RunI_bind hr
  obtain ⟨z, r3, rfl⟩ := RunI_map r1
  have hb := lookup_between r3
  rcases lookup_seen hT hS r3 (fun e he => hh e (by simp [he])) with ⟨d, rfl, a1, a2⟩ | ⟨m, rfl, a1, a2⟩ | ⟨rfl, a1⟩
  · cases (RunI_ret r2).1
    refine .inl ⟨rfl, ?_⟩
    rw [consults_append, between_consults hb, between_consults (others_between rfl r2)]
    rfl
  · rw [← C01_components_unique hc] at a1
    obtain ⟨mv, g, s2, ⟨e, he, hm⟩, r5, hcon, hg⟩ := found_view (fun e he => hre _ (hh e he)) r3 r2
    obtain ⟨h5, s5, o, h6, rfl, r6, r7⟩ := RunI_bind r5
    cases (RunI_ret r7).1
    refine .inr ⟨o, m, mv, rfl, a1, hV e (by simp [he]) m mv hm, ?_⟩
    rw [consults_append, between_consults hb, hcon, consults_append, between_consults (others_between rfl r7), List.append_nil]
    exact asks_run (Q := fun l _ => l = once mv) r6 (fun e he => hV e (List.mem_append_right _ (hg e (by simp [he]))))
      (initMetricAlone_asks json mv)
  · cases (RunI_ret r2).1
    refine .inl ⟨rfl, ?_⟩
    rw [consults_append, between_consults hb, between_consults (others_between rfl r2)]
    rfl

/-- **C99 (text)** The text page: of a directory like a listing; of a metric exactly once. -/
theorem C99_text (hs : Reachable w s) {fm : Fmts} {W : Type} {wr : Writer W} {fuel : ℕ} {path : Str} {c : List Str}
    (hc : Components path c) {x x' : W} {st : Status} (hr : RunI w (textEndpoint fm wr fuel path x) s h s' (x', st)) :
    let S := fun τ => τ ∈ statesOf h s'
    ((∀ p m, c <+: p → ¬ Stable S 0 p m) ∧ consults h = []) ∨
    (∃ m mv, Seen S 0 c m ∧ metricView s'.tree m = some mv ∧ consults h = once mv) ∨
    ∃ L : List ((List Str × ℕ) × Option Bool × List Src),
      consults h = L.flatMap (fun x => x.2.2) ∧ L.Pairwise (fun x y => x.1.1 < y.1.1) ∧
      (∀ x ∈ L, c <+: x.1.1 ∧ Seen S 0 x.1.1 x.1.2 ∧ Lined s'.tree x.1.2 x.2.1 x.2.2) ∧
      (st = .ok → (∀ x ∈ L, x.2.1 ≠ none) ∧ ∀ p m, c <+: p → Stable S 0 p m → ∃ k l, ((p, m), k, l) ∈ L) := by
  intro S
  obtain ⟨hT, hS, hh, hV⟩ := run_fits (textEndpoint_reads _ _ _ _ _) hs hr
  have hre := (RunI_reads (textEndpoint_reads _ _ _ _ _) hr hs).1
  obtain ⟨h1, s1, y, h2, rfl, r1, r2⟩ := RunI_bind hr
  have hb1 := lookup_between r1
  rcases lookup_seen (S := S) hT hS r1 (fun e he => hh e (by simp [he])) with ⟨d, rfl, a1, a2⟩ | ⟨m, rfl, a1, a2⟩ | ⟨rfl, a1⟩
  · have hr' : RunI w (getAllMetricsByPath (textColl fm wr) fuel 0 path x) s (h1 ++ h2) s' (x', st) := RunI_bind_intro r1 r2
    obtain ⟨⟨U, ⟨sess, hcalls⟩, hsort, hseen, hcomp⟩, -⟩ := byPath_listing (S := S) hT hS hr' hh
    rw [← C01_components_unique hc] at hseen hcomp
    obtain ⟨R, r1, r2, r3⟩ := calls_walk (textColl_once fm wr) (fun _ => trivial) hcalls hV fun m hm => by
      obtain ⟨x, hx, rfl⟩ := List.mem_map.mp hm
      obtain ⟨mv, h1, -⟩ := trail_view hT (seen_trail hS (hseen x hx).2)
      exact ⟨mv, h1⟩
    obtain ⟨L, rfl, rfl, l3⟩ := walk_lined r1
    refine .inr (.inr ⟨L, ?_, ?_, ?_, ?_⟩)
    · rw [r2, List.flatMap_map]
    · rwa [List.pairwise_map] at hsort
    · intro y hy
      have := hseen _ (List.mem_map.mpr ⟨y, hy, rfl⟩)
      exact ⟨this.1, this.2, l3 y hy⟩
    · intro hst
      refine ⟨fun y hy => r3 hst _ (List.mem_map.mpr ⟨y, hy, rfl⟩), fun p m hp hstab => ?_⟩
      rcases hcomp p m hp hstab with h1 | ⟨h1, -⟩
      · obtain ⟨⟨u, k, l⟩, hx, rfl⟩ := List.mem_map.mp h1
        exact ⟨k, l, hx⟩
      · exact absurd hst h1
  · rw [← C01_components_unique hc] at a1
    obtain ⟨mv, g, s2, ⟨e, he, hm⟩, r5, hcon, hg⟩ := found_view (fun e he => hre _ (hh e he)) r1 r2
    obtain ⟨h5, s5, o, h6, rfl, r6, r7⟩ := RunI_bind r5
    refine .inr (.inl ⟨m, mv, a1, hV e (by simp [he]) m mv hm, ?_⟩)
    rw [consults_append, between_consults hb1, hcon, consults_append, between_consults (others_between rfl r7), List.append_nil]
    exact asks_run (Q := fun l _ => l = once mv) r6 (fun e he => hV e (List.mem_append_right _ (hg e (by simp [he]))))
      (textEmitMetric_asks fm wr mv none x)
  · refine .inl ⟨?_, ?_⟩
    · rintro p m ⟨q, rfl⟩
      rw [C01_components_unique hc]
      exact a1 q m
    · rw [consults_append, between_consults hb1, between_consults (others_between rfl r2)]
      rfl

/-- the metrics among the entries of a directory -/
def metricOf (x : ℕ × Entry) : Option (Str × ℕ) :=
  match x.2.dir, x.2.metric with
  | none, some m => some (x.2.name, m)
  | _, _ => none

theorem metricOf_ask (t : Tree MValue) (l : List (ℕ × Entry)) :
    (l.filterMap metricOf).flatMap (fun x => onceAt t x.2) = l.flatMap fun e => entryAsk (metricView t) e.2 := by
  induction l with
  | nil => rfl
  | cons x l ih =>
    obtain ⟨i, n, m, d, p⟩ := x
    rcases d with _ | d
    · rcases m with _ | m
      · exact ih
      · exact congrArg (onceAt t m ++ ·) ih
    · rcases m with _ | m <;> exact ih

/-- the metrics of a directory as they are when it is listed -/
theorem metricOf_children {τ : State} (ht : IsTree τ.tree) (d : ℕ) :
    ((sortEntries (exec w (.list d) τ).2).filterMap metricOf).Pairwise (fun x y => x.1 < y.1) ∧
    ∀ n m, (n, m) ∈ (sortEntries (exec w (.list d) τ).2).filterMap metricOf ↔ Reaches τ.tree d [n] (.metric m) := by
  have hname : ∀ x y, metricOf x = some y → y.1 = x.2.name ∧ x.2.metric = some y.2 := by
    rintro ⟨i, n, m, d, p⟩ y h
    rcases d with _ | d
    · rcases m with _ | m
      · cases h
      · cases h; exact ⟨rfl, rfl⟩
    · rcases m with _ | m <;> cases h
  constructor
  · refine List.Pairwise.filterMap _ ?_ (sortEntries_sorted _ (list_names ht))
    intro x y hxy a ha b hb
    rw [(hname x a ha).1, (hname y b hb).1]
    exact hxy
  · intro n m
    rw [reaches_one_iff ht, List.mem_filterMap]
    constructor
    · rintro ⟨x, hx, hm⟩
      obtain ⟨h1, h2⟩ := hname x _ hm
      obtain ⟨h3, h4⟩ := list_mem ht hx
      subst h1
      exact ⟨x.1, x.2, h3, h4, h2⟩
    · rintro ⟨e, en, h1, h2, h3⟩
      refine ⟨(e, en), list_complete h1 h2, ?_⟩
      have hn := (child_entry ht h1 h2).1
      rcases ht.entry e en h2 with ⟨m', mo, m1, m2, m3, m4⟩ | ⟨d', m1, m2, m3, m4, m5⟩
      · have h3' : en.metric = some m := h3
        unfold metricOf
        simp only [m2, h3', hn]
      · have h3' : en.metric = some m := h3
        rw [h3'] at m1
        cases m1

theorem consults_writing {W : Type} {wr : Writer W} {x : W} {cs : List Str} {se : Session} {k : W → Prog (Session × W × Status)}
    {r : Session × W × Status} (hr : RunI w (writing wr x cs se k) s h s' r) :
    (r.2.2 ≠ .ok ∧ consults h = []) ∨ ∃ x', RunI w (k x') s h s' r := by
  unfold writing at hr
  generalize wr.all x cs = y at hr
  obtain ⟨x', st⟩ := y
  cases st with
  | ok => exact .inr ⟨x', hr⟩
  | err e =>
    have h1 := (RunI_ret hr).1
    subst h1
    exact .inl ⟨by simp, between_consults (others_between rfl hr)⟩
  | panic =>
    have h1 := (RunI_ret hr).1
    subst h1
    exact .inl ⟨by simp, between_consults (others_between rfl hr)⟩
  | timeout =>
    have h1 := (RunI_ret hr).1
    subst h1
    exact .inl ⟨by simp, between_consults (others_between rfl hr)⟩

/-- **C99 (HTML)** The HTML page of a metric asks for it once.  The page of a directory asks once for each of the metrics that are
directly in the directory at the moment when it is listed, in the order of their names, and for no metric further down. -/
theorem C99_html (hs : Reachable w s) {fm : Fmts} {W : Type} {wr : Writer W} {path : Str} {c : List Str}
    (hc : Components path c) {x x' : W} {st : Status} (hr : RunI w (htmlEndpoint fm wr path x) s h s' (x', st)) :
    let S := fun τ => τ ∈ statesOf h s'
    ((∀ p m, c <+: p → ¬ Stable S 0 p m) ∧ consults h = []) ∨
    (st ≠ .ok ∧ consults h = []) ∨
    (∃ m mv, Seen S 0 c m ∧ metricView s'.tree m = some mv ∧ consults h <+: once mv ∧ (st = .ok → consults h = once mv)) ∨
    ∃ d τ, ∃ C : List (Str × ℕ), SeenDir S 0 c d ∧ S τ ∧ C.Pairwise (fun x y => x.1 < y.1) ∧
      (∀ n m, (n, m) ∈ C ↔ Reaches τ.tree d [n] (.metric m)) ∧
      consults h <+: C.flatMap (fun x => onceAt s'.tree x.2) ∧
      (st = .ok → consults h = C.flatMap fun x => onceAt s'.tree x.2) := by
  intro S
  obtain ⟨hT, hS, hh, hV⟩ := run_fits (htmlEndpoint_reads _ _ _ _) hs hr
  have hre := (RunI_reads (htmlEndpoint_reads _ _ _ _) hr hs).1
  obtain ⟨h1, s1, y, h2, rfl, r1, r2⟩ := RunI_bind hr
  have hb1 := lookup_between r1
  rcases lookup_seen (S := S) hT hS r1 (fun e he => hh e (by simp [he])) with ⟨d, rfl, a1, a2⟩ | ⟨m, rfl, a1, a2⟩ | ⟨rfl, a1⟩
  · rw [← C01_components_unique hc] at a1
    obtain ⟨se, h3, h4, σ, rfl, r3, hb⟩ := withSession_run r2
    have hcon : consults (h1 ++ (h3 ++ h4)) = consults h3 := by
      rw [consults_append, between_consults hb1, consults_append, between_consults hb]; simp
    rw [hcon]
    rcases consults_writing r3 with ⟨n1, n2⟩ | ⟨x1, r4⟩
    · exact .inr (.inl ⟨n1, n2⟩)
    · obtain ⟨g1, s2, g2, rfl, r5, r6⟩ := RunI_op r4
      have hin : s2 ∈ statesOf (h1 ++ (g1 ++ ⟨true, .list d, s2⟩ :: g2 ++ h4)) s' := hh ⟨true, .list d, s2⟩ (by simp)
      obtain ⟨c1, c2⟩ := metricOf_children (w := w) (hS _ hin).1 d
      refine .inr (.inr (.inr ⟨d, s2, _, a1, hin, c1, c2, ?_⟩))
      rw [metricOf_ask, consults_append, between_consults (others_between rfl r5)]
      exact asks_run (V := metricView s'.tree) r6 (fun e he => hV e (by simp [he]))
        (htmlEnd_asks wr (htmlEntries_asks fm wr (sortEntries (exec w (.list d) s2).2) [] x1))
  · rw [← C01_components_unique hc] at a1
    obtain ⟨se, h3, h4, σ, rfl, r3, hb⟩ := withSession_run r2
    have hcon : consults (h1 ++ (h3 ++ h4)) = consults h3 := by
      rw [consults_append, between_consults hb1, consults_append, between_consults hb]; simp
    rw [hcon]
    rcases consults_writing r3 with ⟨n1, n2⟩ | ⟨x1, r4⟩
    · exact .inr (.inl ⟨n1, n2⟩)
    · obtain ⟨mv, g, s2, ⟨e, he, hm⟩, r5, hcon, hg⟩ :=
        found_view (fun e he => hre _ (hh e (by rw [← List.append_assoc]; exact List.mem_append_left _ he))) r1 r4
      refine .inr (.inr (.inl ⟨m, mv, a1, hV e (by simp [he]) m mv hm, ?_⟩))
      rw [hcon]
      exact asks_run (V := metricView s'.tree) r5 (fun e he => hV e (by simp [hg e he])) (htmlEnd_asks wr (htmlMetric_asks fm wr mv [] x1))
  · refine .inl ⟨?_, ?_⟩
    · rintro p m ⟨q, rfl⟩
      rw [C01_components_unique hc]
      exact a1 q m
    · rw [consults_append, between_consults hb1, between_consults (others_between rfl r2)]
      rfl

/-! ### Examples -/

/-- what happens if nothing else goes on -/
def ownTrace (w : World) : Prog α → State → List Ev
  | .ret _, _ => []
  | .op c k, s => ⟨true, c, s⟩ :: ownTrace w (k (exec w c s).2) (exec w c s).1

theorem ownTrace_run (p : Prog α) (s : State) : RunI w p s (ownTrace w p s) (p.run w s).1 (p.run w s).2 := by
  induction p generalizing s with
  | ret a => exact .ret _ _
  | op c k ih => exact .op (ih _ _)

/-- `exTextS` with two more variables, a number 12 and one that is infinite, registered as `/a/x` and `/y` -/
def exOftenS : State :=
  exTextReg [121] (.ptr 2) (some 0) .none (exTextReg [97, 47, 120] (.ptr 1) (some 0) .none
    ([.newVar (.scalar none (.float64 (.fin 12))), .newVar (.scalar none (.float64 (.inf false)))].foldl
      (fun s c => (exec exW c s).1) exTextS))

theorem exOftenS_history : TypedHistory exW exOftenS := by
  have hno : ∀ (c : Cmd) (s : State), (∀ d n ds v, c ≠ .storeMetric d n ds v) → StoreFits exW ⟨false, c, s⟩ :=
    fun c s h d n ds v hc => absurd hc (h d n ds v)
  refine exTextReg_history (exTextReg_history ?_ ?_) ?_
  · refine .step _ (.step _ exTextS_history trivial (hno _ _ (fun _ _ _ _ h => nomatch h)) ?_) trivial
      (hno _ _ (fun _ _ _ _ h => nomatch h)) ?_
    · show Fl.Rep b64 (.fin 12)
      decide +kernel
    · trivial
  all_goals decide +kernel

theorem exOftenS_reachable : Reachable exW exOftenS := grown_reachable (history_ok exOftenS_history).1

/-- A listing of everything: `/a/f` once, `/a/x` twice, the distribution `/d` and the list `/l` not at all, `/y` once, as it is left
out.  The text page of the same directory does the same, and that of `/y` itself asks once.  The HTML page of the root asks once for
`/y` and does not ask for what is in `/a`. -/
example :
    consults (ownTrace exW (listMetrics false 20 [47]) exOftenS) = [.var 0, .var 1, .var 1, .var 2] ∧
    ((listMetrics false 20 [47]).run exW exOftenS).2.1.map Metric.path = [lit "/a/f", lit "/a/x", lit "/d", lit "/l"] ∧
    consults (ownTrace exW (listMetrics false 20 (lit "/a")) exOftenS) = [.var 0, .var 1, .var 1] ∧
    consults (ownTrace exW (getMetricMsg true (lit "/a/x")) exOftenS) = [.var 1] ∧
    consults (ownTrace exW (textEndpoint exFm exWriter 20 [47] []) exOftenS) = [.var 0, .var 1, .var 1, .var 2] ∧
    consults (ownTrace exW (textEndpoint exFm exWriter 20 (lit "/y") []) exOftenS) = [.var 2] ∧
    consults (ownTrace exW (htmlEndpoint exFm exWriter [47] []) exOftenS) = [.var 2] ∧
    consults (ownTrace exW (htmlEndpoint exFm exWriter (lit "a") []) exOftenS) = [.var 0, .var 1] := by
  decide +kernel

example : RunI exW (listMetrics false 20 [47]) exOftenS (ownTrace exW (listMetrics false 20 [47]) exOftenS)
    ((listMetrics false 20 [47]).run exW exOftenS).1 ((listMetrics false 20 [47]).run exW exOftenS).2 ∧
    ((listMetrics false 20 [47]).run exW exOftenS).2.2 = .ok := ⟨ownTrace_run _ _, by decide +kernel⟩

end Tricorder
