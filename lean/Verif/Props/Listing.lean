import Verif.Proof.Canon
import Verif.Props.Path
import Verif.Props.Ex2
/-!
# C10–C13, C52, C55: listings

`RunI w p s h s' r`: the call `p`, with arbitrary steps of other goroutines interleaved, leads from `s` through
the history `h` to `s'` with result `r`; `statesOf h s'` are the states on the way.  `fuel` bounds the depth of
the recursion in the model; it is enough if it exceeds the number of entries ever made.
-/

namespace Tricorder
open Go Spec Tree

variable {A : Type} {w : World} {s s' : State}

/-! ## C10: alone -/

/-- **C10 (order)** Every tree has exactly one canonical list of the metrics at or under a path. -/
theorem C10_canonical (hs : Reachable w s) (c : List Str) : ∃ L, Canonical s.tree c L ∧
    ∀ L', Canonical s.tree c L' → L' = L := by
  obtain ⟨L, hL⟩ := canonical_exists (reachable_isTree hs) c
  exact ⟨L, hL, fun L' h => canonical_unique h hL⟩

example : Reachable exW exS ∧ Canonical exS.tree [] exL ∧ exL.length = 4 :=
  ⟨exS_reachable, exL_canonical, rfl⟩

theorem reaches_components (hs : Reachable w s) {p : List Str} {n} (h : Reaches s.tree 0 p n) :
    p = newPathSpec (47 :: List.intercalate [47] p) := by
  rw [newPathSpec_slash, ← joinByte_eq, ← pathString,
    newPathSpec_join p (reaches_good (reachable_isTree hs) h)]

open Classical in
/-- **C10** A listing alone.  Nothing is changed.  The listing panics exactly if a metric that is not infinite or
NaN cannot be read; otherwise its elements are the answers that `GetMetric` gives for the metrics at or under the
path which are not infinite or NaN, each once, in canonical order. -/
theorem C10_listing (hs : Reachable w s) (json : Bool) {path : Str} {c : List Str} (hc : Components path c)
    {fuel : ℕ} (hf : s.tree.entries.length < fuel) {L : List (List Str × ℕ)} (hL : Canonical s.tree c L) :
    let r := (listMetrics json fuel path).run w s
    let answer := fun x : List Str × ℕ => ((getMetricMsg json (47 :: List.intercalate [47] x.1)).run w s).2
    r.1 = s ∧ (r.2.2 = .ok ∨ r.2.2 = .panic) ∧
    (r.2.2 = .ok ↔ ∀ x ∈ L, IsInfNaN w s x.2 ∨ (¬ NotFloat w s x.2 ∧ ∃ y, answer x = some (.ok y))) ∧
    (r.2.2 = .ok → r.2.1.map (fun y => some (.ok y)) =
      (L.filter fun x => ¬ IsInfNaN w s x.2).map answer) := by
  intro r answer
  have hcc := C01_components_unique hc
  have ht := reachable_isTree hs
  obtain ⟨h, hr, hown, hst⟩ := RunI_alone (w := w) (listMetrics_reads json fuel path) s
  have hH : ∀ e ∈ h, e.own = true ∧ e.pre = s := fun e he =>
    ⟨hown e he, hst _ (List.mem_append_left _ (List.mem_map.mpr ⟨e, he, rfl⟩))⟩
  have hS : ∀ τ : State, τ = s → IsTree τ.tree ∧ Ext τ.tree s.tree := fun τ hτ => by
    rw [hτ]; exact ⟨ht, Ext.refl _⟩
  obtain ⟨⟨V, hV⟩, htime⟩ := byPath_listing (S := (· = s)) ht hS
    (a' := r.2.1) (st := r.2.2) hr (fun e he => (hH e he).2)
  obtain ⟨sess, hcalls⟩ := hV.calls
  obtain ⟨hpre, heq⟩ := listing_now hs (S := (· = s)) (fun τ h => h) hV (hcc ▸ hL)
  obtain ⟨hok, hpan⟩ := calls_now hH hcalls Sane.nil
  have hres := (listMetrics_run hs (ms := r.2.1) (st := r.2.2) hr).2
  have hstat : r.2.2 = .ok ∨ r.2.2 = .panic := by
    rcases hres.1 with h1 | h1 | h1
    · exact Or.inl h1
    · exact Or.inr h1
    · exact absurd h1 (hres.2 hf)
  -- the answer of `GetMetric` for an element of `L`
  have hans : ∀ x ∈ L, ∃ mv, metricView s.tree x.2 = some mv ∧
      answer x = some (encodeOut json (outOf (nowMetric w s mv))) := by
    intro x hx
    have h1 := ((hL.complete x.1 x.2).mp hx).2
    obtain ⟨mv, h2, h3⟩ := (getMetricMsg_now hs json (reaches_components hs h1)).1 x.2 h1
    exact ⟨mv, h2, by show (Prog.run w _ s).2 = _; rw [h3]⟩
  have hitem : ∀ x ∈ L, (nowItem w s json x.2 ≠ .panic ↔
      IsInfNaN w s x.2 ∨ (¬ NotFloat w s x.2 ∧ ∃ y, answer x = some (.ok y))) := by
    intro x hx
    obtain ⟨mv, h1, h2⟩ := hans x hx
    obtain ⟨i1, i2, i3⟩ := nowItem_spec (w := w) ht h1 json
    rw [h2]
    cases hi : nowItem w s json x.2 with
    | panic =>
      have := i2.mp hi
      refine ⟨fun h => absurd rfl h, ?_⟩
      rintro (h3 | ⟨h3, y, h4⟩)
      · rw [← i1, hi] at h3; cases h3
      · rcases this with h5 | ⟨-, h5⟩
        · exact absurd h5 h3
        · rw [h5] at h4; cases h4
    | ok o =>
      refine ⟨fun _ => ?_, fun _ => by simp⟩
      cases o with
      | none => exact Or.inl (i1.mp hi)
      | some y =>
        refine Or.inr ⟨?_, y, by rw [i3 y hi]⟩
        intro h3
        rw [i2.mpr (Or.inl h3)] at hi
        cases hi
  refine ⟨run_reads (listMetrics_reads json fuel path) s, hstat, ?_, ?_⟩
  · constructor
    · intro h1 x hx
      rw [← hitem x hx]
      rw [heq h1] at hok
      exact (hok h1).1 x.2 (List.mem_map.mpr ⟨x, hx, rfl⟩)
    · intro h1
      rcases hstat with h2 | h2
      · exact h2
      · obtain ⟨m, h3, h4⟩ := hpan h2
        obtain ⟨x, h5, rfl⟩ := List.mem_map.mp h3
        have h6 := hpre.subset h5
        exact absurd h4 ((hitem x h6).mpr (h1 x h6))
  · intro h1
    have h2 := (hok h1).2
    have h3 := (hok h1).1
    rw [heq h1] at h2 h3
    rw [h2]
    have key : ∀ L' : List (List Str × ℕ), (∀ x ∈ L', x ∈ L) →
        (List.filterMap (fun m => match nowItem w s json m with | .ok o => o | .panic => none)
          (L'.map Prod.snd)).map (fun y => some (Out.ok y)) =
        (L'.filter fun x => ¬ IsInfNaN w s x.2).map answer := by
      intro L'
      induction L' with
      | nil => intro _; rfl
      | cons x L' ih =>
        intro hsub
        have hx := hsub x List.mem_cons_self
        have ih' := ih fun y hy => hsub y (List.mem_cons_of_mem _ hy)
        obtain ⟨mv, g1, g2⟩ := hans x hx
        obtain ⟨i1, i2, i3⟩ := nowItem_spec (w := w) ht g1 json
        have hne := h3 x.2 (List.mem_map.mpr ⟨x, hx, rfl⟩)
        rw [List.map_cons, List.filterMap_cons]
        cases hi : nowItem w s json x.2 with
        | panic => exact absurd hi hne
        | ok o =>
          cases o with
          | none =>
            rw [List.filter_cons_of_neg (by simpa using i1.mp hi)]
            exact ih'
          | some y =>
            have h5 : ¬ IsInfNaN w s x.2 := by
              intro h6
              rw [← i1, hi] at h6
              cases h6
            rw [List.filter_cons_of_pos (by simpa using h5), List.map_cons, List.map_cons, ih', g2, i3 y hi]
    rw [List.nil_append]
    exact key L fun x hx => hx

example : Components [47] [] ∧ exS.tree.entries.length < 20 ∧
    ((listMetrics false 20 [47]).run exW exS).2.1.map Metric.path = exZ ∧
    ((listMetrics false 20 [47]).run exW exS).2.2 = .ok :=
  ⟨C01_components [47], by decide +kernel, by decide +kernel, by decide +kernel⟩

/-- a listing that panics: callback 9 panics -/
example : ((listMetrics true 20 [47]).run exW
    (exec exW (.storeMetric 0 nM [] ⟨some (.fn 9), some 0, none, none, .int64, false, .none⟩) exS).1).2.2 = .panic := by
  decide +kernel

/-- **C10 (missing path)** If a path denotes nothing its listing is empty, and there is no error. -/
theorem C10_missing_path (hs : Reachable w s) (json : Bool) (fuel : ℕ) {path : Str} {c : List Str}
    (hc : Components path c) (hno : ∀ n, ¬ Reaches s.tree 0 c n) :
    (listMetrics json fuel path).run w s = (s, ([], .ok)) := by
  have ht := reachable_isTree hs
  have hcc := C01_components_unique hc
  unfold listMetrics getAllMetricsByPath lookupPath
  rw [run_bind, getDirectoryOrMetric_run ht, ← hcc]
  cases hr : s.tree.resolve 0 c with
  | none => rfl
  | some n => exact absurd ((resolve_iff ht).mp hr) (hno n)

example : (listMetrics true 20 [47, 97, 47, 120]).run exW exS = (exS, ([], .ok)) :=
  C10_missing_path exS_reachable true 20 (C01_components _) (by
    intro n h
    have := (resolve_iff (reachable_isTree exS_reachable)).mpr h
    have h0 : exS.tree.resolve 0 (newPathSpec [47, 97, 47, 120]) = none := by decide +kernel
    rw [h0] at this
    cases this)

/-! ## C11: with interference -/

/-- **C11** A listing while other goroutines register, unregister and change values in any way.  Each element `u` of
`U` consists of a path, a metric object and what is reported about it.  The paths are strictly ascending, so none
is reported twice.  Everything reported was found in its directory, and the directory in its directory, and so on up
to the root, at moments during the listing, under the path with which it is reported; and what is reported was true
at a moment during the listing.  If the listing does not panic, a metric that is registered at one path all the
time is reported, unless it is found infinite or NaN. -/
theorem C11_listing (hs : Reachable w s) {json : Bool} {fuel : ℕ} {path : Str} {c : List Str}
    (hc : Components path c) {h : List Ev} {ms : List Metric} {st : Status}
    (hr : RunI w (listMetrics json fuel path) s h s' (ms, st)) :
    let S := fun τ => τ ∈ statesOf h s'
    ∃ U : List ((List Str × ℕ) × Metric), ms = U.map Prod.snd ∧
      U.Pairwise (fun x y => x.1.1 < y.1.1) ∧
      (∀ u ∈ U, c <+: u.1.1 ∧ Seen S 0 u.1.1 u.1.2 ∧ u.2.path = 47 :: List.intercalate [47] u.1.1 ∧
        (∃ mv y, (∃ σ, S σ ∧ metricView σ.tree u.1.2 = some mv) ∧ encodeMetric json y = .ok u.2 ∧
          Describes y mv ∧ Tells w S mv y) ∧
        ¬ AlwaysInfNaN w S u.1.2) ∧
      (st = .ok → ∀ p m, c <+: p → Stable S 0 p m → NeverInfNaN w S m → ∃ x, ((p, m), x) ∈ U) := by
  intro S
  have hcc := C01_components_unique hc
  obtain ⟨⟨U, sess, h1, h2, h3, h4, h5⟩, -⟩ := listMetrics_run hs hr
  refine ⟨U, h1, h2, ?_, ?_⟩
  · intro u hu
    obtain ⟨a1, a2, a3, mv, y, b1, b2, b3, b4, b5, b6⟩ := h3 u hu
    refine ⟨hcc ▸ a1, a2, a3, ⟨mv, y, b1, b2, b3, b4.tells b5 ?_⟩, ?_⟩
    · intro r t hl
      obtain ⟨e, he, -, -, ht⟩ := h5 r t hl
      exact ⟨e.pre, List.mem_append_left _ (List.mem_map.mpr ⟨e, he, rfl⟩), ht⟩
    · intro hal
      obtain ⟨σ, hσ, hm⟩ := b1
      obtain ⟨c1, c2⟩ := hal σ hσ mv hm
      obtain ⟨sc, d, τ, d1, d2, d3, d4⟩ := b6 c1
      exact d4 (c2 τ d2 sc d d1 d3)
  · intro hok p m hp hstab hnever
    rcases h4 p m (hcc ▸ hp) hstab with a | ⟨mv, sc, d, σ, τ, b1, b2, b3, b4, b5, b6, b7⟩ | a
    · exact a
    · exact absurd b7 (hnever σ b1 mv b2 b3 τ b5 sc d b4 b6)
    · exact absurd hok a

/-- A listing during which `/z` is registered and `/d` is unregistered after the root was read: it still shows
`/d` and not `/z`, and the new value of `a/b/m`. -/
example : ∃ h s' ms st, RunI exW (listMetrics false 20 [47]) exS h s' (ms, st) ∧ st = .ok ∧
    ms.map Metric.path = exZ ∧ ms.head?.map Metric.value = some (.scalar none (.int .int64 6)) := by
  have h : playsTo exW (listMetrics false 20 [47]) exSched exS (fun r => decide (r.2 = .ok ∧
      r.1.map Metric.path = exZ ∧ r.1.head?.map Metric.value = some (.scalar none (.int .int64 6)))) = true := by
    decide +kernel
  obtain ⟨h, s', ⟨ms, st⟩, hr, hq⟩ := playsTo_run h
  exact ⟨h, s', ms, st, hr, of_decide_eq_true hq⟩

/-- **C11, C13 (termination)** Whatever the other goroutines do, a listing ends normally or with a panic; it never
needs more depth than there are entries. -/
theorem C13_listing_ends (hs : Reachable w s) {json : Bool} {fuel : ℕ} {path : Str} {h : List Ev}
    {ms : List Metric} {st : Status} (hr : RunI w (listMetrics json fuel path) s h s' (ms, st))
    (hf : s'.tree.entries.length < fuel) : st = .ok ∨ st = .panic := by
  obtain ⟨-, h1, h2⟩ := listMetrics_run hs hr
  rcases h1 with h1 | h1 | h1
  · exact Or.inl h1
  · exact Or.inr h1
  · exact absurd h1 (h2 hf)

example : ∃ h s' ms st, RunI exW (listMetrics true 20 [47]) exS h s' (ms, st) ∧ st = .ok ∧ ms.length = 4 := by
  have h : playsTo exW (listMetrics true 20 [47]) exSched exS (fun r => decide (r.2 = .ok ∧ r.1.length = 4)) = true := by
    decide +kernel
  obtain ⟨h, s', ⟨ms, st⟩, hr, hq⟩ := playsTo_run h
  exact ⟨h, s', ms, st, hr, of_decide_eq_true hq⟩

/-! ## C12: collectors -/

/-- **C12** A traversal with any collector, whatever the collector and the other goroutines do: the metrics in `V`
are visited one after the other, each visit after the first only if the one before was successful, and the result
is that of the last visit (`Calls`).  The visits are in canonical order, and everything that is there all the time
is visited or comes after the metric at which the traversal ended. -/
theorem C12_calls (hs : Reachable w s) {coll : Coll A} {fuel : ℕ} {path : Str} {c : List Str} {a a' : A}
    (hc : Components path c) {h : List Ev} {st : Status}
    (hr : RunI w (getAllMetricsByPath coll fuel 0 path a) s h s' (a', st))
    (ho : ∀ e ∈ h, e.own = true → e.cmd.Ok e.pre) :
    let S := fun τ => τ ∈ statesOf h s'
    ∃ V : List (List Str × ℕ), (∃ sess, Calls w coll h (V.map Prod.snd) [] a sess a' st) ∧
      V.Pairwise (fun x y => x.1 < y.1) ∧ (∀ x ∈ V, c <+: x.1 ∧ Seen S 0 x.1 x.2) ∧
      ∀ p m, c <+: p → Stable S 0 p m → (p, m) ∈ V ∨ (st ≠ .ok ∧ ∀ x ∈ V, x.1 < p) := by
  intro S
  have hcc := C01_components_unique hc
  obtain ⟨h1, h2⟩ := RunI_reachable hr hs ho
  have hre : ∀ τ ∈ statesOf h s', Reachable w τ := by
    intro τ hτ
    rcases List.mem_append.mp hτ with hm | hm
    · obtain ⟨e, he, rfl⟩ := List.mem_map.mp hm
      exact h1 e he
    · rw [List.mem_singleton.mp hm]; exact h2
  obtain ⟨hT, hS⟩ := states_tree hr hre
  obtain ⟨⟨V, hV⟩, -⟩ := byPath_listing (S := S) hT hS hr
    (fun e he => List.mem_append_left _ (List.mem_map.mpr ⟨e, he, rfl⟩))
  rw [hcc]
  exact ⟨V, hV.calls, hV.sorted, hV.seen, hV.complete⟩

/-- a collector that fails at the third metric, with interference -/
example : ∃ h s' a, RunI exW (getAllMetricsByPath exColl 20 0 [47] []) exS h s' (a, .err 7) ∧ a = [0, 1, 2] := by
  have h : playsTo exW (getAllMetricsByPath exColl 20 0 [47] []) exSched exS
      (fun r => decide (r.2 = .err 7 ∧ r.1 = [0, 1, 2])) = true := by decide +kernel
  obtain ⟨h, s', ⟨ms, st⟩, hr, hq⟩ := playsTo_run h
  obtain ⟨h1, h2⟩ := of_decide_eq_true hq
  cases h1
  exact ⟨h, s', ms, hr, h2⟩

/-- **C12 (alone)** With a collector that only reads and nothing else going on, the metrics visited are a prefix of
the canonical list, and all of it if the result is success. -/
theorem C12_prefix (hs : Reachable w s) {coll : Coll A} (hcoll : ∀ m se a, OnlyReads (coll m se a)) {fuel : ℕ}
    {path : Str} {c : List Str} (a : A) (hc : Components path c) {L : List (List Str × ℕ)}
    (hL : Canonical s.tree c L) :
    let r := (getAllMetricsByPath coll fuel 0 path a).run w s
    ∃ V h sess, V <+: L ∧ (r.2.2 = .ok → V = L) ∧
      Calls w coll h (V.map Prod.snd) [] a sess r.2.1 r.2.2 ∧ ∀ e ∈ h, e.own = true ∧ e.pre = s := by
  intro r
  have hcc := C01_components_unique hc
  have ht := reachable_isTree hs
  obtain ⟨h, hr, hown, hst⟩ := RunI_alone (w := w) (getAllMetricsByPath_reads hcoll fuel 0 path a) s
  have hH : ∀ e ∈ h, e.own = true ∧ e.pre = s := fun e he =>
    ⟨hown e he, hst _ (List.mem_append_left _ (List.mem_map.mpr ⟨e, he, rfl⟩))⟩
  have hS : ∀ τ : State, τ = s → IsTree τ.tree ∧ Ext τ.tree s.tree := fun τ hτ => by
    rw [hτ]; exact ⟨ht, Ext.refl _⟩
  obtain ⟨⟨V, hV⟩, -⟩ := byPath_listing (S := (· = s)) ht hS
    (a' := r.2.1) (st := r.2.2) hr (fun e he => (hH e he).2)
  obtain ⟨sess, hcalls⟩ := hV.calls
  obtain ⟨hpre, heq⟩ := listing_now hs (S := (· = s)) (fun τ h => h) hV (hcc ▸ hL)
  exact ⟨V, h, sess, hpre, heq, hcalls, hH⟩

example : (∀ m se a, OnlyReads (exColl m se a)) ∧
    (getAllMetricsByPath exColl 20 0 [47] []).run exW exS = (exS, ([0, 1, 2], .err 7)) :=
  ⟨fun _ _ _ => trivial, by
    have h1 := run_reads (w := exW) (getAllMetricsByPath_reads (coll := exColl) (fun _ _ _ => trivial) 20 0 [47] []) exS
    have h2 : ((getAllMetricsByPath exColl 20 0 [47] []).run exW exS).2 = ([0, 1, 2], .err 7) := by decide +kernel
    exact Prod.ext h1 h2⟩

/-! ## C55: existence -/

/-- **C55 (GetMetric, singleton JSON)** Not found exactly if the path does not denote a metric. -/
theorem C55_get_metric (hs : Reachable w s) (json : Bool) {path : Str} {c : List Str} (hc : Components path c) :
    ((getMetricMsg json path).run w s).2 = none ↔ ∀ m, ¬ Reaches s.tree 0 c (.metric m) := by
  obtain ⟨h1, h2⟩ := getMetricMsg_now hs json (C01_components_unique hc)
  constructor
  · intro h m hm
    obtain ⟨mv, -, h3⟩ := h1 m hm
    rw [h3] at h
    cases h
  · intro h
    rw [h2 h]

example : ((getMetricMsg true [47, 97]).run exW exS).2 = none ∧
    ((getMetricMsg false [97, 47, 102]).run exW exS).2.isSome = true := by decide +kernel

/-- **C55 (text)** The text endpoint writes `*Path does not exist.*` and nothing else if the path denotes nothing; if
it denotes a directory it lists the directory; if it denotes a metric it writes that metric. -/
theorem C55_text (hs : Reachable w s) (fm : Fmts) {W : Type} (wr : Writer W) (fuel : ℕ) (x : W)
    {path : Str} {c : List Str} (hc : Components path c) :
    let r := (textEndpoint fm wr fuel path x).run w s
    ((∀ n, ¬ Reaches s.tree 0 c n) → r = (s, ((wr.write x (lit "*Path does not exist.*")).1, .ok))) ∧
    (∀ d, Reaches s.tree 0 c (.dir d) → r = (getAllMetrics (textColl fm wr) fuel d x).run w s) ∧
    (∀ m, Reaches s.tree 0 c (.metric m) → ∃ mv, metricView s.tree m = some mv ∧
      r = (s, ((textEmitMetric fm wr mv none x).run w s).2.2)) := by
  intro r
  have ht := reachable_isTree hs
  have hcc := C01_components_unique hc
  have hl : (lookupPath 0 path).run w s = (s, match s.tree.resolve 0 c with
      | some (.dir d') => (some d', none)
      | some (.metric m) => (none, some m)
      | none => (none, none)) := by
    unfold lookupPath
    rw [getDirectoryOrMetric_run ht, ← hcc]
    rfl
  refine ⟨?_, ?_, ?_⟩
  · intro hno
    show (textEndpoint fm wr fuel path x).run w s = _
    unfold textEndpoint
    rw [run_bind, hl]
    cases hr : s.tree.resolve 0 c with
    | none => rfl
    | some n => exact absurd ((resolve_iff ht).mp hr) (hno n)
  · intro d hd
    show (textEndpoint fm wr fuel path x).run w s = _
    unfold textEndpoint
    rw [run_bind, hl, (resolve_iff ht).mpr hd]
  · intro m hm
    obtain ⟨mo, h1, -⟩ := absPath_metric ht hm
    obtain ⟨mv, h2, -, -⟩ := metricView_some ht h1
    refine ⟨mv, h2, ?_⟩
    show (textEndpoint fm wr fuel path x).run w s = _
    unfold textEndpoint
    rw [run_bind, hl, (resolve_iff ht).mpr hm]
    simp only [Prog.run]
    have h3 : (exec w (.metric m) s).1 = s := rfl
    have h4 : (exec w (.metric m) s).2 = some mv := h2
    rw [h3, h4]
    simp only
    rw [run_bind, run_reads (textEmitMetric_reads fm wr mv none x)]
    rfl

example : ((textEndpoint ⟨fun _ => [], fun _ => [], fun _ => [], fun _ => [], fun _ => []⟩ exWriter 20 [47, 97] []).run exW exS).2 =
    (lit "/a/b/m 5\n/a/f 0\n", .ok) := by decide +kernel

end Tricorder
