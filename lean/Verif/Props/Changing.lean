import Verif.Proof.Changing
import Verif.Proof.PlayI
import Verif.Props.Ex
import Verif.Props.Path
/-!
# C77, C78: looking up, registering and unregistering while others change the tree
-/

namespace Tricorder
open Go Spec Tree

variable {w : World} {s s' : State} {h : List Ev}

/-! ## Looking up -/

/-- **C77 (right at a moment)** Whatever other goroutines register and unregister meanwhile: unless somebody unregisters
a directory on the way (or at the path) meanwhile, there is a moment during the look-up at which its answer is right. -/
theorem C77_lookup {d : ℕ} {path : Str} {c : List Str} (hc : Components path c) {r} (hs : Reachable w s)
    (hr : RunI w (lookupPath d path) s h s' r) :
    CutBy w d c h ∨ ∃ σ ∈ statesOf h s', RightAt σ d c r := by
  rw [C01_components_unique hc]
  exact getDirectoryOrMetric_walk hs hr

/-- **C77 (nothing found)** If the answer is that there is nothing at the path, then there is a moment during the look-up
at which there was nothing; here nothing is assumed about the other goroutines. -/
theorem C77_missing {d : ℕ} {path : Str} {c : List Str} (hc : Components path c) (hs : Reachable w s)
    (hr : RunI w (lookupPath d path) s h s' (none, none)) : ∃ σ ∈ statesOf h s', ∀ n, ¬ Reaches σ.tree d c n := by
  rcases C77_lookup hc hs hr with h1 | h1
  · exact cut_nowhere hr h1
  · exact h1

/-- **C77 (what stays is found)** What is at the path all the time is found. -/
theorem C77_stays {d : ℕ} {path : Str} {c : List Str} (hc : Components path c) {r} (hs : Reachable w s)
    (hr : RunI w (lookupPath d path) s h s' r) {n : Node} (hn : ∀ σ ∈ statesOf h s', Reaches σ.tree d c n) :
    r = match n with
      | .dir x => (some x, none)
      | .metric m => (none, some m) := by
  rcases C77_lookup hc hs hr with h1 | ⟨σ, hσ, h1⟩
  · obtain ⟨σ, hσ, h2⟩ := cut_nowhere hr h1
    exact absurd (hn σ hσ) (h2 n)
  · have ht := ((RunI_reads (lookupPath_reads _ _) hr hs).1 σ hσ)
    have hu := fun n' => reaches_unique (reachable_isTree ht) (hn σ hσ) (n2 := n')
    rcases r with ⟨_ | x, _ | m⟩
    · exact absurd (hn σ hσ) (h1 n)
    · cases hu _ h1; rfl
    · cases hu _ h1; rfl
    · exact h1.elim

/-- **C77 (what is found)** A metric that is found was reached by links each of which was there at a moment of the
look-up; the path it reports is the path asked for; and if it can be reached from the root at all when the look-up is
over, then at the path asked for. -/
theorem C77_found {path : Str} {c : List Str} (hc : Components path c) (hs : Reachable w s) {m : ℕ}
    (hr : RunI w (lookupPath 0 path) s h s' (none, some m)) :
    Seen (fun τ => τ ∈ statesOf h s') 0 c m ∧
    (∃ mv, metricView s'.tree m = some mv ∧ mv.path = 47 :: List.intercalate [47] c) ∧
    ∀ b, Reaches s'.tree 0 b (.metric m) → b = c := by
  have hre := (RunI_reads (lookupPath_reads _ _) hr hs).1
  obtain ⟨ht, hS⟩ := states_tree hr hre
  have hcc := C01_components_unique hc
  rcases lookup_seen ht hS hr (fun e he => List.mem_append_left _ (List.mem_map.mpr ⟨e, he, rfl⟩)) with
    ⟨x, h1, _⟩ | ⟨m', h1, h2, _⟩ | ⟨h1, _⟩
  · cases h1
  · cases h1
    rw [← hcc] at h2
    refine ⟨h2, trail_view ht (seen_trail hS h2), fun b hb => ?_⟩
    obtain ⟨a, k1, k2⟩ := seen_attached ht hS h2 hb
    have : a = [] := reaches_path_unique ht k2 (.here 0) ht.rootIn
    rw [k1, this, List.nil_append]
  · cases h1

/-- **C77 (requests)** If a request for a single metric (`GetMetric` over RPC, `/metricsapi/...?singleton`) is answered
with "not found" then there is a moment during the request at which no metric was at the path. -/
theorem C77_get {json : Bool} {path : Str} {c : List Str} (hc : Components path c) (hs : Reachable w s)
    (hr : RunI w (getMetricMsg json path) s h s' none) : ∃ σ ∈ statesOf h s', ∀ m, ¬ Reaches σ.tree 0 c (.metric m) := by
  unfold getMetricMsg getMetric at hr
  obtain ⟨h1, s1, a, h2, rfl, r1, r2⟩ := RunI_bind hr
  obtain ⟨h3, s3, ⟨x, y⟩, h4, rfl, r3, r4⟩ := RunI_bind r1
  have ha := (RunI_ret r4).1
  cases a with
  | some m =>
    exfalso
    simp only at r2
    obtain ⟨k1, t1, k2, rfl, q1, q2⟩ := RunI_op r2
    cases hv : (exec w (.metric m) t1).2 with
    | none =>
      rw [hv] at q2
      exact nomatch (RunI_ret q2).1
    | some mv =>
      rw [hv] at q2
      obtain ⟨_, _, _, _, _, _, q3⟩ := RunI_bind q2
      exact nomatch (RunI_ret q3).1
  | none =>
    simp only at ha
    subst ha
    have hmem : ∀ {σ}, σ ∈ statesOf h3 s3 → σ ∈ statesOf (h3 ++ h4 ++ h2) s' := fun hσ =>
      mem_states_left (RunI_head r2) (mem_states_left (RunI_head r4) hσ)
    rcases C77_lookup hc hs r3 with k | ⟨σ, hσ, k⟩
    · obtain ⟨σ, hσ, k1⟩ := cut_nowhere r3 k
      exact ⟨σ, hmem hσ, fun m => k1 _⟩
    · refine ⟨σ, hmem hσ, fun m hm => ?_⟩
      cases x with
      | none => exact k _ hm
      | some x =>
        have ht := ((RunI_reads (lookupPath_reads _ _) r3 hs).1 σ hσ)
        cases reaches_unique (reachable_isTree ht) k hm

/-- **C77 (GetDirectory)** Unless somebody unregisters a directory on the way meanwhile: a directory that `GetDirectory`
returns is at the path when it returns; `ErrNotFound` says that there was nothing at the path at some moment, and
`ErrPathInUse` that there was a metric on the way or at the path. -/
theorem C77_directory {path : Str} {c : List Str} (hc : Components path c) {r} (hs : Reachable w s)
    (hr : RunI w (apiGetDirectory path) s h s' r) :
    CutBy w 0 c h ∨ (∃ x, r = .ok x ∧ Reaches s'.tree 0 c (.dir x)) ∨
      (r = .error .notFound ∧ ∃ σ ∈ statesOf h s', ∀ n, ¬ Reaches σ.tree 0 c n) ∨
      (r = .error .pathInUse ∧ ∃ σ ∈ statesOf h s', ∃ v m, v <+: c ∧ Reaches σ.tree 0 v (.metric m)) := by
  rw [C01_components_unique hc]
  exact getDirectoryAndError_walk (u := []) hs (.here 0) hr

/-! ## Registering -/

/-- **C78 (RegisterMetric)** Unless somebody unregisters a directory on the way meanwhile: if `RegisterMetric` returns
nil, then one of its steps has put a metric, with the description, value, unit and group of the call, where nothing was
before; `ErrPathInUse` says that there was a metric on the way, or something at the path, at some moment; any other
result says that the value could not be registered at some moment. -/
theorem C78_metric {d : ℕ} {path : Str} {c : List Str} (hc : Components path c) {spec : RegSpec} {group : Option ℕ}
    {unit : MUnit} {desc : Str} {r} (hs : Reachable w s) (hd : d < s.tree.dirs.length)
    (hr : RunI w (apiRegisterMetric w.fnTy d path spec group unit desc) s h s' r) :
    CutBy w d c.dropLast h ∨
    (r = .ok (.ok ()) ∧ ∃ e ∈ h, e.own = true ∧ ∃ m v en, (∀ n, ¬ Reaches e.pre.tree d c n) ∧
        Reaches (exec w e.cmd e.pre).1.tree d c (.metric m) ∧
        (exec w e.cmd e.pre).1.tree.metrics[m]? = some ⟨desc, v, en⟩ ∧ StandsFor v spec group unit) ∨
    (r = .ok (.error .pathInUse) ∧ ∃ σ ∈ statesOf h s', (∃ u m, u <+: c ∧ Reaches σ.tree d u (.metric m)) ∨
          ∃ n, Reaches σ.tree d c n) ∨
    (r ≠ .ok (.ok ()) ∧ r ≠ .ok (.error .pathInUse) ∧ ∃ σ ∈ statesOf h s', valueSays w σ unit spec ≠ .ok none) := by
  rw [C01_components_unique hc]
  exact registerMetric_walk (fun x hx => newPathSpec_comp hx) hs hd hr

/-- **C78 (RegisterDirectory)** Unless somebody unregisters a directory on the way meanwhile: the directory that
`RegisterDirectory` returns is at the path when it returns, and its only error, `ErrPathInUse`, says that there was a
metric on the way or at the path at some moment. -/
theorem C78_directory {d : ℕ} {path : Str} {c : List Str} (hc : Components path c) {r} (hs : Reachable w s)
    (hd : d < s.tree.dirs.length) (hr : RunI w (apiRegisterDirectory d path) s h s' r) :
    CutBy w d c h ∨ (∃ x, r = .ok x ∧ Reaches s'.tree d c (.dir x)) ∨
      (r = .error .pathInUse ∧ ∃ σ ∈ statesOf h s', ∃ v m, v <+: c ∧ Reaches σ.tree d v (.metric m)) := by
  rw [C01_components_unique hc]
  exact registerDirectory_walk (u := []) (fun x hx => newPathSpec_comp hx) hs hd (.here d) hr

/-! ## Unregistering -/

/-- **C78 (UnregisterPath)** Whatever others do meanwhile, there is a moment during `UnregisterPath` at which there is
nothing at the path. -/
theorem C78_unregister {d : ℕ} {path : Str} {c : List Str} (hc : Components path c) (h0 : c ≠ []) {r} (hs : Reachable w s)
    (hr : RunI w (apiUnregisterPath d path) s h s' r) : ∃ σ ∈ statesOf h s', ∀ n, ¬ Reaches σ.tree d c n := by
  rw [C01_components_unique hc] at h0 ⊢
  exact unregisterPath_walk h0 hs hr

/-- **C78 (UnregisterPath, nothing else)** Whatever others do meanwhile, its own steps add nothing, and all that they
remove is at or under the path. -/
theorem C78_unregister_only {d : ℕ} {path : Str} {c : List Str} (hc : Components path c) {r} (hs : Reachable w s)
    (hr : RunI w (apiUnregisterPath d path) s h s' r) {e : Ev} (he : e ∈ h) (ho : e.own = true) :
    (∀ q n, Reaches (exec w e.cmd e.pre).1.tree 0 q n → Reaches e.pre.tree 0 q n) ∧
    (∀ q n, Reaches e.pre.tree 0 q n → Reaches (exec w e.cmd e.pre).1.tree 0 q n ∨
      ∃ a, Reaches e.pre.tree 0 a (.dir d) ∧ a ++ c <+: q) := by
  rw [C01_components_unique hc]
  exact unregisterPath_frame hs hr he ho

/-! ## What unregistering a directory on the way does -/

/-- nothing is at `p` in any state of the run -/
def neverAt (p : List Str) (h : List Ev) (s' : State) : Bool :=
  (statesOf h s').all fun σ => decide (σ.tree.resolve 0 p = none)

theorem neverAt_iff {p : List Str} {h : List Ev} {s' : State} (hre : ∀ τ ∈ statesOf h s', Reachable w τ)
    (hn : neverAt p h s' = true) : ∀ σ ∈ statesOf h s', ∀ n, ¬ Reaches σ.tree 0 p n := by
  intro σ hσ n hx
  have h1 := List.all_eq_true.mp hn σ hσ
  rw [(resolve_iff (reachable_isTree (hre σ hσ))).mpr hx] at h1
  exact absurd (of_decide_eq_true h1) (by simp)

/-- **C77 (not without the exception)** A metric may be found at a path at which there never was anything: while the
look-up is inside the directory `a/b`, another goroutine unregisters `a` and registers a metric by its handle of `a/b`. -/
theorem C77_found_nowhere : ∃ h s' m, RunI exW (lookupPath 0 (lit "/a/b/z")) exS h s' (none, some m) ∧
    ∀ σ ∈ statesOf h s', ∀ n, ¬ Reaches σ.tree 0 [nA, nB, lit "z"] n := by
  have h : playsWith exW (lookupPath 0 (lit "/a/b/z"))
      [[], [], [.unregisterDir 1, .storeMetric 2 (lit "z") [] exVarValue]] exS
      (fun h s' r => decide (r.1 = none) && r.2.isSome && neverAt [nA, nB, lit "z"] h s') = true := by decide +kernel
  obtain ⟨h, s', ⟨x, y⟩, hr, hq⟩ := playsWith_run h
  simp only [Bool.and_eq_true, decide_eq_true_eq, Option.isSome_iff_exists] at hq
  obtain ⟨⟨rfl, m, rfl⟩, h2⟩ := hq
  exact ⟨h, s', m, hr, neverAt_iff (RunI_reads (lookupPath_reads _ _) hr exS_reachable).1 h2⟩

/-- the states of a run of RegisterMetric are reachable -/
theorem registerMetric_states {d : ℕ} {path : Str} {spec : RegSpec} {group : Option ℕ} {unit : MUnit} {desc : Str} {r}
    (hs : Reachable w s) (hd : d < s.tree.dirs.length)
    (hr : RunI w (apiRegisterMetric w.fnTy d path spec group unit desc) s h s' r) : ∀ τ ∈ statesOf h s', Reachable w τ := by
  obtain ⟨h1, h2⟩ := RunI_reachable hr hs (registerMetric_safe (fun x hx => newPathSpec_comp hx) hs hd hr)
  intro τ hτ
  rcases List.mem_append.mp hτ with h3 | h3
  · obtain ⟨e, he, rfl⟩ := List.mem_map.mp h3
    exact h1 e he
  · rw [List.mem_singleton.mp h3]
    exact h2

/-- **C78 (not without the exception)** `RegisterMetric` may return nil though the metric is at no moment at its path:
another goroutine unregisters the directory just before the metric is put into it. -/
theorem C78_lost : ∃ h s', RunI exW (apiRegisterMetric exW.fnTy 0 (lit "/a/x") (.func 1 0) none .none []) exS h s' (.ok (.ok ())) ∧
    ∀ σ ∈ statesOf h s', ∀ n, ¬ Reaches σ.tree 0 [nA, lit "x"] n := by
  have h : playsWith exW (apiRegisterMetric exW.fnTy 0 (lit "/a/x") (.func 1 0) none .none []) [[], [.unregisterDir 1]] exS
      (fun h s' r => decide (r = .ok (.ok ())) && neverAt [nA, lit "x"] h s') = true := by decide +kernel
  obtain ⟨h, s', r, hr, hq⟩ := playsWith_run h
  simp only [Bool.and_eq_true, decide_eq_true_eq] at hq
  obtain ⟨rfl, h2⟩ := hq
  exact ⟨h, s', hr, neverAt_iff (registerMetric_states exS_reachable (by decide) hr) h2⟩

/-- **C78 (not without the exception)** `RegisterMetric` may return `ErrPathInUse` though there is nothing at the path at
any moment, and no metric on the way: the path is in use in the directory that was unregistered meanwhile. -/
theorem C78_in_use_nowhere : ∃ h s',
    RunI exW (apiRegisterMetric exW.fnTy 0 (lit "/a/x") (.func 1 0) none .none []) exS h s' (.ok (.error .pathInUse)) ∧
    ∀ σ ∈ statesOf h s', (∀ n, ¬ Reaches σ.tree 0 [nA, lit "x"] n) ∧ ∀ m, ¬ Reaches σ.tree 0 [nA] (.metric m) := by
  have h : playsWith exW (apiRegisterMetric exW.fnTy 0 (lit "/a/x") (.func 1 0) none .none [])
      [[], [.unregisterDir 1, .storeMetric 1 (lit "x") [] exVarValue]] exS
      (fun h s' r => decide (r = .ok (.error .pathInUse)) && neverAt [nA, lit "x"] h s' &&
        (statesOf h s').all fun σ => decide (σ.tree.resolve 0 [nA] = none) || decide (σ.tree.resolve 0 [nA] = some (.dir 1))) = true := by
    decide +kernel
  obtain ⟨h, s', r, hr, hq⟩ := playsWith_run h
  simp only [Bool.and_eq_true, decide_eq_true_eq] at hq
  obtain ⟨⟨rfl, h2⟩, h3⟩ := hq
  have hre := registerMetric_states exS_reachable (by decide) hr
  refine ⟨h, s', hr, fun σ hσ => ⟨neverAt_iff hre h2 σ hσ, fun m hm => ?_⟩⟩
  have h4 := List.all_eq_true.mp h3 σ hσ
  rw [(resolve_iff (reachable_isTree (hre σ hσ))).mpr hm] at h4
  simp at h4

/-! ## Examples -/

/-- what others do: `/z` is registered and `/a/f` unregistered while `/a/b/m` is looked up -/
def exAround : List (List Cmd) := [[.storeMetric 0 (lit "z") [] exVarValue], [.removeEntry 1 nF], [.createDir 2 (lit "n")]]

/-- the hypotheses of `C77_lookup`, `C77_stays` and `C77_found` -/
example : ∃ h s' m, RunI exW (lookupPath 0 (lit "/a/b/m")) exS h s' (none, some m) ∧ Reachable exW exS ∧
    Components (lit "/a/b/m") [nA, nB, nM] ∧ (∀ σ ∈ statesOf h s', Reaches σ.tree 0 [nA, nB, nM] (.metric m)) ∧
    (∃ e ∈ h, e.own = false) ∧ s'.tree.resolve 0 [nA, nF] = none := by
  have h : playsWith exW (lookupPath 0 (lit "/a/b/m")) exAround exS
      (fun h s' r => decide (r = (none, some 0)) && ((statesOf h s').all fun σ =>
        decide (σ.tree.resolve 0 [nA, nB, nM] = some (.metric 0))) && (h.any fun e => !e.own) &&
        decide (s'.tree.resolve 0 [nA, nF] = none)) = true := by decide +kernel
  obtain ⟨h, s', r, hr, hq⟩ := playsWith_run h
  simp only [Bool.and_eq_true, decide_eq_true_eq, List.all_eq_true, List.any_eq_true, Bool.not_eq_true'] at hq
  obtain ⟨⟨⟨rfl, h2⟩, h3⟩, h4⟩ := hq
  refine ⟨h, s', 0, hr, exS_reachable, ?_, fun σ hσ => ?_, h3, h4⟩
  · rw [show [nA, nB, nM] = newPathSpec (lit "/a/b/m") by decide +kernel]; exact C01_components _
  · exact (resolve_iff (reachable_isTree ((RunI_reads (lookupPath_reads _ _) hr exS_reachable).1 σ hσ))).mp (h2 σ hσ)

/-- the hypotheses of `C77_missing` and `C77_get`: the metric is unregistered just before it is reached -/
example : ∃ h s', RunI exW (lookupPath 0 (lit "/a/b/m")) exS h s' (none, none) ∧ exS.tree.resolve 0 [nA, nB, nM] = some (.metric 0) := by
  have h : playsWith exW (lookupPath 0 (lit "/a/b/m")) [[], [], [.removeEntry 2 nM]] exS
      (fun _ _ r => decide (r = (none, none))) = true := by decide +kernel
  obtain ⟨h, s', r, hr, hq⟩ := playsWith_run h
  rw [of_decide_eq_true hq] at hr
  exact ⟨h, s', hr, by decide +kernel⟩

example : ∃ h s', RunI exW (getMetricMsg true (lit "/a/b/m")) exS h s' none := by
  have h : playsWith exW (getMetricMsg true (lit "/a/b/m")) [[], [], [.removeEntry 2 nM]] exS
      (fun _ _ r => decide (r.isNone)) = true := by decide +kernel
  obtain ⟨h, s', r, hr, hq⟩ := playsWith_run h
  rw [Option.isNone_iff_eq_none.mp (of_decide_eq_true hq)] at hr
  exact ⟨h, s', hr⟩

/-- `C77_directory`: somebody puts a metric where the directory was -/
example : ∃ h s', RunI exW (apiGetDirectory (lit "/a/b")) exS h s' (.error .pathInUse) := by
  have h : playsWith exW (apiGetDirectory (lit "/a/b")) [[], [.removeEntry 1 nB, .storeMetric 1 nB [] exVarValue]] exS
      (fun _ _ r => decide (r = .error .pathInUse)) = true := by decide +kernel
  obtain ⟨h, s', r, hr, hq⟩ := playsWith_run h
  rw [of_decide_eq_true hq] at hr
  exact ⟨h, s', hr⟩

/-- `C78_metric`: success while others register and unregister next to it -/
example : ∃ h s', RunI exW (apiRegisterMetric exW.fnTy 0 (lit "/a/b/x") (.func 1 0) none .none []) exS h s' (.ok (.ok ())) ∧
    s'.tree.resolve 0 [nA, nF] = none ∧ ∃ m, s'.tree.resolve 0 [nA, nB, lit "x"] = some (.metric m) := by
  have h : playsWith exW (apiRegisterMetric exW.fnTy 0 (lit "/a/b/x") (.func 1 0) none .none []) exAround exS
      (fun _ s' r => decide (r = .ok (.ok ())) && decide (s'.tree.resolve 0 [nA, nF] = none) &&
        decide (s'.tree.resolve 0 [nA, nB, lit "x"] = some (.metric 5))) = true := by decide +kernel
  obtain ⟨h, s', r, hr, hq⟩ := playsWith_run h
  simp only [Bool.and_eq_true, decide_eq_true_eq] at hq
  obtain ⟨⟨rfl, h2⟩, h3⟩ := hq
  exact ⟨h, s', hr, h2, 5, h3⟩

/-- `C78_directory` and `C78_unregister` -/
example : ∃ h s' x, RunI exW (apiRegisterDirectory 0 (lit "/a/b/x")) exS h s' (.ok x) ∧ (∃ e ∈ h, e.own = false) := by
  have h : playsWith exW (apiRegisterDirectory 0 (lit "/a/b/x")) exAround exS
      (fun h _ r => decide (r = .ok 6) && (h.any fun e => !e.own)) = true := by decide +kernel
  obtain ⟨h, s', r, hr, hq⟩ := playsWith_run h
  simp only [Bool.and_eq_true, decide_eq_true_eq, List.any_eq_true, Bool.not_eq_true'] at hq
  obtain ⟨rfl, h2⟩ := hq
  exact ⟨h, s', 6, hr, h2⟩

/-- while `/a/f` is unregistered somebody else replaces the directory `/a` by another one with a metric `f`, which stays -/
example : ∃ h s', RunI exW (apiUnregisterPath 0 (lit "/a/f")) exS h s' () ∧ Components (lit "/a/f") [nA, nF] ∧
    (∃ e ∈ h, e.own = true ∧ e.cmd = .removeEntry 1 nF) ∧ ∃ m, s'.tree.resolve 0 [nA, nF] = some (.metric m) := by
  have h : playsWith exW (apiUnregisterPath 0 (lit "/a/f"))
      [[], [.unregisterDir 1, .createDir 0 nA, .storeMetric 5 nF [] exVarValue]] exS
      (fun h s' _ => (h.any fun e => e.own && match e.cmd with | .removeEntry d n => decide (d = 1 ∧ n = nF) | _ => false) &&
        decide (s'.tree.resolve 0 [nA, nF] = some (.metric 4))) = true := by decide +kernel
  obtain ⟨h, s', r, hr, hq⟩ := playsWith_run h
  simp only [Bool.and_eq_true, decide_eq_true_eq, List.any_eq_true] at hq
  obtain ⟨⟨e, h1, h2, h3⟩, h4⟩ := hq
  refine ⟨h, s', hr, ?_, ⟨e, h1, h2, ?_⟩, 4, h4⟩
  · rw [show [nA, nF] = newPathSpec (lit "/a/f") by decide +kernel]; exact C01_components _
  · rcases e with ⟨o, c, t⟩
    cases c <;> simp at h3
    obtain ⟨rfl, rfl⟩ := h3
    rfl

end Tricorder
