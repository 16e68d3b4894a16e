import Verif.Proof.Whole4
import Verif.Proof.Http
import Verif.Proof.Kinds
import Verif.Props.Listing
import Verif.Props.Whole
/-!
# C72: listings of the whole library

The theorems about `RunI` treat the taking of a group as one step with an arbitrary answer.  Every call of the whole library,
where the groups are event loops and the update functions run on the shared memory, is such a run.
-/

namespace Tricorder.Whole
open Go Spec

variable {w : World}

/-- **C72 (calls are runs with interference)** Whatever the goroutines, the event loops and the update functions do: if a call
that begins at `x` is finished at the end, it is a run of `Model/Sys` from a reachable state, and the answers of the groups are
those that the event loops gave.  So the theorems about `RunI` hold of it. -/
theorem C72_embeds {A : Type} {a b : List (Item A)} {x : Item A} {s : St A} (hr : Run w (a ++ x :: b) s) {c : ℕ} {p : Prog A}
    (hx : x.lab = .spawn c p) (hn : ProgAll NotTick p) {r : A} {held : List (ℕ × ℕ)}
    (hd : s.procs[c]? = some ⟨.run (.ret r), held⟩) :
    ∃ T, (∀ i t, (answers c b)[i]? = some t → T (i + 1) = t) ∧ Reachable (timed w T) (code 0 x.post) ∧
      RunI (timed w T) p (code 0 x.post) (image c 0 b) (code (answers c b).length s.mem) r := by
  obtain ⟨h1, -, h2⟩ := hr.call hx hn hd
  exact ⟨_, fun i t h => by simp [timesOf, h], h1, h2⟩

theorem registerDirectory_noTick (d : ℕ) (p : List Str) : ProgAll NotTick (registerDirectory d p) := by
  induction p generalizing d with
  | nil => trivial
  | cons x p ih =>
    refine ⟨(fun _ h => nomatch h), fun r => ?_⟩
    cases r with
    | error e => trivial
    | ok d' => exact ih d'

theorem newValue_noTick (f : ℕ → GoTy) (spec : RegSpec) (region : Option ℕ) (u : MUnit) :
    ProgAll NotTick (newValue f spec region u) := by
  cases spec with
  | dist i =>
    cases i with
    | none => trivial
    | some i =>
      refine ⟨(fun _ h => nomatch h), fun r => ?_⟩
      match r with
      | none => trivial
      | some false => trivial
      | some true => trivial
  | list i => trivial
  | flag g b =>
    cases b <;>
    · refine ⟨(fun _ h => nomatch h), fun r => ?_⟩
      match r with
      | none => trivial
      | some _ => trivial
  | func n g =>
    simp only [newValue]
    split
    · trivial
    · split <;> trivial
  | ptr v =>
    refine ⟨(fun _ h => nomatch h), fun r => ?_⟩
    match r with
    | none => trivial
    | some d =>
      simp only
      split
      · trivial
      · split <;> trivial
  | invalid => trivial

theorem apiRegisterMetric_noTick (f : ℕ → GoTy) (d : ℕ) (path : Str) (spec : RegSpec) (g : Option ℕ) (u : MUnit) (desc : Str) :
    ProgAll NotTick (apiRegisterMetric f d path spec g u desc) := by
  unfold apiRegisterMetric registerMetric
  split
  · trivial
  · split
    · refine ProgAll_bind (registerDirectory_noTick _ _) fun r => ?_
      cases r with
      | error e => trivial
      | ok d' =>
        refine ProgAll_bind (newValue_noTick _ _ _ _) fun r => ?_
        match r with
        | .panic => trivial
        | .ok (.error e) => trivial
        | .ok (.ok v) =>
          refine ⟨(fun _ h => nomatch h), fun r => ?_⟩
          cases r <;> trivial
    · trivial

theorem getDirectory_noTick (d : ℕ) (p : List Str) : ProgAll NotTick (getDirectory d p) := by
  induction p generalizing d with
  | nil => trivial
  | cons x p ih =>
    refine ⟨(fun _ h => nomatch h), fun r => ?_⟩
    match r with
    | none => trivial
    | some (_, n) =>
      simp only
      split
      · trivial
      · exact ih _

theorem apiUnregisterPath_noTick (d : ℕ) (path : Str) : ProgAll NotTick (apiUnregisterPath d path) := by
  unfold apiUnregisterPath unregisterPath
  split
  · refine ProgAll_bind (getDirectory_noTick _ _) fun r => ?_
    cases r with
    | none => trivial
    | some d' => exact ⟨(fun _ h => nomatch h), fun r => trivial⟩
  · trivial

/-- The hypothesis of `C72_embeds` about the program holds for registration, removal, listings, single metrics and pages. -/
theorem C72_no_tick :
    (∀ f d path spec g u desc, ProgAll NotTick (apiRegisterMetric f d path spec g u desc)) ∧
    (∀ d path, ProgAll NotTick (apiRegisterDirectory d path)) ∧ (∀ d path, ProgAll NotTick (apiUnregisterPath d path)) ∧
    (∀ json fuel path, ProgAll NotTick (listMetrics json fuel path)) ∧ (∀ json path, ProgAll NotTick (getMetricMsg json path)) ∧
    (∀ (fm : Fmts) (W : Type) (wr : Writer W) fuel path x, ProgAll NotTick (textEndpoint fm wr fuel path x)) ∧
    ∀ (fm : Fmts) (W : Type) (wr : Writer W) path x, ProgAll NotTick (htmlEndpoint fm wr path x) := by
  exact ⟨apiRegisterMetric_noTick, fun _ _ => registerDirectory_noTick _ _, apiUnregisterPath_noTick,
    fun _ _ _ => notTick_reads (listMetrics_reads _ _ _), fun _ _ => notTick_reads (getMetricMsg_reads _ _),
    fun _ _ _ _ _ _ => notTick_reads (textEndpoint_reads ..), fun _ _ _ _ _ => notTick_reads (htmlEndpoint_reads ..)⟩

theorem listCall_run {tr a b : List (Item Answer)} {x : Item Answer} {s : St Answer} (hr : Run w tr s) {c fuel : ℕ} {json : Bool}
    {path : Str} (htr : tr = a ++ x :: b) (hx : x.lab = .spawn c (listCall json fuel path)) {ms : List Metric} {st : Status}
    {held : List (ℕ × ℕ)} (hd : s.procs[c]? = some ⟨.run (.ret (.listing ms st)), held⟩) :
    Reachable (timed w (timesOf (answers c b))) (code 0 x.post) ∧ (∃ s0, s0.mem = x.post ∧ Path w s0 b s) ∧
    RunI (timed w (timesOf (answers c b))) (listMetrics json fuel path) (code 0 x.post) (image c 0 b)
      (code (answers c b).length s.mem) (ms, st) := by
  subst htr
  obtain ⟨h1, h2, h3⟩ := hr.call hx
    (notTick_reads (ProgAll_bind (listMetrics_reads json fuel path) fun _ => trivial)) hd
  obtain ⟨⟨ms', st'⟩, h4, h5⟩ := RunI_map h3
  cases h5
  exact ⟨h1, h2, h4⟩

/-- **C72 (listing)** A listing of the whole library, which begins at `x` and is finished at the end, while other goroutines and
the update functions of the groups do anything.  The paths are strictly ascending.  Everything reported was found in its
directory, and the directory in its directory, and so on up to the root, at moments during the call, under the path with which
it is reported; and what is reported was true at a moment during the call, with the time that the event loop of the group gave
to this call.  If the listing does not panic, a metric that is registered at one path all the time is reported, unless it
is found infinite or NaN. -/
theorem C72_listing {a b : List (Item Answer)} {x : Item Answer} {s : St Answer} (hr : Run w (a ++ x :: b) s) {c fuel : ℕ}
    {json : Bool} {path : Str} {q : List Str} (hq : Components path q) (hx : x.lab = .spawn c (listCall json fuel path))
    {ms : List Metric} {st : Status} {held : List (ℕ × ℕ)} (hd : s.procs[c]? = some ⟨.run (.ret (.listing ms st)), held⟩) :
    let S := During b s.mem
    ∃ U : List ((List Str × ℕ) × Metric), ms = U.map Prod.snd ∧
      U.Pairwise (fun x y => x.1.1 < y.1.1) ∧
      (∀ u ∈ U, q <+: u.1.1 ∧ Seen S 0 u.1.1 u.1.2 ∧ u.2.path = 47 :: List.intercalate [47] u.1.1 ∧
        (∃ mv y, (∃ σ, S σ ∧ metricView σ.tree u.1.2 = some mv) ∧ encodeMetric json y = .ok u.2 ∧
          Describes y mv ∧ Tells w c b s.mem mv y) ∧
        ¬ AlwaysInfNaN w S u.1.2) ∧
      (st = .ok → ∀ p m, q <+: p → Stable S 0 p m → NeverInfNaN w S m → ∃ y, ((p, m), y) ∈ U) := by
  intro S
  have hqq := C01_components_unique hq
  obtain ⟨hre, ⟨s0, -, hpath⟩, hrun⟩ := listCall_run hr rfl hx hd
  obtain ⟨⟨U, sess, h1, h2, h3, h4, h5⟩, -⟩ := listMetrics_run hre hrun
  have hS : ∀ τ, τ ∈ statesOf (image c 0 b) (code (answers c b).length s.mem) → ∃ τ' j, S τ' ∧ τ = code j τ' :=
    fun τ hτ => image_states hτ
  refine ⟨U, h1, h2, ?_, ?_⟩
  · intro u hu
    obtain ⟨a1, a2, a3, mv, y, ⟨σ, hσ, hm⟩, b2, b3, b4, b5, b6⟩ := h3 u hu
    obtain ⟨σ', j, hσ', rfl⟩ := hS σ hσ
    refine ⟨hqq ▸ a1, seen_code hS a2, a3, ⟨mv, y, ⟨σ', hσ', hm⟩, b2, b3, PreTells.whole hS b4 b5 ?_⟩, ?_⟩
    · intro r t hl
      obtain ⟨e, he, ho, hc, ht⟩ := h5 r t hl
      obtain ⟨it, hit, cl, t', i, g1, g2, g3⟩ := image_rlock hpath.no_rlock he ho hc
      have : t = t' := by
        rw [ht, g2]
        simp [timed, code, timesOf, Nat.unpair_pair, g3]
      exact ⟨it, hit, cl, this ▸ g1⟩
    · intro hal
      obtain ⟨c1, c2⟩ := alwaysInfNaN_code hS hal _ hσ mv hm
      obtain ⟨sc, d, τ, d1, d2, d3, d4⟩ := b6 c1
      exact d4 (c2 τ d2 sc d d1 d3)
  · intro hok p m hp hstab hnever
    rcases h4 p m (hqq ▸ hp) (stable_code hS hstab) with a | ⟨mv, sc, d, σ, τ, b1, b2, b3, b4, b5, b6, b7⟩ | a
    · exact a
    · obtain ⟨σ', j, hσ', rfl⟩ := hS σ b1
      obtain ⟨τ', j', hτ', rfl⟩ := hS τ b5
      rw [current_code] at b6
      exact absurd b7 (hnever σ' hσ' mv b2 b3 τ' hτ' sc d b4 b6)
    · exact absurd hok a

/-- **C72 (end)** It does not run out of the fuel of the model, if the fuel exceeds the number of entries that were ever made. -/
theorem C72_ends {a b : List (Item Answer)} {x : Item Answer} {s : St Answer} (hr : Run w (a ++ x :: b) s) {c fuel : ℕ}
    {json : Bool} {path : Str} (hx : x.lab = .spawn c (listCall json fuel path)) {ms : List Metric} {st : Status}
    {held : List (ℕ × ℕ)} (hd : s.procs[c]? = some ⟨.run (.ret (.listing ms st)), held⟩)
    (hf : s.mem.tree.entries.length < fuel) : st = .ok ∨ st = .panic := by
  obtain ⟨hre, -, hrun⟩ := listCall_run hr rfl hx hd
  exact C13_listing_ends hre hrun hf

/-- the hypotheses of C72 hold of the example of C70 -/
example : ∃ (a b : List (Item Answer)) (x : Item Answer) (s : St Answer) (ms : List Metric), Run exW (a ++ x :: b) s ∧
    x.lab = .spawn 1 (listCall true 3 (lit "/")) ∧ s.procs[1]? = some ⟨.run (.ret (.listing ms .ok)), []⟩ ∧ ms.length = 2 ∧
    Components (lit "/") [] ∧ ∃ U : List ((List Str × ℕ) × Metric), ms = U.map Prod.snd ∧ U.length = 2 ∧
      ∀ u ∈ U, ∃ mv y, Describes y mv ∧ Tells exW 1 b s.mem mv y := by
  obtain ⟨tr, s, h1, ⟨x, hx, h2⟩, ⟨ms, h3, h4⟩, -⟩ := exPlay_finished
  obtain ⟨a, b, rfl⟩ := List.append_of_mem hx
  have hc : Components (lit "/") [] := C01_components (lit "/")
  obtain ⟨U, u1, -, u2, -⟩ := C72_listing h1 hc h2 h3
  refine ⟨a, b, x, s, ms, h1, h2, h3, h4, hc, U, u1, by rw [← h4, u1, List.length_map], fun u hu => ?_⟩
  obtain ⟨-, -, -, ⟨mv, y, -, -, g1, g2⟩, -⟩ := u2 u hu
  exact ⟨mv, y, g1, g2⟩

theorem exPlay_entries : exPlay.map (fun x => decide (x.2.mem.tree.entries.length < 3)) = some true := by
  decide +kernel

example : ∃ (x : List (Item Answer) × St Answer), exPlay = some x ∧ Run exW x.1 x.2 ∧ x.2.mem.tree.entries.length < 3 := by
  have h := exPlay_entries
  cases hp : exPlay with
  | none => rw [hp] at h; cases h
  | some x => rw [hp] at h; exact ⟨x, rfl, playW_run .nil hp, by simpa using h⟩

end Tricorder.Whole
