import Verif.Proof.Text
import Verif.Proof.Typed
import Verif.Proof.Bucketer
import Verif.Props.Listing
import Verif.Props.Kinds
/-!
# C63: the text page shows what the RPC listing reports

The text page at a path (`/repo/go/tricorder/html.go:245-289`) against `ListMetrics` and `GetMetric`, in a state in which
nothing else happens.  `Typed w s`: the metrics were registered through the interface and the program's values are
values of their Go types.  `TextOf fm y txt` is in `Verif/Spec/Text.lean`.
-/

namespace Tricorder
open Go Spec Tree _root_.Spec

variable {w : World} {s : State} {W : Type}

theorem all_prefix (wr : Writer W) (x : W) {a b : List Str} (h : (wr.all x a).2 ≠ .ok) : wr.all x (a ++ b) = wr.all x a := by
  rw [all_append]
  split
  · rename_i h1; rw [h1] at h; exact absurd rfl h
  · rfl

theorem text_lines (fm : Fmts) (ht : Typed w s) : ∀ V : List ℕ, (∀ m ∈ V, nowItem w s false m ≠ .panic) →
    ∃ lines : List (List Str), lines.flatten = V.flatMap (lineChunks fm w s) ∧
      List.Forall₂ (fun y l => ∃ txt, l.flatten = y.path ++ lit " " ++ txt ++ lit "\n" ∧ TextOf fm y txt)
        (V.filterMap fun m => match nowItem w s false m with | .ok o => o | .panic => none) lines
  | [], _ => ⟨[], rfl, .nil⟩
  | m :: V, h => by
    obtain ⟨lines, h1, h2⟩ := text_lines fm ht V (fun m hm => h m (List.mem_cons_of_mem _ hm))
    have hm := h m List.mem_cons_self
    rw [List.flatMap_cons, List.filterMap_cons]
    have hcase : (nowItem w s false m = .ok none ∧ lineChunks fm w s m = []) ∨
        ∃ y txt, nowItem w s false m = .ok (some y) ∧
          (lineChunks fm w s m).flatten = y.path ++ lit " " ++ txt ++ lit "\n" ∧ TextOf fm y txt := by
      unfold nowItem lineChunks at *
      split at hm
      · exact absurd rfl hm
      · rename_i mv hmv
        simp only [hmv]
        split at hm
        · exact absurd rfl hm
        · rename_i hi; rw [hi]; exact Or.inl ⟨rfl, rfl⟩
        · rename_i hi
          rw [hi]
          cases hn : nowMetric w s mv with
          | none => rw [hn] at hm; exact absurd rfl hm
          | some y =>
            obtain ⟨cs, txt, t1, t2, t3⟩ := text_metric fm ht hmv hn
            refine Or.inr ⟨y, txt, rfl, ?_, t3⟩
            have hp : y.path = mv.path := by
              unfold nowMetric at hn
              split at hn
              · split at hn
                · cases hn
                · split at hn
                  · cases hn
                  · obtain ⟨_, -, rfl⟩ := Option.map_eq_some_iff.mp hn; rfl
              · split at hn
                · split at hn
                  · cases hn
                  · obtain ⟨_, -, rfl⟩ := Option.map_eq_some_iff.mp hn; rfl
                · unfold nowScalar at hn
                  split at hn
                  · obtain ⟨_, -, rfl⟩ := Option.map_eq_some_iff.mp hn; rfl
                  · cases hn
            simp only [t1, Option.getD_some, List.flatten_cons, t2, hp, List.append_assoc]
            rfl
    rcases hcase with ⟨c1, c2⟩ | ⟨y, txt, c1, c2, c3⟩
    · rw [c1, c2]; exact ⟨lines, h1, h2⟩
    · rw [c1]
      exact ⟨lineChunks fm w s m :: lines, by rw [List.flatten_cons, h1], .cons ⟨txt, c2, c3⟩ h2⟩

/-- **C63 (directories)** If `ListMetrics` for a directory answers, then the text page writes one line per metric of
that answer, in the same order and nothing else: its path, a blank, the text of its value.  Writing ends with the first error
of the writer (`Writer.all`), and this error is the result. -/
theorem C63_directory (ht : Typed w s) (fm : Fmts) (wr : Writer W) {path : Str} {c : List Str} (hc : Components path c)
    {d : ℕ} (hd : Reaches s.tree 0 c (.dir d)) {fuel : ℕ} (hf : s.tree.entries.length < fuel)
    (hok : ((listMetrics false fuel path).run w s).2.2 = .ok) (x : W) :
    ∃ lines : List (List Str), (textEndpoint fm wr fuel path x).run w s = (s, wr.all x lines.flatten) ∧
      List.Forall₂ (fun y l => ∃ txt, l.flatten = y.path ++ lit " " ++ txt ++ lit "\n" ∧ TextOf fm y txt)
        ((listMetrics false fuel path).run w s).2.1 lines := by
  have hs := grown_reachable ht.grown
  have htree := reachable_isTree hs
  have hcc := C01_components_unique hc
  obtain ⟨L, hL⟩ := canonical_exists htree c
  obtain ⟨V, h, sess, v1, v2, v3, v4⟩ := C12_prefix (w := w) hs (coll := msgColl false) (msgColl_reads false)
    (fuel := fuel) [] hc hL
  have hV := v2 hok
  obtain ⟨hno, hlist⟩ := (calls_now v4 v3 Sane.nil).1 hok
  rw [hV] at hno hlist
  obtain ⟨lines, l1, l2⟩ := text_lines fm ht (L.map Prod.snd) hno
  refine ⟨lines, ?_, ?_⟩
  · have e1 : (textEndpoint fm wr fuel path x).run w s = (getAllMetricsByPath (textColl fm wr) fuel 0 path x).run w s := by
      rw [(C55_text hs fm wr fuel x hc).2.1 d hd]
      unfold getAllMetricsByPath
      rw [run_bind]
      have hl : (lookupPath 0 path).run w s = (s, (some d, none)) := by
        unfold lookupPath
        rw [getDirectoryOrMetric_run htree, ← hcc, (resolve_iff htree).mpr hd]
      rw [hl]
    rw [e1]
    obtain ⟨V', h', sess', w1, w2, w3, w4⟩ := C12_prefix (w := w) hs (coll := textColl fm wr) (textColl_reads fm wr)
      (fuel := fuel) x hc hL
    have hst : ((getAllMetricsByPath (textColl fm wr) fuel 0 path x).run w s).2.2 ≠ .timeout := by
      obtain ⟨h, hr, hown, hst⟩ := RunI_alone (w := w) (getAllMetricsByPath_reads (textColl_reads fm wr) fuel 0 path x) s
      have hS : ∀ τ : State, τ = s → IsTree τ.tree ∧ Ext τ.tree s.tree := fun τ hτ => by
        rw [hτ]; exact ⟨htree, Ext.refl _⟩
      exact (byPath_listing (S := (· = s)) htree hS (a' := ((getAllMetricsByPath (textColl fm wr) fuel 0 path x).run w s).2.1) hr
        (fun e he => hst _ (List.mem_append_left _ (List.mem_map.mpr ⟨e, he, rfl⟩)))).2
        (textColl_no_timeout fm wr) htree.rootIn hf
    have hshow : ∀ m ∈ L.map Prod.snd, Showable fm w s m := fun m hm => text_showable fm ht (hno m hm)
    have hsub : ∀ m ∈ V'.map Prod.snd, m ∈ L.map Prod.snd := fun m hm => (List.IsPrefix.map Prod.snd w1).subset hm
    have hres := calls_text fm wr w4 w3 Sane.nil (fun m hm => hshow m (hsub m hm)) hst
    have hrun : (getAllMetricsByPath (textColl fm wr) fuel 0 path x).run w s =
        (s, ((getAllMetricsByPath (textColl fm wr) fuel 0 path x).run w s).2) :=
      Prod.ext (run_reads (getAllMetricsByPath_reads (textColl_reads fm wr) fuel 0 path x) s) rfl
    rw [hrun]
    refine congrArg (Prod.mk s) ?_
    have hres' : ((getAllMetricsByPath (textColl fm wr) fuel 0 path x).run w s).2 = wr.all x ((V'.map Prod.snd).flatMap (lineChunks fm w s)) := hres
    rw [hres', l1]
    by_cases hk : ((getAllMetricsByPath (textColl fm wr) fuel 0 path x).run w s).2.2 = .ok
    · rw [w2 hk]
    · obtain ⟨rest, hrest⟩ := w1
      rw [← hrest, List.map_append, List.flatMap_append, all_prefix]
      rw [← hres']
      exact hk
  · have : ((listMetrics false fuel path).run w s).2.1 = _ := hlist
    rw [this, List.nil_append]
    exact l2

/-- **C63 (metrics)** If `GetMetric` answers, then the text page at the path of the metric is the text of its value and a
line feed, nothing else. -/
theorem C63_metric (ht : Typed w s) (fm : Fmts) (wr : Writer W) {path : Str} {c : List Str} (hc : Components path c)
    {y : Metric} (hy : ((getMetricMsg false path).run w s).2 = some (.ok y)) (fuel : ℕ) (x : W) :
    ∃ (chunks : List Str) (txt : Str), (textEndpoint fm wr fuel path x).run w s = (s, wr.all x chunks) ∧
      chunks.flatten = txt ++ lit "\n" ∧ TextOf fm y txt := by
  have hs := grown_reachable ht.grown
  by_cases hm : ∃ m, Reaches s.tree 0 c (.metric m)
  · obtain ⟨m, hm⟩ := hm
    obtain ⟨mv, h1, h2⟩ := (getMetricMsg_now hs false (C01_components_unique hc)).1 m hm
    obtain ⟨mv', h3, h4⟩ := (C55_text hs fm wr fuel x hc).2.2 m hm
    rw [h1] at h3
    cases h3
    rw [h2] at hy
    cases hn : nowMetric w s mv with
    | none => rw [hn] at hy; cases hy
    | some y' =>
      rw [hn] at hy
      have : y' = y := by
        have hy' : some (Out.ok y') = some (Out.ok y) := hy
        injection hy' with h; injection h
      subst this
      obtain ⟨cs, txt, t1, t2, t3⟩ := text_metric fm ht h1 hn
      refine ⟨cs, txt, ?_, t2, t3⟩
      rw [h4, textEmit_alone, t1]
      rfl
  · have h1 := (getMetricMsg_now hs false (C01_components_unique hc)).2 (fun m h => hm ⟨m, h⟩)
    rw [h1] at hy
    cases hy

/-- **C63 (what is assumed)** `Typed` holds after any history of steps, of any number of goroutines, that obey Go's typing
rules one by one (`StepTyped`), if callbacks return values of their types and flags keep theirs. -/
theorem C63_history (h : TypedHistory w s) (hw : CallsOk w)
    (hf : ∀ m mv, metricView s.tree m = some mv → FlagKeeps w (· = s) mv.value) : Typed w s := history_typed h hw hf

/-- Every registration, successful or not and among steps of others that obey these rules, is such a history. -/
theorem C63_history_register {s' : State} (hs : TypedHistory w s) {d : ℕ} (hd : d < s.tree.dirs.length) {path : Str}
    {spec : RegSpec} {group : Option ℕ} {u : MUnit} {desc : Str} {h : List Ev} {r : Out (Except RegErr Unit)}
    (hr : RunI w (apiRegisterMetric w.fnTy d path spec group u desc) s h s' r)
    (he : ∀ e ∈ h, e.own = false → StoreFits w e ∧ StepTyped e.pre e.cmd) : TypedHistory w s' := by
  have hok := registerMetric_safe (fun _ hx => newPathSpec_comp hx) (grown_reachable (history_ok hs).1) hd hr
  refine (RunI_inv (P := TypedHistory w) hr hs fun e hm hg => ?_).2
  cases ho : e.own with
  | true =>
    exact .step e.cmd hg (hok e hm ho) (fun _ _ _ _ hc => C48_register hr e hm ho _ _ _ _ hc)
      (RunI_all (registerMetric_noData _ _ _ _ _ _ _) hr e hm ho e.pre)
  | false =>
    exact .step e.cmd hg (RunI_env_ok hr e hm ho) (fun _ _ _ _ hc => (he e hm ho).1 _ _ _ _ hc) (he e hm ho).2

/-- The ranges of every Bucketer are those of `StepTyped`. -/
theorem C63_history_bucketer {pieces : List (Piece Fl)} :
    (∀ count start scale, newExponentialBucketer count start scale = .ok pieces → ∃ l, fromEndpoints l = .ok pieces) ∧
    (∀ count start inc, newLinearBucketer count start inc = .ok pieces → ∃ l, fromEndpoints l = .ok pieces) ∧
    (∀ l, newArbitraryBucketer l = .ok pieces → ∃ l, fromEndpoints l = .ok pieces) ∧
    ∀ fuel lower upper, newGeometricBucketer fuel lower upper = .ok pieces → ∃ l, fromEndpoints l = .ok pieces := by
  refine ⟨fun _ _ _ h => ?_, fun _ _ _ h => ?_, fun l h => ⟨l, h⟩, fun _ _ _ h => ?_⟩ <;>
    exact (bind_ok h).imp fun _ => And.right

/-! ## example -/

def exPieces : List (Piece Fl) :=
  [⟨Arith.lit 0, .fin 10, true, false⟩, ⟨.fin 10, .fin 20, false, false⟩, ⟨.fin 20, Arith.lit 0, false, true⟩]

/-- an integer, a distribution with the endpoints 10 and 20, a list of durations -/
def exTextCmds : List Cmd :=
  [.newVar (.scalar none (.int .int16 (-7))), .newDist exPieces false Time.zero,
   .newSlice ⟨none, .scalar ⟨none, .duration⟩, some [.duration 1500000000, .duration (-3)], false⟩,
   .newList (.slice 0) true Time.zero]

def exTextReg (path : Str) (spec : RegSpec) (group : Option ℕ) (u : MUnit) (s : State) : State :=
  ((apiRegisterMetric exW.fnTy 0 path spec group u []).run exW s).1

def exTextS : State :=
  (exec exW (.distCall 0 (.add (.scalar none (.float64 (.fin 12))) ⟨5, 0⟩))
    (exTextReg nL (.list (some 0)) none .second (exTextReg nD (.dist (some 0)) none .none
      (exTextReg [97, 47, 102] (.ptr 0) (some 0) .none
        (exTextCmds.foldl (fun s c => (exec exW c s).1) State.init))))).1

theorem exTextReg_history {path : Str} {spec : RegSpec} {group : Option ℕ} {u : MUnit} (hs : TypedHistory exW s)
    (hd : 0 < s.tree.dirs.length) : TypedHistory exW (exTextReg path spec group u s) := by
  obtain ⟨h, h1, h2⟩ := RunI_of_run (w := exW) (apiRegisterMetric exW.fnTy 0 path spec group u []) s
  exact C63_history_register hs hd h1 fun e he ho => by rw [h2 e he] at ho; cases ho

theorem exTextS_history : TypedHistory exW exTextS := by
  have hno : ∀ (c : Cmd) (s : State), (∀ d n ds v, c ≠ .storeMetric d n ds v) → StoreFits exW ⟨false, c, s⟩ :=
    fun c s h d n ds v hc => absurd hc (h d n ds v)
  refine .step _ (exTextReg_history (exTextReg_history (exTextReg_history ?_ ?_) ?_) ?_) trivial
    (hno _ _ (fun _ _ _ _ h => nomatch h)) trivial
  · refine .step _ (.step _ (.step _ (.step _ .init trivial (hno _ _ (fun _ _ _ _ h => nomatch h)) ?_) trivial
      (hno _ _ (fun _ _ _ _ h => nomatch h)) ?_) trivial (hno _ _ (fun _ _ _ _ h => nomatch h)) ?_) trivial
      (hno _ _ (fun _ _ _ _ h => nomatch h)) trivial
    · simp only [StepTyped, DynOk, Base.Valid]; decide
    · exact ⟨[.fin 10, .fin 20], rfl⟩
    · intro t ht
      cases ht
      intro b hb
      rcases List.mem_cons.mp hb with rfl | hb
      · exact ⟨rfl, by simp only [Base.Valid]; decide⟩
      · rw [List.mem_singleton.mp hb]
        exact ⟨rfl, by simp only [Base.Valid]; decide⟩
  all_goals decide +kernel

theorem exTextS_grown : Grown exW exTextS := (history_ok exTextS_history).1

theorem exTextS_typed : Typed exW exTextS := by
  refine C63_history exTextS_history ⟨?_, ?_⟩ ?_
  · intro s f d hd
    simp only [exW] at hd
    split at hd
    · cases hd
    · split at hd <;> cases hd
      · trivial
      · have : f % 1000 < 1000 := Nat.mod_lt _ (by decide)
        simp only [DynOk, Base.Valid, IntKind.InRange, IntKind.signed, IntKind.bits]
        norm_num
        omega
  · intro s f d hd
    simp only [exW] at hd
    split at hd <;> cases hd
    trivial
  · intro m mv hm g σ d hg
    have hsrc : ∀ m < 3, (exTextS.tree.metrics[m]?).map (fun mo => mo.value.src) =
        some (if m = 0 then some (.var 0) else none) := by decide +kernel
    have hmet : exTextS.tree.metrics.length = 3 := by decide +kernel
    unfold metricView at hm
    split at hm
    · rename_i mo p h1 h2
      cases hm
      have h3 := (List.getElem?_eq_some_iff.mp h1).1
      have h4 := hsrc m (by omega)
      rw [h1] at h4
      simp only [Option.map_some, Option.some.injEq] at h4
      simp only at hg
      rw [h4] at hg
      split at hg <;> cases hg
    · cases hm

def exFm : Fmts := ⟨fun x => if x = .fin 10 then lit "10" else if x = .fin 20 then lit "20" else lit "#",
  fun _ => lit "#", fun _ => [], fun _ => [], fun _ => lit "#"⟩

example : Typed exW exTextS ∧ ((listMetrics false 20 [47]).run exW exTextS).2.2 = .ok ∧
    ((textEndpoint exFm exWriter 20 [47] []).run exW exTextS).2 =
    (lit "/a/f -7\n/d {min:#;max:#;avg:#;median:#;sum:#;count:1;[10,20):1}\n/l 1.500000000|-0.000000003\n", .ok) :=
  ⟨exTextS_typed, by decide +kernel, by decide +kernel⟩

example : ((textEndpoint exFm exWriter 20 [108] []).run exW exTextS).2 = (lit "1.500000000|-0.000000003\n", .ok) := by
  decide +kernel

end Tricorder
