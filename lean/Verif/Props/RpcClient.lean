import Verif.Spec.RpcClient
import Verif.Proof.Http
import Verif.Props.Demo
import Verif.Props.Gob
import Verif.Model.Client
/-!
# C84: what RPC clients receive, and what the client program prints
-/

namespace Tricorder
open Go Spec Tree

variable {w : World} {s s' : State}

theorem gobVal_same (lib : GobLib) (v : Val) : SameVal v (gobVal lib v) := by
  cases v with
  | slice n e l =>
    rcases l with _ | _ | ⟨b, l⟩
    · exact Or.inr ⟨n, e, none, lib.empty, rfl, rfl, rfl, by unfold GobLib.empty; split <;> rfl⟩
    · exact Or.inr ⟨n, e, some [], lib.empty, rfl, rfl, rfl, by unfold GobLib.empty; split <;> rfl⟩
    · exact Or.inl rfl
  | _ => exact Or.inl rfl

/-- **C84 (used variables)** Decoding an answer into a variable gives exactly what was sent if and only if every field that
was sent as a zero value was a zero value in the variable before. -/
theorem C84_into (lib : GobLib) (old x : Metric) : Arrived x (gobInto lib old x) ↔ Covers old x := by
  constructor
  · rintro ⟨h1, h2, h3, h4, h5, h6, h7, h8, h9⟩
    simp only [gobInto] at h1 h2 h3 h4 h5 h6 h7 h8 h9
    refine ⟨fun h => ?_, fun h => ?_, fun h => ?_, fun h => ?_, fun h => ?_, fun h => ?_, fun h => ?_, fun h => ?_, fun h => ?_⟩
    · rwa [if_pos h, h] at h1
    · rwa [if_pos h, h] at h2
    · rwa [if_pos h, h] at h3
    · rwa [if_pos h, h] at h4
    · rwa [if_pos h, h] at h5
    · rwa [if_pos h, h] at h6
    · rw [if_pos h, h] at h7
      rcases h7 with h7 | ⟨_, _, _, _, h7, -⟩
      · exact h7.symm
      · cases h7
    · rwa [if_pos h, h] at h8
    · rwa [if_pos h, h] at h9
  · rintro ⟨h1, h2, h3, h4, h5, h6, h7, h8, h9⟩
    refine ⟨?_, ?_, ?_, ?_, ?_, ?_, ?_, ?_, ?_⟩ <;> simp only [gobInto] <;> split
    · next h => rw [h, h1 h]
    · rfl
    · next h => rw [h, h2 h]
    · rfl
    · next h => rw [h, h3 h]
    · rfl
    · next h => rw [h, h4 h]
    · rfl
    · next h => rw [h, h5 h]
    · rfl
    · next h => rw [h, h6 h]
    · rfl
    · next h => rw [h, h7 h]; exact Or.inl rfl
    · exact gobVal_same lib _
    · next h => rw [h, h8 h]
    · rfl
    · next h => rw [h, h9 h]
    · rfl

theorem covers_zero (x : Metric) : Covers zeroMetric x :=
  ⟨fun _ => rfl, fun _ => rfl, fun _ => rfl, fun _ => rfl, fun _ => rfl, fun _ => rfl, fun _ => rfl, fun _ => rfl, fun _ => rfl⟩

theorem gobCells_take (lib : GobLib) (cs : List (Option Metric)) (new : List Metric) (hc : new.length ≤ cs.length) :
    ((gobCells lib cs new).take new.length).filterMap id = List.zipWith (fun c x => gobInto lib (c.getD zeroMetric) x) cs new := by
  induction new generalizing cs with
  | nil => cases cs <;> simp [gobCells]
  | cons x new ih =>
    cases cs with
    | nil => simp at hc
    | cons c cs =>
      simp only [List.length_cons, Nat.add_le_add_iff_right] at hc
      simp only [gobCells, List.length_cons, List.take_succ_cons, List.filterMap_cons, id_eq, List.zipWith_cons_cons]
      exact congrArg _ (ih cs hc)

/-- the element of the client's list into which metric `i` is decoded; a new one if the array is too short -/
theorem into_metrics (lib : GobLib) (v : ListVar) (new : List Metric) : (v.into lib new).metrics =
    List.zipWith (fun c x => gobInto lib (Option.getD c zeroMetric) x)
      (if v.cells.length < new.length then List.replicate new.length none else v.cells) new := by
  unfold ListVar.into
  by_cases h : v.cells.length < new.length
  · rw [if_pos h, if_pos h]
    show (List.take new.length (gobCells lib _ new)).filterMap id = _
    rw [gobCells_take lib _ new (by simp)]
    have h2 : ∀ (a : ℕ) (l : List Metric) (f : Option Metric → Metric → Metric),
        List.zipWith f (List.replicate (l.length + a) none) l = List.zipWith f (List.replicate l.length none) l := by
      intro a l f
      induction l with
      | nil => simp
      | cons x l ih =>
        have : (x :: l).length + a = (l.length + a) + 1 := by simp; omega
        rw [this]
        simp [List.replicate_succ, ih]
    exact h2 _ _ _
  · rw [if_neg h, if_neg h]
    exact gobCells_take lib _ new (by omega)

/-- **C84 (lists)** Decoding a list gives as many metrics as were sent; each is right, unless it was decoded into a metric of
the list that the variable held before. -/
theorem C84_list (lib : GobLib) (v : ListVar) (new : List Metric) : (v.into lib new).metrics.length = new.length ∧
    ∀ (i : ℕ) x, new[i]? = some x → ∃ y, (v.into lib new).metrics[i]? = some y ∧
      (v.cells.length < new.length ∨ v.cells[i]? = some none ∨ (∃ old, v.cells[i]? = some (some old) ∧ Covers old x) → Arrived x y) := by
  rw [into_metrics]
  by_cases h : v.cells.length < new.length
  · rw [if_pos h]
    refine ⟨by simp, fun i x hx => ⟨gobInto lib zeroMetric x, ?_, fun _ => (C84_into lib _ _).mpr (covers_zero x)⟩⟩
    have hi : i < new.length := (List.getElem?_eq_some_iff.mp hx).1
    rw [List.getElem?_zipWith, hx, List.getElem?_replicate, if_pos hi]
    rfl
  · rw [if_neg h]
    refine ⟨by simp; omega, fun i x hx => ?_⟩
    have hi : i < new.length := (List.getElem?_eq_some_iff.mp hx).1
    have hj : i < v.cells.length := by omega
    refine ⟨gobInto lib (v.cells[i].getD zeroMetric) x, ?_, fun hh => (C84_into lib _ _).mpr ?_⟩
    · rw [List.getElem?_zipWith, hx, List.getElem?_eq_getElem hj]
    · rw [List.getElem?_eq_getElem hj] at hh
      simp only [Option.some.injEq] at hh
      rcases hh with hh | hh | ⟨old, hh, hcov⟩
      · exact absurd hh h
      · rw [hh]; exact covers_zero x
      · rw [hh]; exact hcov

/-- **C84 (fresh variables)** A client that decodes into variables that it has not used before receives what the server sent. -/
theorem C84_fresh (lib : GobLib) : (∀ x, Arrived x (gobInto lib zeroMetric x)) ∧
    ∀ ms, List.Forall₂ Arrived ms (ListVar.zero.into lib ms).metrics := by
  refine ⟨fun x => (C84_into lib _ _).mpr (covers_zero x), fun ms => ?_⟩
  obtain ⟨h1, h2⟩ := C84_list lib ListVar.zero ms
  refine List.forall₂_iff_get.mpr ⟨h1.symm, fun i hi hj => ?_⟩
  obtain ⟨y, hy, hA⟩ := h2 i _ (List.getElem?_eq_getElem hi)
  have := (List.getElem?_eq_some_iff.mp hy).2
  rw [List.get_eq_getElem, List.get_eq_getElem, this]
  exact hA (Or.inl (by show 0 < _; omega))

/-- **C84 (calls)** A call of `GetMetric` by a client, among any steps at the server: the answer of the server is received as
said above; the call fails exactly if there is no such metric, or if its value is of a type that gob does not know. -/
theorem C84_get {lib : GobLib} {path : Str} {old : Metric} {h : List Ev} {r : Option Metric}
    (hr : RunI w (RpcClient.callGet lib path old) s h s' r) : ∃ a, RunI w (getMetricMsg false path) s h s' a ∧
      (∀ y, r = some y → ∃ x, a = some (.ok x) ∧ (Arrived x y ↔ Covers old x)) ∧
      (r = none ↔ ∀ x, a = some (.ok x) → gobMetric gobRegistry x = false) := by
  obtain ⟨a, ha, rfl⟩ := RunI_map hr
  refine ⟨a, ha, ?_, ?_⟩
  · intro y hy
    rcases a with _ | x | _
    · cases hy
    · simp only [RpcClient.received] at hy
      split at hy
      · cases hy; exact ⟨x, rfl, C84_into lib old x⟩
      · cases hy
    · cases hy
  · rcases a with _ | x | _
    · exact ⟨fun _ x hx => (nomatch hx), fun _ => rfl⟩
    rotate_left
    · exact ⟨fun _ x hx => (nomatch hx), fun _ => rfl⟩
    · simp only [RpcClient.received]
      constructor
      · intro h y hy
        cases hy
        split at h
        · cases h
        · next hn => exact Bool.eq_false_iff.mpr hn
      · intro h
        rw [if_neg]
        exact Bool.eq_false_iff.mp (h x rfl)

theorem callList_run {lib : GobLib} {fuel : ℕ} {path : Str} {v v' : ListVar} {h : List Ev}
    (hr : RunI w (RpcClient.callList lib fuel path v) s h s' (some v')) :
    ∃ ms, RunI w (listMetrics false fuel path) s h s' (ms, .ok) ∧ v' = v.into lib ms := by
  obtain ⟨h1, s1, a, h2, rfl, r1, r2⟩ := RunI_bind hr
  obtain ⟨ms, st⟩ := a
  cases st with
  | ok =>
    have := (RunI_ret r2).1
    refine ⟨ms, RunI_then_env r1 r2, ?_⟩
    unfold rpcSend at this
    split at this
    · cases this; rfl
    · cases this
  | _ => cases (RunI_ret r2).1

/-- **C84 (listings)** A call of `ListMetrics` by a client, with a variable not used before, receives what the server lists. -/
theorem C84_calls {lib : GobLib} {fuel : ℕ} {path : Str} {v : ListVar} {h : List Ev}
    (hr : RunI w (RpcClient.callList lib fuel path ListVar.zero) s h s' (some v)) :
    ∃ ms, RunI w (listMetrics false fuel path) s h s' (ms, .ok) ∧ List.Forall₂ Arrived ms v.metrics := by
  obtain ⟨ms, h1, rfl⟩ := callList_run hr
  exact ⟨ms, h1, (C84_fresh lib).2 ms⟩

theorem gobCells_none (lib : GobLib) (new : List Metric) (k : ℕ) :
    gobCells lib (List.replicate (new.length + k) none) new =
      (new.map fun x => some (gobInto lib zeroMetric x)) ++ List.replicate k none := by
  induction new with
  | nil => cases k <;> simp [gobCells]
  | cons x new ih =>
    have : (x :: new).length + k = (new.length + k) + 1 := by simp; omega
    rw [this, List.replicate_succ]
    simp [gobCells, ih]

theorem into_nil (lib : GobLib) (v : ListVar) (ms : List Metric) (hv : v.isNil = true → v.cells = []) :
    ((v.into lib ms).isNil = true → (v.into lib ms).metrics = []) ∧ ((v.into lib ms).isNil = true → (v.into lib ms).cells = []) := by
  have key : (v.into lib ms).isNil = true → ms = [] ∧ v.cells = [] := by
    intro h
    unfold ListVar.into at h
    split at h
    · cases h
    · next hl =>
      have h0 := hv (Bool.and_eq_true_iff.mp h).1
      rw [h0] at hl
      exact ⟨List.eq_nil_of_length_eq_zero (by simpa using hl), h0⟩
  refine ⟨fun h => ?_, fun h => ?_⟩
  · exact List.eq_nil_of_length_eq_zero ((C84_list lib v ms).1.trans (by rw [(key h).1]; rfl))
  · obtain ⟨rfl, h0⟩ := key h
    simp [ListVar.into, h0, gobCells]

/-- the array of a variable after the first list was decoded into it -/
theorem zero_cells (lib : GobLib) (ms : List Metric) :
    ∃ k, (ListVar.zero.into lib ms).cells = (ListVar.zero.into lib ms).metrics.map some ++ List.replicate k none := by
  unfold ListVar.into ListVar.metrics
  cases ms with
  | nil => exact ⟨0, rfl⟩
  | cons x ms =>
    rw [if_pos (show ListVar.zero.cells.length < (x :: ms).length by simp [ListVar.zero])]
    refine ⟨lib.extra (x :: ms).length, ?_⟩
    show gobCells lib _ _ = (List.filterMap id (List.take _ (gobCells lib _ _))).map some ++ _
    rw [gobCells_none]
    congr 1
    rw [List.take_left' (by simp)]
    generalize x :: ms = l
    induction l with
    | nil => rfl
    | cons a l ih =>
      simp only [List.map_cons, List.filterMap_cons, id_eq]
      exact congrArg _ ih

namespace RpcClient

theorem andThen_run {p : List Printed × Bool} {k : Prog (List Printed × Bool)} {h : List Ev} {out : List Printed}
    (hr : RunI w (andThen p k) s h s' (out, true)) :
    p.2 = true ∧ ∃ o, RunI w k s h s' (o, true) ∧ out = p.1 ++ o := by
  unfold andThen at hr
  split at hr
  · next hp =>
    obtain ⟨⟨o, b⟩, r1, r2⟩ := RunI_map (f := fun r : List Printed × Bool => (p.1 ++ r.1, r.2)) hr
    simp only [Prod.mk.injEq] at r2
    obtain ⟨rfl, rfl⟩ := r2
    exact ⟨hp, o, r1, rfl⟩
  · next hp =>
    have := (RunI_ret hr).1
    subst this
    exact absurd rfl hp

theorem print_ok {desc : Str} {j : Option Json} (h : (printAsJson desc j).2 = true) :
    ∃ j', j = some j' ∧ (printAsJson desc j).1 = printedFor desc j' := by
  cases j with
  | none => cases h
  | some j => exact ⟨j, rfl, rfl⟩

theorem tryGet_run {gl : GobLib} {jl : JsonLib} {path desc err : Str} {old : Metric}
    {k : Metric → Prog (List Printed × Bool)} {h : List Ev} {out : List Printed}
    (hr : RunI w (tryGet gl jl path desc err old k) s h s' (out, true)) :
    ∃ h1 s1 h2 a x o1 o2, h = h1 ++ h2 ∧ RunI w (getMetricMsg false path) s h1 s1 a ∧ PrintedTry jl desc err a old x o1 ∧
      (∀ y, a = some (.ok y) → gobMetric gobRegistry y = true → x = gobInto gl old y) ∧
      RunI w (k x) s1 h2 s' (o2, true) ∧ out = o1 ++ o2 := by
  obtain ⟨h1, s1, r, h2, rfl, r1, r2⟩ := RunI_bind hr
  obtain ⟨a, ha, rfl⟩ := RunI_map r1
  cases hrec : received gl old a with
  | none =>
    rw [hrec] at r2
    obtain ⟨-, o, r3, rfl⟩ := andThen_run r2
    have hno : ∀ y, a = some (.ok y) → gobMetric gobRegistry y = false := by
      rintro y rfl
      simp only [received] at hrec
      split at hrec
      · cases hrec
      · next hn => exact Bool.eq_false_iff.mpr hn
    exact ⟨h1, s1, h2, a, old, _, o, rfl, ha, Or.inr ⟨rfl, hno, rfl⟩, fun y h1 h2 => absurd h2 (by simp [hno y h1]), r3, rfl⟩
  | some x =>
    rw [hrec] at r2
    obtain ⟨hp, o, r3, rfl⟩ := andThen_run r2
    obtain ⟨j, hj, hp1⟩ := print_ok hp
    rcases a with _ | y | _
    · cases hrec
    rotate_left
    · cases hrec
    · have hx : x = gobInto gl old y := by
        simp only [received] at hrec
        split at hrec <;> cases hrec
        rfl
      refine ⟨h1, s1, h2, _, x, _, o, rfl, ha, Or.inl ⟨y, j, rfl, fun hc => ?_, hj, hp1⟩, ?_, r3, rfl⟩
      · rw [hx]; exact (C84_into gl old y).mpr hc
      · rintro z hz -
        cases hz
        exact hx

end RpcClient

/-- **C84 (the client program)** What the client program prints if it gets to the end, whatever happens at the server
meanwhile: the metrics that the server listed, the metrics that it listed under `/aaa/bbb`, the metric `/proc/foo/bar/baz`; for
`/proc/foo/ddd` and `/list/squares` the metric or that there was an error.

Partial: one would expect all of it to be what the server sent; but the program uses its variables again, so that this holds for
the second list and the last two metrics only where the variables had no values in the fields in question; see
`C84_stale_false`. -/
theorem C84_client_partial {gl : GobLib} {jl : JsonLib} {fuel : ℕ} {h : List Ev} {out : List RpcClient.Printed}
    (hr : RunI w (RpcClient.main gl jl fuel) s h s' (out, true)) :
    ∃ h1 s1 h2 s2 h3 s3 h4 s4 h5 ms1 ms2 x3 a4 a5, h = h1 ++ (h2 ++ (h3 ++ (h4 ++ h5))) ∧
      RunI w (listMetrics false fuel []) s h1 s1 (ms1, .ok) ∧ RunI w (listMetrics false fuel (lit "/aaa/bbb")) s1 h2 s2 (ms2, .ok) ∧
      RunI w (getMetricMsg false (lit "/proc/foo/bar/baz")) s2 h3 s3 (some (.ok x3)) ∧
      RunI w (getMetricMsg false (lit "/proc/foo/ddd")) s3 h4 s4 a4 ∧
      RunI w (getMetricMsg false (lit "/list/squares")) s4 h5 s' a5 ∧
      ∃ l1 l2 j1 j2 j3 y3 y4 y5 o4 o5,
        out = printedFor (lit "All metrics") j1 ++ (printedFor (lit "aaa/bbb metrics") j2 ++
          (printedFor (lit "/proc/foo/bar/baz metric") j3 ++ (o4 ++ o5))) ∧
        List.Forall₂ Arrived ms1 l1 ∧ (l1 = [] ∧ j1 = .null ∨ jsonList jl l1 = some j1) ∧
        (l2.length = ms2.length ∧ ∀ (i : ℕ) x, ms2[i]? = some x →
          ∃ y, l2[i]? = some y ∧ ((∀ old, l1[i]? = some old → Covers old x) → Arrived x y)) ∧
        (l2 = [] ∧ j2 = .null ∨ jsonList jl l2 = some j2) ∧
        Arrived x3 y3 ∧ jsonMetric jl y3 = some j3 ∧
        PrintedTry jl (lit "/proc/foo/ddd metric") (lit "Got error for /proc/foo/ddd:") a4 y3 y4 o4 ∧
        PrintedTry jl (lit "/list/squares metric") (lit "Got error for /list/squares:") a5 y4 y5 o5 := by
  obtain ⟨h1, s1, r, ht, rfl, r1, r2⟩ := RunI_bind hr
  cases r with
  | none => cases (RunI_ret r2).1
  | some v1 =>
    obtain ⟨ms1, g1, rfl⟩ := callList_run r1
    obtain ⟨hp1, o, q2, rfl⟩ := RpcClient.andThen_run r2
    obtain ⟨j1, hj1, hp1⟩ := RpcClient.print_ok hp1
    obtain ⟨h2, s2, r, ht, rfl, r3, r4⟩ := RunI_bind q2
    cases r with
    | none => cases (RunI_ret r4).1
    | some v2 =>
      obtain ⟨ms2, g2, rfl⟩ := callList_run r3
      obtain ⟨hp2, o, q4, rfl⟩ := RpcClient.andThen_run r4
      obtain ⟨j2, hj2, hp2⟩ := RpcClient.print_ok hp2
      obtain ⟨h3, s3, r, ht, rfl, r5, r6⟩ := RunI_bind q4
      cases r with
      | none => cases (RunI_ret r6).1
      | some y3 =>
        obtain ⟨a3, g3, hg3, -⟩ := C84_get r5
        obtain ⟨x3, rfl, hx3⟩ := hg3 y3 rfl
        obtain ⟨hp3, o, q6, rfl⟩ := RpcClient.andThen_run r6
        obtain ⟨j3, hj3, hp3⟩ := RpcClient.print_ok hp3
        obtain ⟨h4, s4, ht, a4, y4, o4, o, rfl, g4, p4, -, r7, rfl⟩ := RpcClient.tryGet_run q6
        obtain ⟨h5, s5, ht, a5, y5, o5, o, rfl, g5, p5, -, r8, rfl⟩ := RpcClient.tryGet_run r7
        have ho := (RunI_ret r8).1
        cases ho
        rw [List.append_nil]
        have key : ∀ (v : ListVar) (j : Json), RpcClient.jsonListVar jl v = some j → (v.isNil = true → v.metrics = []) →
            (v.metrics = [] ∧ j = .null ∨ jsonList jl v.metrics = some j) := by
          intro v j h hn
          unfold RpcClient.jsonListVar at h
          split at h
          · next hv => cases h; exact Or.inl ⟨hn hv, rfl⟩
          · exact Or.inr h
        have hlen1 := (C84_list gl ListVar.zero ms1).1
        obtain ⟨n1, c1⟩ := into_nil gl ListVar.zero ms1 (fun _ => rfl)
        obtain ⟨k, hk⟩ := zero_cells gl ms1
        obtain ⟨hlen2, h2nd⟩ := C84_list gl (ListVar.zero.into gl ms1) ms2
        obtain ⟨n2, -⟩ := into_nil gl _ ms2 c1
        refine ⟨h1, s1, h2, s2, h3, s3, h4, s4, h5 ++ ht, ms1, ms2, x3, a4, a5, rfl, g1, g2, g3, g4, RunI_then_env g5 r8,
          _, _, j1, j2, j3, y3, y4, y5, o4, o5, by rw [hp1, hp2, hp3], (C84_fresh gl).2 ms1, key _ _ hj1 n1,
          ⟨hlen2, fun i x hx => ?_⟩, key _ _ hj2 n2, hx3.mpr (covers_zero x3), hj3, p4, p5⟩
        obtain ⟨y, hy, hA⟩ := h2nd i x hx
        refine ⟨y, hy, fun hc => hA ?_⟩
        rw [hk]
        by_cases hi : i < (ListVar.zero.into gl ms1).metrics.length
        · refine Or.inr (Or.inr ⟨_, ?_, hc _ (List.getElem?_eq_getElem hi)⟩)
          rw [List.getElem?_append_left (by simpa using hi), List.getElem?_map, List.getElem?_eq_getElem hi]
          rfl
        · by_cases hi2 : i < (ListVar.zero.into gl ms1).metrics.length + k
          · refine Or.inr (Or.inl ?_)
            rw [List.getElem?_append_right (by simpa using hi), List.getElem?_replicate, if_pos (by simp; omega)]
          · refine Or.inl ?_
            have := (List.getElem?_eq_some_iff.mp hx).1
            simp
            omega


/-! ### standard output -/

/-- the titles that the client program prints -/
def clientTitles : List Str :=
  [lit "All metrics", lit "aaa/bbb metrics", lit "/proc/foo/bar/baz metric", lit "/proc/foo/ddd metric", lit "/list/squares metric"]

private def Titles (out : List RpcClient.Printed) : Prop := ∀ t, .stdout t ∈ out → t = [] ∨ t ∈ clientTitles

namespace RpcClient

private theorem titles_print {desc : Str} (h : desc ∈ clientTitles) (j : Option Json) : Titles (printAsJson desc j).1 := by
  intro t ht
  cases j <;> simp only [printAsJson, List.mem_cons, List.not_mem_nil, or_false, Printed.stdout.injEq, reduceCtorEq, false_or] at ht
  · subst ht; exact Or.inr h
  · rcases ht with rfl | rfl
    · exact Or.inr h
    · exact Or.inl rfl

private theorem titles_andThen {p : List Printed × Bool} {k : Prog (List Printed × Bool)} (hp : Titles p.1)
    (hk : ∀ s h s' r, RunI w k s h s' r → Titles r.1) {s s' : State} {h : List Ev} {r : List Printed × Bool}
    (hr : RunI w (andThen p k) s h s' r) : Titles r.1 := by
  unfold andThen at hr
  split at hr
  · obtain ⟨o, r1, rfl⟩ := RunI_map (f := fun r : List Printed × Bool => (p.1 ++ r.1, r.2)) hr
    intro t ht
    rcases List.mem_append.mp ht with ht | ht
    · exact hp t ht
    · exact hk _ _ _ _ r1 t ht
  · have := (RunI_ret hr).1
    subst this
    exact hp

private theorem titles_try {gl : GobLib} {jl : JsonLib} {path desc err : Str} {old : Metric} (hd : desc ∈ clientTitles)
    {k : Metric → Prog (List Printed × Bool)} (hk : ∀ x s h s' r, RunI w (k x) s h s' r → Titles r.1) {s s' : State}
    {h : List Ev} {r : List Printed × Bool} (hr : RunI w (tryGet gl jl path desc err old k) s h s' r) : Titles r.1 := by
  obtain ⟨h1, s1, a, h2, rfl, r1, r2⟩ := RunI_bind hr
  cases a with
  | none => exact titles_andThen (fun t ht => by simp at ht) (hk _) r2
  | some x => exact titles_andThen (titles_print hd _) (hk _) r2

private theorem titles_fatal {s s' : State} {h : List Ev} {r : List Printed × Bool} (hr : RunI w (.ret fatal) s h s' r) :
    Titles r.1 := by
  have := (RunI_ret hr).1
  subst this
  intro t ht
  simp [fatal] at ht

private theorem titles_main3 {gl : GobLib} {jl : JsonLib} (s : State) (h : List Ev) (s' : State) (r : List Printed × Bool)
    (hr : RunI w (main3 gl jl) s h s' r) : Titles r.1 := by
  obtain ⟨h1, s1, a, h2, rfl, r1, r2⟩ := RunI_bind hr
  cases a with
  | none => exact titles_fatal r2
  | some x =>
    refine titles_andThen (titles_print (by decide +kernel) _) (fun s h s' r hr => ?_) r2
    refine titles_try (by decide +kernel) (fun x s h s' r hr => ?_) hr
    refine titles_try (by decide +kernel) (fun x s h s' r hr => ?_) hr
    have := (RunI_ret hr).1
    subst this
    intro t ht
    cases ht

end RpcClient

/-- **C84 is false for standard output**: whatever the server answers, the client program writes nothing to its standard output
but titles and empty lines.  The metrics go to standard input, where they are only seen if that is a terminal. -/
theorem C84_stdout_false {gl : GobLib} {jl : JsonLib} {fuel : ℕ} {h : List Ev} {out : List RpcClient.Printed} {b : Bool}
    (hr : RunI w (RpcClient.main gl jl fuel) s h s' (out, b)) (t : Str) (ht : .stdout t ∈ out) : t = [] ∨ t ∈ clientTitles := by
  suffices h : Titles out from h t ht
  obtain ⟨h1, s1, a, h2, rfl, r1, r2⟩ := RunI_bind hr
  cases a with
  | none => exact RpcClient.titles_fatal r2
  | some x =>
    refine RpcClient.titles_andThen (RpcClient.titles_print (by decide +kernel) _) (fun s h s' r hr => ?_) r2
    obtain ⟨h1, s1, a, h2, rfl, r1, r2⟩ := RunI_bind hr
    cases a with
    | none => exact RpcClient.titles_fatal r2
    | some x => exact RpcClient.titles_andThen (RpcClient.titles_print (by decide +kernel) _) RpcClient.titles_main3 r2

/-! ### a variable used again -/

/-- a library for the examples -/
def exGobLib : GobLib := ⟨true, fun _ => 0⟩

/-- a library for the examples -/
def exClientJson : JsonLib := ⟨fun _ => [], fun _ => some .null, fun _ => none⟩

/-- `/proc/foo/bar/baz` is a `float64`, `/proc/foo/ddd` a `bool` -/
def exClient : State :=
  ((apiRegisterMetric exGobW.fnTy 0 (lit "/proc/foo/ddd") (.ptr 1) (some 0) .none (lit "d")).run exGobW
    ((apiRegisterMetric exGobW.fnTy 0 (lit "/proc/foo/bar/baz") (.ptr 0) (some 0) .none (lit "b")).run exGobW
      (exec exGobW (.newVar (.scalar none (.bool false)))
        (exec exGobW (.newVar (.scalar none (.float64 (.fin 3)))) State.init).1).1).1).1

/-- the bits that are printed for a metric, 0 if there are none -/
def printedBits : RpcClient.Printed → Option ℤ
  | .stdin (.obj l) => some (match field (lit "bits") l with
    | some (.int x) => x
    | _ => 0)
  | _ => none

/-- **C84 is false for variables that are used again**: the server sends a `bool`, which has no size, but the client program
prints that it has 64 bits, which is the size of the metric it got before. -/
theorem C84_stale_false :
    ((RpcClient.main exGobLib exClientJson 30).run exGobW exClient).2.1.filterMap printedBits = [64, 64] ∧
    ∃ x, ((getMetricMsg false (lit "/proc/foo/ddd")).run exGobW exClient).2 = some (.ok x) ∧ x.bits = 0 ∧ x.kind = .bool := by
  refine ⟨by decide +kernel, ?_⟩
  have h : (match ((getMetricMsg false (lit "/proc/foo/ddd")).run exGobW exClient).2 with
      | some (.ok x) => decide (x.bits = 0 ∧ x.kind = .bool)
      | _ => false) = true := by decide +kernel
  generalize ((getMetricMsg false (lit "/proc/foo/ddd")).run exGobW exClient).2 = r at h ⊢
  rcases r with _ | x | _
  · cases h
  · exact ⟨x, rfl, of_decide_eq_true h⟩
  · cases h

/-- the hypotheses of `C84_client_partial` hold for a run that prints -/
example : ∃ h s' out, RunI exGobW (RpcClient.main exGobLib exClientJson 30) exClient h s' (out, true) ∧ out.length = 13 := by
  obtain ⟨h, h1, -⟩ := RunI_of_run (w := exGobW) (RpcClient.main exGobLib exClientJson 30) exClient
  have hb : ((RpcClient.main exGobLib exClientJson 30).run exGobW exClient).2.2 = true := by decide +kernel
  have hl : ((RpcClient.main exGobLib exClientJson 30).run exGobW exClient).2.1.length = 13 := by decide +kernel
  generalize (RpcClient.main exGobLib exClientJson 30).run exGobW exClient = r at *
  obtain ⟨a, out, b⟩ := r
  simp only at hb hl
  subst hb
  exact ⟨h, a, out, h1, hl⟩

/-- the metric `/proc/foo/bar/baz` of the demo program, decoded into a new variable -/
example : Arrived ⟨lit "/proc/foo/bar/baz", lit "Another float value", .none, .float64, .unknown, 64,
    .scalar none (.float64 (.fin (99 / 8))), .time Time.zero, 0⟩ (gobInto exGobLib zeroMetric ⟨lit "/proc/foo/bar/baz",
      lit "Another float value", .none, .float64, .unknown, 64, .scalar none (.float64 (.fin (99 / 8))), .time Time.zero, 0⟩) :=
  (C84_fresh exGobLib).1 _

/-- a list of two metrics, decoded into a variable that held one: both are right, since the array is too short -/
example (x y : Metric) : ∃ b c, ((ListVar.zero.into exGobLib [x]).into exGobLib [y, x]).metrics[0]? = some b ∧ Arrived y b ∧
    ((ListVar.zero.into exGobLib [x]).into exGobLib [y, x]).metrics[1]? = some c ∧ Arrived x c := by
  obtain ⟨h1, h2⟩ := C84_list exGobLib (ListVar.zero.into exGobLib [x]) [y, x]
  obtain ⟨b, hb, hA⟩ := h2 0 y rfl
  obtain ⟨c, hc, hB⟩ := h2 1 x rfl
  have hl : (ListVar.zero.into exGobLib [x]).cells.length < [y, x].length := show 1 < 2 by omega
  exact ⟨b, c, hb, hA (Or.inl hl), hc, hB (Or.inl hl)⟩

/-! ### with the demo program -/

namespace RpcClient

theorem callGet_some {gl : GobLib} {path : Str} {old x : Metric} (h : (getMetricMsg false path).run w s = (s, some (.ok x)))
    (hg : gobMetric gobRegistry x = true) : (callGet gl path old).run w s = (s, some (gobInto gl old x)) := by
  unfold callGet
  rw [run_bind, h]
  simp only [Prog.run, received, hg, if_true]

theorem callGet_none {gl : GobLib} {path : Str} {old : Metric} (h : (getMetricMsg false path).run w s = (s, none)) :
    (callGet gl path old).run w s = (s, none) := by
  unfold callGet
  rw [run_bind, h]
  rfl

theorem andThen_eq {p : List Printed × Bool} {k : Prog (List Printed × Bool)} {o : List Printed} {b : Bool} {s' : State}
    (hp : p.2 = true) (h : k.run w s = (s', o, b)) : (andThen p k).run w s = (s', p.1 ++ o, b) := by
  unfold andThen
  rw [if_pos hp, run_bind, h]
  rfl

theorem tryGet_some {gl : GobLib} {jl : JsonLib} {path desc err : Str} {old x : Metric}
    {k : Metric → Prog (List Printed × Bool)} {j : Json} {o : List Printed} {b : Bool} {s' : State}
    (h : (getMetricMsg false path).run w s = (s, some (.ok x))) (hg : gobMetric gobRegistry x = true)
    (hj : jsonMetric jl (gobInto gl old x) = some j) (hk : (k (gobInto gl old x)).run w s = (s', o, b)) :
    (tryGet gl jl path desc err old k).run w s = (s', printedFor desc j ++ o, b) := by
  unfold tryGet
  rw [run_bind, callGet_some h hg]
  simp only [hj]
  exact andThen_eq rfl hk

theorem tryGet_none {gl : GobLib} {jl : JsonLib} {path desc err : Str} {old : Metric}
    {k : Metric → Prog (List Printed × Bool)} {o : List Printed} {b : Bool} {s' : State}
    (h : (getMetricMsg false path).run w s = (s, none)) (hk : (k old).run w s = (s', o, b)) :
    (tryGet gl jl path desc err old k).run w s = (s', .log err :: o, b) := by
  unfold tryGet
  rw [run_bind, callGet_none h]
  exact andThen_eq rfl hk

end RpcClient

/-- `GetMetric` of a list: all fields -/
theorem read_list_all (hs : Reachable w s) {path desc : Str} {i : ℕ} {u : MUnit} {x : ListView}
    (h : MetricAt s 0 (newPathSpec path) desc ⟨none, none, none, some i, .list, false, u⟩)
    (hx : listView s i = some x) : ∃ p, (getMetricMsg false path).run w s =
      (s, some (.ok ⟨47 :: p, desc, u, .list, x.subType, x.subType.bits, x.val, .time x.timeStamp, x.groupId⟩)) := by
  obtain ⟨m, mo, hr, hm, hd, hv⟩ := h
  obtain ⟨mv, h1, h2⟩ := (getMetricMsg_now hs false rfl).1 m hr
  obtain ⟨k1, k2⟩ := metricView_of h1 hm
  have hn : nowMetric w s mv = some { blankMetric mv x.subType with
      value := x.val, timeStamp := .time x.timeStamp, groupId := x.groupId } := by
    unfold nowMetric
    rw [k1, hv]
    simp [hx]
  have hp : ∃ p, mv.path = 47 :: p := by
    unfold metricView metricAbsPath absPath at h1
    rw [hm] at h1
    cases hq : s.tree.pathFrom (some mo.enclosing) 0 with
    | none => simp only [hq, Option.map_none] at h1; cases h1
    | some q => simp only [hq, Option.map_some] at h1; cases h1; exact ⟨_, rfl⟩
  obtain ⟨p, hp⟩ := hp
  refine ⟨p, ?_⟩
  rw [h2, hn]
  unfold blankMetric
  rw [k1, k2, hv, hd, hp]
  rfl

/-- `GetMetric` of a variable or a callback: all fields -/
theorem read_at_all (hs : Reachable w s) {path desc : Str} {u : MUnit} {src : Src} {t : Ty} {d : Dyn} {x : Val}
    (h : MetricAt s 0 (newPathSpec path) desc ⟨some src, some 0, none, none, t, false, u⟩) (ht : t ≠ .dist ∧ t ≠ .list)
    (hd : Spec.current w s src = some d) (hx : valueToInterface d t false = some x) :
    ∃ p, (getMetricMsg false path).run w s =
      (s, some (.ok ⟨47 :: p, desc, u, t, .unknown, t.bits, x, .time (w.lockTime s 0), 0⟩)) := by
  obtain ⟨m, mo, hr, hm, hde, hv⟩ := h
  obtain ⟨mv, h1, h2⟩ := (getMetricMsg_now hs false rfl).1 m hr
  obtain ⟨k1, k2⟩ := metricView_of h1 hm
  have hn : nowMetric w s mv = some { blankMetric mv .unknown with
      value := x, timeStamp := .time (w.lockTime s 0), groupId := 0 } := by
    unfold nowMetric nowScalar nowVal nowDyn
    rw [k1, hv]
    simp only [if_neg ht.1, if_neg ht.2, Option.bind_some, hd, hx, region_zero hs, Option.map_some]
  have hp : ∃ p, mv.path = 47 :: p := by
    unfold metricView metricAbsPath absPath at h1
    rw [hm] at h1
    cases hq : s.tree.pathFrom (some mo.enclosing) 0 with
    | none => simp only [hq, Option.map_none] at h1; cases h1
    | some q => simp only [hq, Option.map_some] at h1; cases h1; exact ⟨_, rfl⟩
  obtain ⟨p, hp⟩ := hp
  refine ⟨p, ?_⟩
  rw [h2, hn]
  unfold blankMetric
  rw [k1, k2, hv, hde, hp]
  simp only [if_neg ht.2]
  rfl

/-- **C84 (with the demo program)** If the server is the demo program, right after it registered its metrics, then the last
part of the client program prints the metrics that were sent: `/proc/foo/bar/baz` and `/list/squares`. -/
theorem C84_demo (hw : IsDemo w) {p : Proc} (hf : FdInt w p) (now : Time) {pieces : List (Piece Fl)}
    (hp : powersOfTen = .ok pieces) (t0 : Time) (ts : ℕ → Time) (gl : GobLib) (jl : JsonLib) (hj : ∀ t, ∃ j, jl.time t = some j) :
    let s' := ((Demo.registerMetrics w.fnTy pieces t0 ts).run w (started w p now)).1
    ∃ x y x' y' j k, (RpcClient.main3 gl jl).run w s' = (s', printedFor (lit "/proc/foo/bar/baz metric") j ++
        (.log (lit "Got error for /proc/foo/ddd:") :: printedFor (lit "/list/squares metric") k), true) ∧
      (getMetricMsg false (lit "/proc/foo/bar/baz")).run w s' = (s', some (.ok x)) ∧
      (getMetricMsg false (lit "/list/squares")).run w s' = (s', some (.ok y)) ∧
      Arrived x x' ∧ jsonMetric jl x' = some j ∧ Arrived y y' ∧ jsonMetric jl y' = some k := by
  obtain ⟨h1, h2⟩ := C83_started (w := w) hf now
  obtain ⟨s', e, hre, hx, hm, hn, hv, hd, hmem, hl, hat⟩ := Demo.demo_run hw h1
    (fun p hp => h2 p hp _ (C01_components _)) (ten_ne hp) t0 ts
  obtain ⟨-, -, hddd⟩ := C83_client hw hf now hp t0 ts (fuel := 0)
  intro σ
  have hσ : σ = s' := by show (Prog.run w _ _).1 = s'; rw [e]
  have hddd : (getMetricMsg false (lit "/proc/foo/ddd")).run w σ = (σ, none) := hddd
  clear_value σ
  subst hσ
  simp only [Demo.allRegs, Demo.rootRegs, Demo.barRegs, Reg.under, List.map_cons, List.map_nil, List.cons_append,
    List.nil_append, List.forall_mem_cons] at hat
  obtain ⟨⟨v1, a1, b1⟩, -, -, -, -, ⟨v6, a6, b6⟩, -⟩ := hat
  have c6 : some ⟨some (.fn Demo.bazFn), some 0, none, none, .float64, false, .none⟩ = some v6 := by
    rw [← a6]; unfold valOf; simp only [hw.bazTy]; rfl
  cases a1; cases c6
  have p6 : lit "/proc/foo/bar" ++ 47 :: lit "baz" = lit "/proc/foo/bar/baz" := by decide +kernel
  rw [p6] at b6
  obtain ⟨q1, r1⟩ := read_at_all hre b6 (by decide) (hw.baz σ) (x := .scalar none (.float64 (.fin (99 / 8)))) rfl
  have hlv : listView σ (Demo.objs (started w p now)).anIntList =
      some ⟨squaresVal 0, t0, (started w p now).nextId + 1, .int64⟩ := by
    unfold listView
    rw [hl, hmem]
    simp [Demo.made, Demo.objs, Cell.val, squaresVal]
  obtain ⟨q2, r2⟩ := read_list_all hre b1 hlv
  obtain ⟨j1, hj1⟩ := hj (w.lockTime σ 0)
  obtain ⟨j2, hj2⟩ := hj t0
  have hc2 : ∀ old, Covers old ⟨47 :: q2, lit "Squares", .none, .list, .int64, Ty.bits .int64, squaresVal 0, .time t0,
      (started w p now).nextId + 1⟩ := by
    intro old
    refine ⟨fun h => (nomatch h), fun h => ?_, fun h => ?_, fun h => ?_, fun h => ?_, fun h => ?_, fun h => (nomatch h),
      fun h => (nomatch h), fun h => (nomatch h)⟩
    all_goals (dsimp only at h; exact absurd h (by decide +kernel))
  have hvj : ∃ v, jsonVal jl (gobVal gl (squaresVal 0)) = some v := by
    obtain ⟨en, ex⟩ := gl
    cases en
    · exact ⟨.arr [], rfl⟩
    · exact ⟨.null, rfl⟩
  obtain ⟨v, hvj⟩ := hvj
  generalize hX : (⟨47 :: q1, lit "Another float value", MUnit.none, Ty.float64, Ty.unknown, Ty.bits .float64,
    Val.scalar none (.float64 (.fin (99 / 8))), TS.time (w.lockTime σ 0), 0⟩ : Metric) = X at r1
  generalize hY : (⟨47 :: q2, lit "Squares", MUnit.none, Ty.list, Ty.int64, Ty.bits .int64, squaresVal 0, TS.time t0,
    (started w p now).nextId + 1⟩ : Metric) = Y at r2 hc2
  have hgX : gobMetric gobRegistry X = true := by subst hX; rfl
  have hgY : gobMetric gobRegistry Y = true := by subst hY; rfl
  have hjX : ∃ j, jsonMetric jl (gobInto gl zeroMetric X) = some j := by
    have h1 : (gobInto gl zeroMetric X).value = .scalar none (.float64 (.fin (99 / 8))) := by subst hX; rfl
    have h2 : (gobInto gl zeroMetric X).timeStamp = .time (w.lockTime σ 0) := by subst hX; rfl
    unfold jsonMetric
    rw [h1, h2]
    simp only [jsonVal, jsonBase, jsonNum, jsonStamp, hj1]
    exact ⟨_, rfl⟩
  have hjY : ∃ j, jsonMetric jl (gobInto gl (gobInto gl zeroMetric X) Y) = some j := by
    have h1 : (gobInto gl (gobInto gl zeroMetric X) Y).value = gobVal gl (squaresVal 0) := by subst hY; rfl
    have h2 : (gobInto gl (gobInto gl zeroMetric X) Y).timeStamp = .time t0 := by subst hY; rfl
    unfold jsonMetric
    rw [h1, h2, hvj]
    simp only [jsonStamp, hj2]
    exact ⟨_, rfl⟩
  obtain ⟨jX, hjX⟩ := hjX
  obtain ⟨jY, hjY⟩ := hjY
  refine ⟨X, Y, _, _, jX, jY, ?_, r1, r2, (C84_fresh gl).1 X, hjX, (C84_into gl _ _).mpr (hc2 _), hjY⟩
  unfold RpcClient.main3
  rw [run_bind, RpcClient.callGet_some r1 hgX]
  simp only [hjX]
  refine RpcClient.andThen_eq rfl ?_
  refine RpcClient.tryGet_none hddd ?_
  have := RpcClient.tryGet_some (gl := gl) (jl := jl) (desc := lit "/list/squares metric")
    (err := lit "Got error for /list/squares:") (k := fun _ => .ret ([], true)) r2 hgY hjY rfl
  rw [List.append_nil] at this
  exact this

/-- the hypotheses of `C84_demo` can be met -/
example : ∃ pieces, powersOfTen = .ok pieces ∧ IsDemo exDemoW ∧ FdInt exDemoW exProc ∧ ∀ t, ∃ j, exClientJson.time t = some j := by
  obtain ⟨-, -, pieces, hp, -⟩ := C83_powers
  exact ⟨pieces, hp, exDemoW_demo, (fun h => nomatch h), fun _ => ⟨_, rfl⟩⟩

end Tricorder
