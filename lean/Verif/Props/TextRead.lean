import Verif.Proof.TextRead
import Verif.Props.Text
/-!
# C97: the text page can be read line by line

The text page (`/repo/go/tricorder/html.go:183-271`, documented at `/repo/go/tricorder/doc.go:37-46`) as scripts read it.
`ReadAs`, `PlainMetric`, `SameValue` are in `Verif/Spec/TextRead.lean`.
-/

namespace Tricorder
open Go Spec Tree _root_.Spec

variable {w : World} {s : State} {W : Type}

/-- **C97 (directories)** If there are no spaces and newlines in paths and no newlines in strings, then a script that reads the
text page of a directory line by line finds, in one way only, the metrics that `ListMetrics` answers, each with its path and the
text of its value. -/
theorem C97_page (ht : Typed w s) {fm : Fmts} (hfm : PlainFmts fm) (wr : Writer W) {path : Str} {c : List Str} (hc : Components path c)
    {d : ℕ} (hd : Reaches s.tree 0 c (.dir d)) {fuel : ℕ} (hf : s.tree.entries.length < fuel)
    (hok : ((listMetrics false fuel path).run w s).2.2 = .ok)
    (hp : ∀ y ∈ ((listMetrics false fuel path).run w s).2.1, PlainMetric y) (x : W) :
    ∃ (chunks : List Str) (es : List (Str × Str)), (textEndpoint fm wr fuel path x).run w s = (s, wr.all x chunks) ∧
      (∀ es', ReadAs chunks.flatten es' ↔ es' = es) ∧
      List.Forall₂ (fun y e => e.1 = y.path ∧ TextOf fm y e.2) ((listMetrics false fuel path).run w s).2.1 es := by
  obtain ⟨lines, h1, h2⟩ := C63_directory ht fm wr hc hd hf hok x
  refine ⟨lines.flatten, ?_⟩
  have key : ∀ (ys : List Metric) (lines : List (List Str)), (∀ y ∈ ys, PlainMetric y) →
      List.Forall₂ (fun y l => ∃ txt, l.flatten = y.path ++ lit " " ++ txt ++ lit "\n" ∧ TextOf fm y txt) ys lines →
      ∃ es, ReadAs lines.flatten.flatten es ∧ List.Forall₂ (fun y e => e.1 = y.path ∧ TextOf fm y e.2) ys es := by
    intro ys lines hp h
    induction h with
    | nil => exact ⟨[], ⟨[], ⟨rfl, by simp⟩, .nil⟩, .nil⟩
    | @cons y l ys lines h _ ih =>
      obtain ⟨es, ⟨ls, ⟨a1, a2⟩, a3⟩, a4⟩ := ih fun z hz => hp z (by simp [hz])
      obtain ⟨t, t1, t2⟩ := h
      obtain ⟨p1, p2, p3⟩ := hp y (by simp)
      have hn := text_not hfm p3 t2
      refine ⟨(y.path, t) :: es, ⟨(y.path ++ [32] ++ t) :: ls, ⟨?_, ?_⟩, .cons ⟨rfl, p1⟩ a3⟩, .cons ⟨rfl, t2⟩ a4⟩
      · rw [List.flatten_cons, List.flatten_append, t1, a1, show lit " " = [32] by decide +kernel,
          show lit "\n" = [10] by decide +kernel]
        rfl
      · intro z hz
        rcases List.mem_cons.mp hz with rfl | hz
        · simp only [List.mem_append, List.mem_singleton, not_or]
          exact ⟨⟨p2, by decide⟩, hn⟩
        · exact a2 z hz
  obtain ⟨es, k1, k2⟩ := key _ _ hp h2
  exact ⟨es, h1, fun es' => ⟨fun h => readAs_unique h k1, fun h => h ▸ k1⟩, k2⟩

/-- **C97 (metrics)** The text page of a metric without newlines in its strings is one line. -/
theorem C97_metric (ht : Typed w s) {fm : Fmts} (hfm : PlainFmts fm) (wr : Writer W) {path : Str} {c : List Str} (hc : Components path c)
    {y : Metric} (hy : ((getMetricMsg false path).run w s).2 = some (.ok y)) (hp : ∀ b ∈ shownBases y, PlainBase b) (fuel : ℕ)
    (x : W) :
    ∃ (chunks : List Str) (txt : Str), (textEndpoint fm wr fuel path x).run w s = (s, wr.all x chunks) ∧
      (∀ ls, Lines chunks.flatten ls ↔ ls = [txt]) ∧ TextOf fm y txt := by
  obtain ⟨chunks, txt, h1, h2, h3⟩ := C63_metric ht fm wr hc hy fuel x
  have h4 : Lines chunks.flatten [txt] := by
    refine ⟨by rw [h2, show lit "\n" = [10] by decide +kernel]; simp, ?_⟩
    intro l hl
    rw [List.mem_singleton.mp hl]
    exact text_not hfm hp h3
  exact ⟨chunks, txt, h1, fun ls => ⟨fun h => lines_unique h h4, fun h => h ▸ h4⟩, h3⟩

/-- **C97 (values)** The text determines the value: integers, booleans, strings, durations and instants exactly, floating point
numbers, and what is shown of distributions, up to their texts.  In lists, strings must not contain the bar. -/
theorem C97_value {fm : Fmts} (hf : PlainFmts fm) {y y' : Metric} (ht : SameTypes y y') (hy : ∀ b ∈ shownBases y, PlainBase b ∧ NoBar b)
    (hy' : ∀ b ∈ shownBases y', PlainBase b ∧ NoBar b) {s : Str} (h : TextOf fm y s) (h' : TextOf fm y' s) : SameValue fm y y' :=
  text_same hf ht hy hy' h h'

/-! ## what strings can do -/

theorem exW_calls : CallsOk exW := by
  constructor
  · intro s f d hd
    simp only [exW] at hd
    split at hd
    · cases hd
    · split at hd <;> cases hd
      · trivial
      · have : f % 1000 < 1000 := Nat.mod_lt _ (by decide)
        simp only [DynOk, Base.Valid, IntKind.InRange, IntKind.signed, IntKind.bits]
        norm_num
        omega
  · intro s f d hd
    simp only [exW] at hd
    split at hd <;> cases hd
    trivial

/-- `/a` has the value `a` and perhaps `/b` the value `b` -/
def exForge (a : Str) (b : Option Str) : State :=
  match b with
  | none => exTextReg [97] (.ptr 0) (some 0) .none (exec exW (.newVar (.scalar none (.string a))) State.init).1
  | some b => exTextReg [98] (.ptr 1) (some 0) .none (exTextReg [97] (.ptr 0) (some 0) .none
      (exec exW (.newVar (.scalar none (.string b))) (exec exW (.newVar (.scalar none (.string a))) State.init).1).1)

theorem exForge_typed (a : Str) (b : Option Str)
    (h2 : ∀ m < (exForge a b).tree.metrics.length, ∃ i, ((exForge a b).tree.metrics[m]?).map (fun mo => mo.value.src) = some (some (.var i))) :
    Typed exW (exForge a b) := by
  have hno : ∀ (c : Cmd) (s : State), (∀ d n ds v, c ≠ .storeMetric d n ds v) → StoreFits exW ⟨false, c, s⟩ :=
    fun c s h d n ds v hc => absurd hc (h d n ds v)
  have h1 : TypedHistory exW (exForge a b) := by
    cases b with
    | none =>
      refine exTextReg_history (.step _ .init trivial (hno _ _ (fun _ _ _ _ h => nomatch h)) ?_) (by exact Nat.one_pos)
      simp only [StepTyped, DynOk, Base.Valid]
    | some b =>
      refine exTextReg_history (exTextReg_history (.step _ (.step _ .init trivial (hno _ _ (fun _ _ _ _ h => nomatch h)) ?_)
        trivial (hno _ _ (fun _ _ _ _ h => nomatch h)) ?_) (by exact Nat.one_pos)) ?_
      · simp only [StepTyped, DynOk, Base.Valid]
      · simp only [StepTyped, DynOk, Base.Valid]
      · exact Nat.one_pos
  refine C63_history h1 exW_calls ?_
  intro m mv hm g σ d hg
  unfold metricView at hm
  split at hm
  · rename_i mo p k1 k2
    cases hm
    obtain ⟨i, hi⟩ := h2 m (List.getElem?_eq_some_iff.mp k1).1
    rw [k1] at hi
    simp only [Option.map_some, Option.some.injEq] at hi
    simp only at hg
    rw [hi] at hg
    cases hg
  · cases hm

/-- **C97 (forged lines)** Strings are not escaped: a program with one string metric can have, byte for byte, the text page of a
program with two metrics, whatever the numbers look like. -/
theorem C97_forge : ∃ (w : World) (s s' : State), Typed w s ∧ Typed w s' ∧
    ((listMetrics false 20 [47]).run w s).2.1.map (·.path) = [lit "/a"] ∧
    ((listMetrics false 20 [47]).run w s').2.1.map (·.path) = [lit "/a", lit "/b"] ∧
    ∀ fm : Fmts, ((textEndpoint fm exWriter 20 [47] []).run w s).2 = ((textEndpoint fm exWriter 20 [47] []).run w s').2 ∧
      ((textEndpoint fm exWriter 20 [47] []).run w s').2 = (lit "/a \"x\"\n/b \"y\"\n", .ok) := by
  have hsrc : ∀ m < 1, ((exForge (lit "x\"\n/b \"y") none).tree.metrics[m]?).map (fun mo => mo.value.src) = some (some (.var m)) := by
    decide +kernel
  have hsrc' : ∀ m < 2, ((exForge (lit "x") (some (lit "y"))).tree.metrics[m]?).map (fun mo => mo.value.src) =
      some (some (.var m)) := by decide +kernel
  refine ⟨exW, exForge (lit "x\"\n/b \"y") none, exForge (lit "x") (some (lit "y")),
    exForge_typed _ _ fun m hm => ⟨m, hsrc m ?_⟩,
    exForge_typed _ _ fun m hm => ⟨m, hsrc' m ?_⟩, by decide +kernel, by decide +kernel, fun fm => ⟨?_, ?_⟩⟩
  · rwa [show (exForge (lit "x\"\n/b \"y") none).tree.metrics.length = 1 by decide +kernel] at hm
  · rwa [show (exForge (lit "x") (some (lit "y"))).tree.metrics.length = 2 by decide +kernel] at hm
  · rfl
  · rfl

/-- a list of one string can look like a list of two -/
example (fm : Fmts) : TextOf fm ⟨[], [], .none, .list, .string, 0, .slice none ⟨none, .string⟩ (some [.string (lit "a\"|\"b")]), .nil, 0⟩ (lit "\"a\"|\"b\"") ∧
    TextOf fm ⟨[], [], .none, .list, .string, 0, .slice none ⟨none, .string⟩ (some [.string (lit "a"), .string (lit "b")]), .nil, 0⟩
      (lit "\"a\"|\"b\"") :=
  ⟨⟨[lit "\"a\"|\"b\""], .cons rfl .nil, by decide +kernel⟩,
    ⟨[lit "\"a\"", lit "\"b\""], .cons rfl (.cons rfl .nil), by decide +kernel⟩⟩

/-! ## examples -/

theorem exFm_plain : PlainFmts exFm := by
  intro x
  have h : ∀ l ∈ [lit "10", lit "20", lit "#"], l ≠ [] ∧ ∀ c ∈ ([10, 41, 44, 59, 124] : Str), c ∉ l := by decide +kernel
  have h1 : exFm.f32 x ∈ [lit "10", lit "20", lit "#"] := by
    simp only [exFm]
    split
    · simp
    · split <;> simp
  have h2 : exFm.f64 x ∈ [lit "10", lit "20", lit "#"] := by simp [exFm]
  exact ⟨(h _ h1).1, (h _ h2).1, fun c hc => ⟨(h _ h1).2 c hc, (h _ h2).2 c hc⟩⟩

example : Typed exW exTextS ∧ PlainFmts exFm ∧ Components [47] [] ∧ Reaches exTextS.tree 0 [] (.dir 0) ∧
    ((listMetrics false 20 [47]).run exW exTextS).2.2 = .ok ∧ exTextS.tree.entries.length < 20 ∧
    ReadAs ((textEndpoint exFm exWriter 20 [47] []).run exW exTextS).2.1
      [(lit "/a/f", lit "-7"), (lit "/d", lit "{min:#;max:#;avg:#;median:#;sum:#;count:1;[10,20):1}"),
        (lit "/l", lit "1.500000000|-0.000000003")] := by
  refine ⟨exTextS_typed, exFm_plain, C01_components [47], .here 0, by decide +kernel, by decide +kernel,
    [lit "/a/f -7", lit "/d {min:#;max:#;avg:#;median:#;sum:#;count:1;[10,20):1}", lit "/l 1.500000000|-0.000000003"],
    ⟨by decide +kernel, by decide +kernel⟩, .cons ⟨by decide +kernel, by decide +kernel⟩ (.cons ⟨by decide +kernel, by decide +kernel⟩
      (.cons ⟨by decide +kernel, by decide +kernel⟩ .nil))⟩

instance (b : Base) : Decidable (PlainBase b) := by cases b <;> unfold PlainBase <;> first | infer_instance | (unfold TimeRange; infer_instance)

/-- all metrics of this page are plain -/
example : ∀ y ∈ ((listMetrics false 20 [47]).run exW exTextS).2.1, PlainMetric y := by
  have h : ∀ p ∈ ((listMetrics false 20 [47]).run exW exTextS).2.1.map (fun y => (y.path, shownBases y)),
      (32 : UInt8) ∉ p.1 ∧ (10 : UInt8) ∉ p.1 ∧ ∀ b ∈ p.2, PlainBase b := by decide +kernel
  intro y hy
  exact h (y.path, shownBases y) (List.mem_map.mpr ⟨y, hy, rfl⟩)

end Tricorder
