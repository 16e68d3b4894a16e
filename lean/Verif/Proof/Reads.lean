import Verif.Proof.Sys2
import Verif.Model.Html
/-!
# Requests only read
-/

namespace Tricorder
open Go Spec Tree

variable {A α β : Type} {w : World}

/-- all steps of a program only read -/
abbrev OnlyReads (p : Prog α) : Prop := ProgAll (fun c => c.reads = true) p

theorem reads_ret (a : α) : OnlyReads (.ret a) := trivial

theorem visit_reads (s : Session) (r : ℕ) : OnlyReads (visit s r) := by
  unfold visit
  split
  · trivial
  · exact ⟨rfl, fun _ => trivial⟩

theorem close_reads (s : Session) : OnlyReads (close s) := by
  induction s with
  | nil => trivial
  | cons x s ih => obtain ⟨r, t⟩ := x; exact ⟨rfl, fun _ => ih⟩

theorem evalSrc_reads (s : Option Src) : OnlyReads (evalSrc s) := by
  unfold evalSrc
  split
  · trivial
  · trivial
  all_goals exact ⟨rfl, fun _ => trivial⟩

theorem evalIn_reads (v : MValue) (s : Session) : OnlyReads (evalIn v s) := by
  unfold evalIn
  split
  · exact ProgAll_bind (evalSrc_reads _) fun _ => trivial
  · exact ProgAll_bind (visit_reads _ _) fun _ => ProgAll_bind (evalSrc_reads _) fun _ => trivial

theorem evaluate_reads (v : MValue) (s : Option Session) : OnlyReads (evaluate v s) := by
  unfold evaluate
  split
  · exact ProgAll_bind (evalIn_reads _ _) fun _ => trivial
  · refine ProgAll_bind ?_ fun _ => trivial
    exact ProgAll_bind (evalIn_reads _ _) fun _ => ProgAll_bind (close_reads _) fun _ => trivial

theorem deref_reads (h : Handle) : OnlyReads (deref h) := by
  unfold deref
  split
  · trivial
  · exact ⟨rfl, fun _ => trivial⟩

theorem readAs_reads (v : MValue) (s : Option Session) (conv : Dyn → Option α) :
    OnlyReads (readAs v s conv) := by
  unfold readAs
  refine ProgAll_bind (evaluate_reads _ _) ?_
  rintro ⟨s', o⟩
  cases o with
  | panic => trivial
  | ok h =>
    refine ProgAll_bind (deref_reads _) fun d => ?_
    cases h : d.bind conv with
    | none => simp only [h]; trivial
    | some a => simp only [h]; trivial

theorem isInfNaN_reads (v : MValue) (s : Option Session) : OnlyReads (isInfNaN v s) := by
  unfold isInfNaN
  split
  · exact readAs_reads _ _ _
  · trivial

theorem asInterface_reads (v : MValue) (s : Option Session) : OnlyReads (asInterface v s) := by
  unfold asInterface
  split
  · trivial
  · exact readAs_reads _ _ _

theorem asTextString_reads (fm : Fmts) (v : MValue) (s : Option Session) : OnlyReads (asTextString fm v s) := by
  unfold asTextString
  split
  · trivial
  · exact readAs_reads _ _ _

theorem asHtmlString_reads (fm : Fmts) (v : MValue) (s : Option Session) : OnlyReads (asHtmlString fm v s) := by
  unfold asHtmlString
  split
  · trivial
  · exact readAs_reads _ _ _

theorem distMetric_reads (mv : MetricView) : OnlyReads (distMetric mv) := by
  unfold distMetric
  split
  · trivial
  · exact ⟨rfl, fun r => by cases r <;> trivial⟩

theorem listMetric_reads (mv : MetricView) : OnlyReads (listMetric mv) := by
  unfold listMetric
  split
  · trivial
  · exact ⟨rfl, fun r => by cases r <;> trivial⟩

theorem scalarMetric_reads (mv : MetricView) (s : Session) : OnlyReads (scalarMetric mv s) := by
  unfold scalarMetric
  refine ProgAll_bind (asInterface_reads _ _) ?_
  rintro ⟨s', o⟩
  cases o with
  | panic => trivial
  | ok v =>
    cases hr : mv.value.region with
    | none => simp only [hr]; trivial
    | some r =>
      simp only [hr]
      refine ⟨rfl, fun g => ?_⟩
      cases g with
      | none => trivial
      | some g => exact ProgAll_bind (visit_reads _ _) fun _ => trivial

theorem initMetricIn_reads (json : Bool) (mv : MetricView) (s : Session) : OnlyReads (initMetricIn json mv s) := by
  unfold initMetricIn
  split
  · exact ProgAll_bind (distMetric_reads _) fun _ => trivial
  · split
    · exact ProgAll_bind (listMetric_reads _) fun _ => trivial
    · exact ProgAll_bind (scalarMetric_reads _ _) fun _ => trivial

theorem initMetricAlone_reads (json : Bool) (mv : MetricView) : OnlyReads (initMetricAlone json mv) :=
  ProgAll_bind (initMetricIn_reads _ _ _) fun _ => ProgAll_bind (close_reads _) fun _ => trivial

theorem getDirectory_reads (d : ℕ) (p : List Str) : OnlyReads (getDirectory d p) := by
  induction p generalizing d with
  | nil => trivial
  | cons x p ih =>
    refine ⟨rfl, fun r => ?_⟩
    cases r with
    | none => trivial
    | some e =>
      obtain ⟨e, en⟩ := e
      cases hd : en.dir with
      | none => simp only [hd]; trivial
      | some d' => simp only [hd]; exact ih d'

theorem lookupPath_reads (d : ℕ) (path : Str) : OnlyReads (lookupPath d path) := by
  unfold lookupPath getDirectoryOrMetric
  split
  · refine ProgAll_bind (getDirectory_reads _ _) fun r => ?_
    cases r with
    | none => trivial
    | some d =>
      refine ⟨rfl, fun r => ?_⟩
      cases r <;> trivial
  · trivial

/-- a collector that only reads -/
def CollReads (coll : Coll A) : Prop := ∀ m s a, OnlyReads (coll m s a)

theorem collect_reads {coll : Coll A} (hc : CollReads coll) (m : ℕ) (s : Session) (a : A) :
    OnlyReads (collect coll m s a) := by
  refine ⟨rfl, fun r => ?_⟩
  cases r with
  | none => trivial
  | some mv =>
    refine ProgAll_bind (isInfNaN_reads _ _) ?_
    rintro ⟨s', o⟩
    cases o with
    | panic => trivial
    | ok b =>
      cases b with
      | true => trivial
      | false => exact hc _ _ _

theorem forEntries_reads {sub : ℕ → Session → A → Prog (Session × A × Status)} {coll : Coll A}
    (hsub : ∀ d s a, OnlyReads (sub d s a)) (hc : CollReads coll) (l : List (ℕ × Entry)) (s : Session) (a : A) :
    OnlyReads (forEntries sub coll l s a) := by
  induction l generalizing s a with
  | nil => trivial
  | cons x l ih =>
    obtain ⟨e, en⟩ := x
    refine ProgAll_bind ?_ ?_
    · split
      · exact hsub _ _ _
      · exact collect_reads hc _ _ _
      · trivial
    · rintro ⟨s', a', st⟩
      cases st with
      | ok => exact ih _ _
      | err => trivial
      | panic => trivial
      | timeout => trivial

theorem traverse_reads {coll : Coll A} (hc : CollReads coll) (fuel d : ℕ) (s : Session) (a : A) :
    OnlyReads (traverse coll fuel d s a) := by
  induction fuel generalizing d s a with
  | zero => trivial
  | succ fuel ih => exact ⟨rfl, fun l => forEntries_reads ih hc _ _ _⟩

theorem withSession_reads {body : Session → Prog (Session × A × Status)} (h : ∀ s, OnlyReads (body s)) :
    OnlyReads (withSession body) :=
  ProgAll_bind (h _) fun _ => ProgAll_bind (close_reads _) fun _ => trivial

theorem getAllMetrics_reads {coll : Coll A} (hc : CollReads coll) (fuel d : ℕ) (a : A) :
    OnlyReads (getAllMetrics coll fuel d a) :=
  withSession_reads fun _ => traverse_reads hc _ _ _ _

theorem getAllMetricsByPath_reads {coll : Coll A} (hc : CollReads coll) (fuel d : ℕ) (path : Str) (a : A) :
    OnlyReads (getAllMetricsByPath coll fuel d path a) := by
  refine ProgAll_bind (lookupPath_reads _ _) ?_
  rintro ⟨x, y⟩
  cases y with
  | some m => exact withSession_reads fun _ => collect_reads hc _ _ _
  | none =>
    cases x with
    | some d => exact getAllMetrics_reads hc _ _ _
    | none => trivial

theorem msgColl_reads (json : Bool) : CollReads (msgColl json) := by
  intro m s a
  refine ⟨rfl, fun r => ?_⟩
  cases r with
  | none => trivial
  | some mv =>
    refine ProgAll_bind (initMetricIn_reads _ _ _) ?_
    rintro ⟨s', o⟩
    cases o <;> trivial

theorem listMetrics_reads (json : Bool) (fuel : ℕ) (path : Str) : OnlyReads (listMetrics json fuel path) :=
  getAllMetricsByPath_reads (msgColl_reads json) _ _ _ _

theorem getMetric_reads (d : ℕ) (path : Str) : OnlyReads (getMetric d path) := by
  refine ProgAll_bind (lookupPath_reads _ _) ?_
  rintro ⟨x, y⟩
  cases x <;> cases y <;> trivial

theorem getMetricMsg_reads (json : Bool) (path : Str) : OnlyReads (getMetricMsg json path) := by
  refine ProgAll_bind (getMetric_reads _ _) fun r => ?_
  cases r with
  | none => trivial
  | some m =>
    refine ⟨rfl, fun r => ?_⟩
    cases r with
    | none => trivial
    | some mv => exact ProgAll_bind (initMetricAlone_reads _ _) fun _ => trivial

theorem textEmitMetric_reads (fm : Fmts) {W : Type} (wr : Writer W) (mv : MetricView) (s : Option Session)
    (x : W) : OnlyReads (textEmitMetric fm wr mv s x) := by
  unfold textEmitMetric
  split
  · split
    · trivial
    · exact ⟨rfl, fun r => by cases r <;> trivial⟩
  · split
    · split
      · trivial
      · refine ⟨rfl, fun r => ?_⟩
        cases r with
        | none => trivial
        | some v => dsimp only; split <;> trivial
    · refine ProgAll_bind (asTextString_reads _ _ _) ?_
      rintro ⟨s', o⟩
      cases o <;> trivial

theorem textColl_reads (fm : Fmts) {W : Type} (wr : Writer W) : CollReads (textColl fm wr) := by
  intro m s a
  refine ⟨rfl, fun r => ?_⟩
  cases r with
  | none => trivial
  | some mv =>
    dsimp only
    split
    · trivial
    · exact ProgAll_bind (textEmitMetric_reads _ _ _ _ _) fun _ => trivial

theorem textEndpoint_reads (fm : Fmts) {W : Type} (wr : Writer W) (fuel : ℕ) (path : Str) (x : W) :
    OnlyReads (textEndpoint fm wr fuel path x) := by
  refine ProgAll_bind (lookupPath_reads _ _) ?_
  rintro ⟨d, y⟩
  cases y with
  | some m =>
    cases d <;>
    · refine ⟨rfl, fun r => ?_⟩
      cases r with
      | none => trivial
      | some mv => exact ProgAll_bind (textEmitMetric_reads _ _ _ _ _) fun _ => trivial
  | none =>
    cases d with
    | some d => exact getAllMetrics_reads (textColl_reads _ _) _ _ _
    | none => trivial

theorem writing_reads {W : Type} (wr : Writer W) (x : W) (cs : List Str) (s : Session)
    {k : W → Prog (Session × W × Status)} (hk : ∀ y, OnlyReads (k y)) : OnlyReads (writing wr x cs s k) := by
  unfold writing
  split
  · exact hk _
  · trivial

theorem htmlEnd_reads {W : Type} (wr : Writer W) (r : Session × W × Status) : OnlyReads (htmlEnd wr r) := by
  obtain ⟨s, x, st⟩ := r
  cases st <;> trivial

theorem htmlMetric_reads (fm : Fmts) {W : Type} (wr : Writer W) (mv : MetricView) (s : Session)
    (x : W) : OnlyReads (htmlMetric fm wr mv s x) := by
  unfold htmlMetric
  split
  · refine writing_reads _ _ _ _ fun y => ?_
    split
    · trivial
    · exact ⟨rfl, fun r => by cases r <;> trivial⟩
  · split
    · split
      · trivial
      · refine ⟨rfl, fun r => ?_⟩
        cases r with
        | none => trivial
        | some v =>
          refine writing_reads _ _ _ _ fun y => ⟨rfl, fun r => ?_⟩
          cases r with
          | none => trivial
          | some v => dsimp only; split <;> trivial
    · refine writing_reads _ _ _ _ fun y => ProgAll_bind (asHtmlString_reads _ _ _) ?_
      rintro ⟨s', o⟩
      cases o <;> trivial

theorem htmlEntries_reads (fm : Fmts) {W : Type} (wr : Writer W) (l : List (ℕ × Entry)) (s : Session) (x : W) :
    OnlyReads (htmlEntries fm wr l s x) := by
  induction l generalizing s x with
  | nil => trivial
  | cons e l ih =>
    obtain ⟨e, en⟩ := e
    refine ProgAll_bind ?_ ?_
    · unfold htmlEntry
      split
      · exact ⟨rfl, fun r => by cases r <;> trivial⟩
      · refine ⟨rfl, fun r => ?_⟩
        cases r with
        | none => trivial
        | some mv => exact htmlMetric_reads _ _ _ _ _
      · trivial
    · rintro ⟨s', a', st⟩
      cases st with
      | ok => exact ih _ _
      | err => trivial
      | panic => trivial
      | timeout => trivial

theorem htmlEndpoint_reads (fm : Fmts) {W : Type} (wr : Writer W) (path : Str) (x : W) :
    OnlyReads (htmlEndpoint fm wr path x) := by
  refine ProgAll_bind (lookupPath_reads _ _) ?_
  rintro ⟨d, y⟩
  cases y with
  | some m =>
    cases d <;>
    · refine withSession_reads fun _ => writing_reads _ _ _ _ fun y => ⟨rfl, fun r => ?_⟩
      cases r with
      | none => trivial
      | some mv => exact ProgAll_bind (htmlMetric_reads _ _ _ _ _) (htmlEnd_reads _)
  | none =>
    cases d with
    | some d => exact withSession_reads fun _ => writing_reads _ _ _ _ fun _ =>
        ⟨rfl, fun l => ProgAll_bind (htmlEntries_reads _ _ _ _ _) (htmlEnd_reads _)⟩
    | none => trivial

theorem reads_ok {c : Cmd} (h : c.reads = true) (s : State) : c.Ok s := by
  cases c <;> simp [Cmd.reads] at h <;> trivial

/-- all states of a run of a program that only reads are reachable, and its trees grow -/
theorem RunI_reads {p : Prog α} (hp : OnlyReads p) {s s' : State} {h : List Ev} {a : α}
    (hr : RunI w p s h s' a) (hs : Reachable w s) :
    (∀ τ ∈ statesOf h s', Reachable w τ) ∧ ∀ e ∈ h, e.own = true → e.cmd.reads = true := by
  have h1 := RunI_all hp hr
  have h2 := RunI_reachable hr hs fun e he ho => reads_ok (h1 e he ho) _
  refine ⟨?_, h1⟩
  intro τ hτ
  rcases List.mem_append.mp hτ with hm | hm
  · obtain ⟨e, he, rfl⟩ := List.mem_map.mp hm
    exact h2.1 e he
  · rw [List.mem_singleton.mp hm]; exact h2.2

/-- a run without interference -/
theorem run_of_RunI {p : Prog α} {s s' : State} {h : List Ev} {a : α} (hr : RunI w p s h s' a)
    (ho : ∀ e ∈ h, e.own = true) : p.run w s = (s', a) := by
  induction hr with
  | ret => rfl
  | env c _ _ _ => exact absurd (ho _ List.mem_cons_self) (by simp)
  | op _ ih => exact ih fun e he => ho e (List.mem_cons_of_mem _ he)

/-- alone, a program that only reads stays in one state -/
theorem RunI_alone {p : Prog α} (hp : OnlyReads p) (s : State) :
    ∃ h, RunI w p s h s (p.run w s).2 ∧ (∀ e ∈ h, e.own = true) ∧ ∀ τ ∈ statesOf h s, τ = s := by
  induction p generalizing s with
  | ret a => exact ⟨[], .ret a s, by simp, by simp [statesOf]⟩
  | op c k ih =>
    have hs := exec_reads (w := w) hp.1 s
    obtain ⟨h, h1, h2, h3⟩ := ih (exec w c s).2 (hp.2 _) s
    refine ⟨⟨true, c, s⟩ :: h, ?_, ?_, ?_⟩
    · refine .op ?_
      rw [Prog.run, hs]
      exact h1
    · intro e he
      rcases List.mem_cons.mp he with hh | hh
      · rw [hh]
      · exact h2 e hh
    · intro τ hτ
      simp only [statesOf, List.map_cons, List.cons_append, List.mem_cons] at hτ
      rcases hτ with hh | hh
      · exact hh
      · exact h3 τ hh

end Tricorder
