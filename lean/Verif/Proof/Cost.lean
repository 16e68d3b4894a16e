import Verif.Spec.Cost
import Verif.Model.Http
import Verif.Model.Html
import Verif.Proof.Often
import Mathlib.Algebra.Group.Prod
import Mathlib.Tactic.Abel
/-!
# How much work a request is
-/

namespace Tricorder
open Go Spec

variable {w : World} {α β A : Type} {V : ℕ → Option MetricView}

/-- how many directories a step lists, and how many entries the answer has -/
def foundIn : (c : Cmd) → c.Resp → ℕ × ℕ
  | .list _, r => (1, List.length r)
  | _, _ => 0

/-- whatever the answers to its steps are, the program takes a number of steps, lists a number of directories with a number of
entries and ends with a result that satisfy `Q` -/
def Costs (V : ℕ → Option MetricView) : Prog α → (ℕ → ℕ × ℕ → α → Prop) → Prop
  | .ret a, Q => Q 0 0 a
  | .op c k, Q => ∀ r, Fits V c r → Costs V (k r) fun n l a => Q (n + 1) (l + foundIn c r) a

theorem Costs.mono {p : Prog α} {Q R : ℕ → ℕ × ℕ → α → Prop} (h : Costs V p Q) (hq : ∀ n l a, Q n l a → R n l a) : Costs V p R := by
  induction p generalizing Q R with
  | ret a => exact hq _ _ _ h
  | op c k ih => exact fun r hr => ih r (h r hr) fun n l a => hq _ _ _

theorem Costs.bind {p : Prog α} {f : α → Prog β} {Q : ℕ → ℕ × ℕ → β → Prop}
    (h : Costs V p fun n l a => Costs V (f a) fun n' l' b => Q (n + n') (l + l') b) : Costs V (p.bind f) Q := by
  induction p generalizing Q with
  | ret a => exact (Costs.mono h fun n l b h => by simpa using h)
  | op c k ih =>
    refine fun r hr => ih r ?_
    refine (h r hr).mono fun n l a h' => h'.mono fun n' l' b h'' => ?_
    rwa [show n + n' + 1 = n + 1 + n' by omega, show l + l' + foundIn c r = l + foundIn c r + l' by abel]

theorem withEntries_length (t : Tree MValue) (es : List ℕ) : (withEntries t es).length ≤ es.length :=
  List.length_filterMap_le _ _

theorem foundIn_le (c : Cmd) (s : State) : (foundIn c (exec w c s).2).2 ≤ entriesOf ⟨true, c, s⟩ := by
  cases c with
  | list d =>
    refine (withEntries_length _ _).trans ?_
    rw [(w.ord_perm _ _).length_eq]
    simp [entriesOf]
  | _ => exact Nat.zero_le _

/-- the number of entries found is at most the one in the directories -/
theorem costs_run {p : Prog α} {Q : ℕ → ℕ × ℕ → α → Prop} {σ σ' : State} {h : List Ev} {a : α} (hr : RunI w p σ h σ' a)
    (hV : ∀ e ∈ h, ∀ m mv, metricView e.pre.tree m = some mv → V m = some mv)
    (hp : Costs V p Q) : ∃ l : ℕ × ℕ, l.1 = (dirsListed h).length ∧ l.2 ≤ entriesFound h ∧ Q (ownSteps h) l a := by
  induction hr generalizing Q with
  | ret => exact ⟨0, rfl, Nat.zero_le _, hp⟩
  | env c hc _ ih =>
    obtain ⟨l, h0, h1, h2⟩ := ih (fun e he => hV e (List.mem_cons_of_mem _ he)) hp
    exact ⟨l, by simpa [dirsListed] using h0, by simpa [entriesFound] using h1, by simpa [ownSteps] using h2⟩
  | @op c k s h s' a hr ih =>
    have hf : Fits V c (exec w c s).2 := by
      cases c with
      | metric m => exact fun mv h => hV _ List.mem_cons_self m mv h
      | _ => trivial
    obtain ⟨l, h0, h1, h2⟩ := ih (fun e he => hV e (List.mem_cons_of_mem _ he)) (hp _ hf)
    refine ⟨_, ?_, ?_, by simpa [ownSteps] using h2⟩
    · rw [Prod.fst_add, h0]
      cases c <;> simp [dirsListed, foundIn]
    · have := foundIn_le (w := w) c s
      simp only [entriesFound, List.filter_cons, if_true, List.map_cons, List.sum_cons, Prod.snd_add]
      unfold entriesFound at h1
      omega

/-! ### one value -/

/-- the session holds the group of the value, if it has one -/
def Has (v : MValue) (s : Session) : Prop := ∀ g, v.region = some g → ∃ t, s.lookup g = some t

/-- a number of steps that is at most `b` if the release of the groups taken is counted -/
def Pays (b n : ℕ) (s s' : Session) : Prop := n + s'.length ≤ s.length + b

theorem lookup_self {s : Session} {r : ℕ} {t : Time} : List.lookup r ((r, t) :: s) = some t := by
  simp [List.lookup]

theorem visit_costs (s : Session) (r : ℕ) : Costs V (visit s r) fun n l st => l = 0 ∧ Pays 2 n s st.1 ∧
    (∃ t, st.1.lookup r = some t) ∧ ((∃ t, s.lookup r = some t) → Pays 0 n s st.1) := by
  unfold visit
  split
  · rename_i t h
    exact ⟨rfl, by simp [Pays], ⟨t, h⟩, fun _ => by simp [Pays]⟩
  · rename_i h
    intro t _
    refine ⟨rfl, by simp [Pays]; omega, ⟨t, lookup_self⟩, fun h' => ?_⟩
    rw [h] at h'
    obtain ⟨_, h'⟩ := h'
    cases h'

theorem close_costs (s : Session) : Costs V (close s) fun n l _ => l = 0 ∧ n = s.length := by
  induction s with
  | nil => exact ⟨rfl, rfl⟩
  | cons x s ih => exact fun _ _ => ih.mono fun n l _ h => ⟨h.1, by simp [h.2]⟩

/-- reading what is left to be read -/
def leftOver : Out Handle → ℕ
  | .ok (.var _) => 1
  | _ => 0

theorem evalSrc_costs (o : Option Src) : Costs V (evalSrc o) fun n l r => l = 0 ∧ n + leftOver r ≤ 1 := by
  rcases o with _ | sc
  · exact ⟨rfl, by simp [leftOver]⟩
  · cases sc with
    | var v => exact ⟨rfl, by simp [leftOver]⟩
    | fn f => intro r _; rcases r with _ | r <;> exact ⟨rfl, by simp [called, leftOver]⟩
    | flagGet g => intro r _; rcases r with _ | r <;> exact ⟨rfl, by simp [called, leftOver]⟩
    | flagString g => intro r _; rcases r with _ | r <;> exact ⟨rfl, by simp [called, leftOver]⟩

/-- reading a value in a session takes the group, if that is still to be done, and asks once -/
theorem evalIn_costs (v : MValue) (s : Session) : Costs V (evalIn v s) fun n l r => l = 0 ∧
    Pays 3 (n + leftOver r.2) s r.1 ∧ Has v r.1 ∧ (Has v s → Pays 1 (n + leftOver r.2) s r.1) := by
  unfold evalIn
  split
  · rename_i hv
    refine Costs.bind ((evalSrc_costs v.src).mono fun n l r h => ?_)
    unfold Pays
    exact ⟨by simp [h.1], by simp only; omega, fun g hg => (by rw [hv] at hg; cases hg), fun _ => by simp only; omega⟩
  · rename_i g hv
    refine Costs.bind ((visit_costs s g).mono fun n l st h => ?_)
    obtain ⟨rfl, h2, h3, h4⟩ := h
    refine Costs.bind ((evalSrc_costs v.src).mono fun n' l r h => ?_)
    unfold Pays at *
    refine ⟨by simp [h.1], by simp only; omega, fun g' hg => ?_, fun hs => ?_⟩
    · rw [hv] at hg; cases hg; exact h3
    · have := h4 (hs g hv)
      simp only
      omega

theorem readAs_costs (v : MValue) (s : Session) (conv : Dyn → Option α) : Costs V (readAs v (some s) conv) fun n l r => l = 0 ∧
    Pays 3 n s (r.1.getD []) ∧ Has v (r.1.getD []) ∧ (Has v s → Pays 1 n s (r.1.getD [])) := by
  unfold readAs evaluate
  refine Costs.bind (Costs.bind ((evalIn_costs v s).mono fun n l r h => ?_))
  obtain ⟨h1, h2, h3, h4⟩ := h
  obtain ⟨s', o⟩ := r
  unfold Pays at *
  cases o with
  | panic => exact ⟨by omega, by simpa [leftOver] using h2, h3, by simpa [leftOver] using h4⟩
  | ok hd =>
    cases hd with
    | var x =>
      intro d _
      simp only [leftOver] at h2 h4
      dsimp only [Prog.bind]
      cases Option.bind d conv <;>
        exact ⟨by simp [h1, foundIn], by simp only [Option.getD_some]; omega, h3, fun hs => by have := h4 hs; simp only [Option.getD_some]; omega⟩
    | val d =>
      simp only [leftOver] at h2 h4
      show Costs V (match (some d).bind conv with
        | none => Prog.ret (some s', Out.panic)
        | some a => .ret (some s', .ok a)) _
      cases (some d).bind conv <;>
        exact ⟨by omega, by simp only [Option.getD_some]; omega, h3, fun hs => by have := h4 hs; simp only [Option.getD_some]; omega⟩

/-- without a session -/
theorem readAs_costs_alone (v : MValue) (conv : Dyn → Option α) : Costs V (readAs v none conv) fun n l _ => l = 0 ∧ n ≤ 3 := by
  unfold readAs evaluate evalAlone
  refine Costs.bind (Costs.bind (Costs.bind ((evalIn_costs v []).mono fun n l r h => ?_)))
  obtain ⟨h1, h2, h3, h4⟩ := h
  refine Costs.bind ((close_costs _).mono fun n' l' _ h' => ?_)
  obtain ⟨rfl, rfl⟩ := h'
  obtain ⟨s', o⟩ := r
  simp only [Pays, List.length_nil] at h2
  cases o with
  | panic => exact ⟨by omega, by simp [leftOver] at h2 ⊢; omega⟩
  | ok hd =>
    cases hd with
    | var x =>
      intro d _
      simp only [leftOver] at h2
      dsimp only [Prog.bind]
      cases Option.bind d conv <;> exact ⟨by simp [h1, foundIn], by omega⟩
    | val d =>
      simp only [leftOver] at h2
      show Costs V (match (some d).bind conv with
        | none => Prog.ret (none, Out.panic)
        | some a => .ret (none, .ok a)) _
      cases (some d).bind conv <;> exact ⟨by omega, by omega⟩

theorem isInfNaN_costs (v : MValue) (s : Session) : Costs V (isInfNaN v (some s)) fun n l r => l = 0 ∧
    (n = 0 ∧ r.1.getD [] = s ∨ Pays 3 n s (r.1.getD []) ∧ Has v (r.1.getD [])) := by
  unfold isInfNaN
  split
  · exact (readAs_costs _ _ _).mono fun n l r h => ⟨h.1, .inr ⟨h.2.1, h.2.2.1⟩⟩
  · exact ⟨rfl, .inl ⟨rfl, rfl⟩⟩

/-! ### one metric -/

theorem asInterface_costs (v : MValue) (s : Session) : Costs V (asInterface v (some s)) fun n l r => l = 0 ∧
    Pays 3 n s (r.1.getD []) ∧ (∀ x, r.2 = .ok x → Has v (r.1.getD [])) ∧ (Has v s → Pays 1 n s (r.1.getD [])) := by
  unfold asInterface
  split
  · exact ⟨rfl, by simp [Pays], fun x hx => (by cases hx), fun _ => by simp [Pays]⟩
  · exact (readAs_costs _ _ _).mono fun n l r h => ⟨h.1, h.2.1, fun _ _ => h.2.2.1, h.2.2.2⟩

theorem scalarMetric_costs (mv : MetricView) (s : Session) : Costs V (scalarMetric mv s) fun n l r => l = 0 ∧
    Pays 4 n s r.1 ∧ (Has mv.value s → Pays 2 n s r.1) := by
  unfold scalarMetric
  refine Costs.bind ((asInterface_costs mv.value s).mono fun n l r h => ?_)
  obtain ⟨rfl, h2, h3, h4⟩ := h
  obtain ⟨s', o⟩ := r
  unfold Pays at *
  cases o with
  | panic => exact ⟨rfl, by simp only at h2 ⊢; omega, fun hs => by have := h4 hs; simp only at this ⊢; omega⟩
  | ok x =>
    have h3 := h3 x rfl
    dsimp only
    split
    · exact ⟨rfl, by simp only at h2 ⊢; omega, fun hs => by have := h4 hs; simp only at this ⊢; omega⟩
    · rename_i g hg
      intro r _
      rcases r with _ | gid
      · exact ⟨rfl, by simp only at h2 ⊢; omega, fun hs => by have := h4 hs; simp only at this ⊢; omega⟩
      · refine Costs.bind ((visit_costs _ g).mono fun n' l' st h => ?_)
        obtain ⟨rfl, -, -, h5⟩ := h
        have h6 := h5 (h3 g hg)
        unfold Pays at h6
        exact ⟨rfl, by simp only at h2 ⊢; omega, fun hs => by have := h4 hs; simp only at this ⊢; omega⟩

theorem initMetricIn_costs (json : Bool) (mv : MetricView) (s : Session) : Costs V (initMetricIn json mv s) fun n l r => l = 0 ∧
    Pays 4 n s r.1 ∧ (Has mv.value s → Pays 2 n s r.1) := by
  unfold initMetricIn
  split
  · unfold distMetric
    split
    · exact ⟨rfl, by simp [Pays], fun _ => by simp [Pays]⟩
    · intro r _
      rcases r with _ | r <;> exact ⟨rfl, by simp [Pays]; omega, fun _ => by simp [Pays]; omega⟩
  · split
    · unfold listMetric
      split
      · exact ⟨rfl, by simp [Pays], fun _ => by simp [Pays]⟩
      · intro r _
        rcases r with _ | r <;> exact ⟨rfl, by simp [Pays]; omega, fun _ => by simp [Pays]; omega⟩
    · exact Costs.bind ((scalarMetric_costs mv s).mono fun n l r h => h)

theorem initMetricAlone_costs (json : Bool) (mv : MetricView) : Costs V (initMetricAlone json mv) fun n l _ => l = 0 ∧ n ≤ 4 := by
  unfold initMetricAlone
  refine Costs.bind ((initMetricIn_costs json mv []).mono fun n l r h => ?_)
  obtain ⟨rfl, h2, -⟩ := h
  refine Costs.bind ((close_costs _).mono fun n' l' _ h' => ?_)
  obtain ⟨rfl, rfl⟩ := h'
  simp only [Pays, List.length_nil] at h2
  exact ⟨rfl, by omega⟩

theorem asTextString_costs (fm : Fmts) (v : MValue) (s : Session) : Costs V (asTextString fm v (some s)) fun n l r => l = 0 ∧
    Pays 3 n s (r.1.getD []) ∧ (Has v s → Pays 1 n s (r.1.getD [])) := by
  unfold asTextString
  split
  · exact ⟨rfl, by simp [Pays]⟩
  · exact (readAs_costs _ _ _).mono fun n l r h => ⟨h.1, h.2.1, h.2.2.2⟩

theorem asTextString_costs_alone (fm : Fmts) (v : MValue) : Costs V (asTextString fm v none) fun n l _ => l = 0 ∧ n ≤ 3 := by
  unfold asTextString
  split
  · exact ⟨rfl, by omega⟩
  · exact readAs_costs_alone _ _

theorem asHtmlString_costs (fm : Fmts) (v : MValue) (s : Session) : Costs V (asHtmlString fm v (some s)) fun n l r => l = 0 ∧
    Pays 3 n s (r.1.getD []) := by
  unfold asHtmlString
  split
  · exact ⟨rfl, by simp [Pays]⟩
  · exact (readAs_costs _ _ _).mono fun n l r h => ⟨h.1, h.2.1⟩

theorem textEmitMetric_costs (fm : Fmts) {W : Type} (wr : Writer W) (mv : MetricView) (s : Session) (x : W) :
    Costs V (textEmitMetric fm wr mv (some s) x) fun n l r => l = 0 ∧ Pays 3 n s (r.1.getD []) ∧
      (Has mv.value s → Pays 1 n s (r.1.getD [])) := by
  unfold textEmitMetric
  split
  · split
    · exact ⟨rfl, by simp [Pays]⟩
    · intro r _
      rcases r with _ | r <;> exact ⟨rfl, by simp [Pays]; omega⟩
  · split
    · split
      · exact ⟨rfl, by simp [Pays]⟩
      · intro r _
        rcases r with _ | r
        · exact ⟨rfl, by simp [Pays]; omega⟩
        · dsimp only
          split <;> exact ⟨rfl, by simp [Pays]; omega⟩
    · refine Costs.bind ((asTextString_costs fm mv.value s).mono fun n l r h => ?_)
      obtain ⟨rfl, h2, h3⟩ := h
      obtain ⟨s', o⟩ := r
      unfold Pays at *
      cases o <;> exact ⟨rfl, by simp only at h2 ⊢; omega, fun hs => by have := h3 hs; simp only at this ⊢; omega⟩

theorem textEmitMetric_costs_alone (fm : Fmts) {W : Type} (wr : Writer W) (mv : MetricView) (x : W) :
    Costs V (textEmitMetric fm wr mv none x) fun n l _ => l = 0 ∧ n ≤ 3 := by
  unfold textEmitMetric
  split
  · split
    · exact ⟨rfl, by omega⟩
    · intro r _
      rcases r with _ | r <;> exact ⟨rfl, by omega⟩
  · split
    · split
      · exact ⟨rfl, by omega⟩
      · intro r _
        rcases r with _ | r
        · exact ⟨rfl, by omega⟩
        · dsimp only
          split <;> exact ⟨rfl, by omega⟩
    · refine Costs.bind ((asTextString_costs_alone fm mv.value).mono fun n l r h => ?_)
      obtain ⟨rfl, h2⟩ := h
      obtain ⟨s', o⟩ := r
      cases o <;> exact ⟨rfl, by omega⟩

theorem writing_costs {W : Type} {wr : Writer W} {x : W} {cs : List Str} {s : Session} {k : W → Prog (Session × W × Status)}
    {Q : ℕ → ℕ × ℕ → Session × W × Status → Prop} (h1 : ∀ r, r.1 = s → Q 0 0 r) (h2 : ∀ x', Costs V (k x') Q) :
    Costs V (writing wr x cs s k) Q := by
  unfold writing
  split
  · exact h2 _
  · exact h1 _ rfl

theorem htmlMetric_costs (fm : Fmts) {W : Type} (wr : Writer W) (mv : MetricView) (s : Session) (x : W) :
    Costs V (htmlMetric fm wr mv s x) fun n l r => l = 0 ∧ Pays 3 n s r.1 := by
  have h0 {r : Session × W × Status} (h : r.1 = s) : (0 : ℕ × ℕ) = 0 ∧ Pays 3 0 s r.1 := ⟨rfl, by rw [h]; simp [Pays]⟩
  unfold htmlMetric
  split
  · refine writing_costs (fun r h => h0 h) fun x' => ?_
    split
    · exact ⟨rfl, by simp [Pays]⟩
    · intro r _
      rcases r with _ | r <;> exact ⟨rfl, by simp [Pays]; omega⟩
  · split
    · split
      · exact ⟨rfl, by simp [Pays]⟩
      · intro r _
        rcases r with _ | r
        · exact ⟨rfl, by simp [Pays]; omega⟩
        · refine writing_costs (fun r h => ⟨rfl, by rw [h]; simp [Pays]; omega⟩) fun x' => ?_
          intro r _
          rcases r with _ | r
          · exact ⟨rfl, by simp [Pays]; omega⟩
          · dsimp only
            split <;> exact ⟨rfl, by simp [Pays]; omega⟩
    · refine writing_costs (fun r h => h0 h) fun x' => ?_
      refine Costs.bind ((asHtmlString_costs fm mv.value s).mono fun n l r h => ?_)
      obtain ⟨rfl, h2⟩ := h
      obtain ⟨s', o⟩ := r
      unfold Pays at *
      cases o <;> exact ⟨rfl, by simp only at h2 ⊢; omega⟩

/-! ### listings -/

local macro "tally" : tactic => `(tactic| ((try simp only [Prod.snd_add, Prod.snd_zero, Prod.fst_add, Prod.fst_zero, foundIn] at *) <;> omega))

/-- what a collector that is handed a metric may cost -/
def CollCosts (V : ℕ → Option MetricView) (coll : Coll A) : Prop :=
  ∀ m s a, Costs V (coll m s a) fun n l r => l = 0 ∧ Pays 5 n s r.1 ∧ ∀ mv, V m = some mv → Has mv.value s → Pays 3 n s r.1

theorem msgColl_costs (json : Bool) : CollCosts V (msgColl json) := by
  intro m s a r hf
  rcases r with _ | mv
  · exact ⟨rfl, by simp [Pays]; omega, fun _ _ _ => by simp [Pays]; omega⟩
  · have hv : V m = some mv := hf mv rfl
    refine Costs.bind ((initMetricIn_costs json mv s).mono fun n l r h => ?_)
    obtain ⟨rfl, h2, h3⟩ := h
    obtain ⟨s', o⟩ := r
    unfold Pays at *
    cases o <;> exact ⟨rfl, by simp only at h2 ⊢; omega, fun mv' hm hs => by
      rw [hv] at hm; cases hm; have := h3 hs; simp only at this ⊢; omega⟩

theorem textColl_costs (fm : Fmts) {W : Type} (wr : Writer W) : CollCosts V (textColl fm wr) := by
  intro m s a r hf
  rcases r with _ | mv
  · exact ⟨rfl, by simp [Pays]; omega, fun _ _ _ => by simp [Pays]; omega⟩
  · have hv : V m = some mv := hf mv rfl
    dsimp only
    split
    · exact ⟨rfl, by simp [Pays]; omega, fun _ _ _ => by simp [Pays]; omega⟩
    · refine Costs.bind ((textEmitMetric_costs fm wr mv s _).mono fun n l r h => ?_)
      obtain ⟨rfl, h2, h3⟩ := h
      unfold Pays at *
      exact ⟨rfl, by simp only at h2 ⊢; omega, fun mv' hm hs => by
        rw [hv] at hm; cases hm; have := h3 hs; simp only at this ⊢; omega⟩

theorem collect_costs {coll : Coll A} (hc : CollCosts V coll) (m : ℕ) (s : Session) (a : A) :
    Costs V (collect coll m s a) fun n l r => l = 0 ∧ Pays 7 n s r.1 := by
  intro r hf
  rcases r with _ | mv
  · exact ⟨rfl, by simp [Pays]; omega⟩
  · have hv : V m = some mv := hf mv rfl
    refine Costs.bind ((isInfNaN_costs mv.value s).mono fun n l r h => ?_)
    obtain ⟨rfl, h2⟩ := h
    obtain ⟨s', o⟩ := r
    unfold Pays at *
    cases o with
    | panic =>
      refine ⟨rfl, ?_⟩
      rcases h2 with ⟨rfl, h⟩ | ⟨h, -⟩
      · simp only at h ⊢; rw [h]; omega
      · simp only at h ⊢; omega
    | ok b =>
      cases b with
      | true =>
        refine ⟨rfl, ?_⟩
        rcases h2 with ⟨rfl, h⟩ | ⟨h, -⟩
        · simp only at h ⊢; rw [h]; omega
        · simp only at h ⊢; omega
      | false =>
        refine (hc m _ a).mono fun n' l' r h => ?_
        obtain ⟨rfl, h3, h4⟩ := h
        unfold Pays at h3 h4
        refine ⟨rfl, ?_⟩
        rcases h2 with ⟨rfl, h⟩ | ⟨h, hs⟩
        · simp only at h h3 ⊢; rw [h] at h3; omega
        · have := h4 mv hv hs; simp only at h this ⊢; omega

/-- the cost of a part of a listing: at most `b`, and seven for each entry found -/
def Spends (b : ℕ) (s : Session) (n : ℕ) (l : ℕ × ℕ) (s' : Session) : Prop := n + s'.length ≤ s.length + b + 7 * l.2

theorem forEntries_costs {sub : ℕ → Session → A → Prog (Session × A × Status)} {coll : Coll A} (hc : CollCosts V coll)
    (hs : ∀ d s a, Costs V (sub d s a) fun n l r => Spends 1 s n l r.1) (es : List (ℕ × Entry)) (s : Session) (a : A) :
    Costs V (forEntries sub coll es s a) fun n l r => Spends (7 * es.length) s n l r.1 := by
  induction es generalizing s a with
  | nil => simp [forEntries, Costs, Spends]
  | cons x es ih =>
    obtain ⟨e, en⟩ := x
    unfold forEntries
    have h1 : Costs V (match en.dir, en.metric with
      | some d, _ => sub d s a
      | none, some m => collect coll m s a
      | none, none => .ret (s, a, .panic)) fun n l r => Spends 7 s n l r.1 := by
      split
      · exact (hs _ s a).mono fun n l r h => by unfold Spends at *; tally
      · exact (collect_costs hc _ s a).mono fun n l r h => by unfold Pays Spends at *; tally
      · simp [Costs, Spends]
    refine Costs.bind (h1.mono fun n l r h => ?_)
    obtain ⟨s', a', st⟩ := r
    unfold Spends at h
    cases st with
    | ok =>
      refine (ih s' a').mono fun n' l' r' h' => ?_
      unfold Spends at *
      simp only [List.length_cons, Prod.snd_add] at h h' ⊢
      tally
    | _ =>
      simp only [Costs, Spends, List.length_cons] at h ⊢
      tally

theorem sortEntries_length (l : List (ℕ × Entry)) : (sortEntries l).length = l.length :=
  (List.perm_insertionSort _ _).length_eq

theorem traverse_costs {coll : Coll A} (hc : CollCosts V coll) (fuel d : ℕ) (s : Session) (a : A) :
    Costs V (traverse coll fuel d s a) fun n l r => Spends 1 s n l r.1 := by
  induction fuel generalizing d s a with
  | zero => simp [traverse, Costs, Spends]
  | succ fuel ih =>
    intro r _
    refine (forEntries_costs hc ih (sortEntries r) s a).mono fun n l x h => ?_
    have hl : (sortEntries r).length = (foundIn (.list d) r).2 := sortEntries_length r
    unfold Spends at *
    tally

theorem withSession_costs {body : Session → Prog (Session × A × Status)} {b : ℕ}
    (h : Costs V (body []) fun n l r => Spends b [] n l r.1) : Costs V (withSession body) fun n l _ => n ≤ b + 7 * l.2 := by
  refine Costs.bind (h.mono fun n l r h => ?_)
  refine Costs.bind ((close_costs _).mono fun n' l' _ h' => ?_)
  obtain ⟨rfl, rfl⟩ := h'
  simp only [Spends, List.length_nil, Costs] at *
  tally

theorem getDirectory_costs (d : ℕ) (path : List Str) : Costs V (getDirectory d path) fun n l _ => l = 0 ∧ n ≤ path.length := by
  induction path generalizing d with
  | nil => exact ⟨rfl, by simp⟩
  | cons x path ih =>
    intro r _
    rcases r with _ | ⟨e, en⟩
    · exact ⟨rfl, by simp⟩
    · dsimp only
      split
      · exact ⟨rfl, by simp⟩
      · exact (ih _).mono fun n l _ h => ⟨h.1, by simp; tally⟩

theorem lookupPath_costs (d : ℕ) (path : Str) : Costs V (lookupPath d path) fun n l _ => l = 0 ∧ n ≤ (newPathSpec path).length := by
  unfold lookupPath getDirectoryOrMetric
  split
  · rename_i dir base h1 h2
    have hl : (newPathSpec path).length = dir.length + 1 := by
      cases hp : newPathSpec path with
      | nil => rw [hp] at h1; simp [pathDir] at h1
      | cons x xs =>
        rw [hp] at h1
        simp [pathDir] at h1
        subst h1
        simp
    refine Costs.bind ((getDirectory_costs d dir).mono fun n l r h => ?_)
    obtain ⟨rfl, h⟩ := h
    rcases r with _ | d'
    · exact ⟨rfl, by tally⟩
    · intro r _
      rcases r with _ | ⟨e, en⟩ <;> exact ⟨rfl, by tally⟩
  · exact ⟨rfl, by tally⟩

theorem getAllMetricsByPath_costs {coll : Coll A} (hc : CollCosts V coll) (fuel d : ℕ) (path : Str) (a : A) :
    Costs V (getAllMetricsByPath coll fuel d path a) fun n l _ => n ≤ (newPathSpec path).length + 7 + 7 * l.2 := by
  unfold getAllMetricsByPath
  refine Costs.bind ((lookupPath_costs d path).mono fun n l r h => ?_)
  obtain ⟨rfl, h⟩ := h
  obtain ⟨_ | dir, _ | m⟩ := r
  · simp only [Costs]; tally
  · refine (withSession_costs (b := 7) ((collect_costs hc m [] a).mono fun n l r h => ?_)).mono fun n' l' _ h' => by tally
    unfold Pays Spends at *
    tally
  · exact (withSession_costs (traverse_costs hc fuel dir [] a)).mono fun n' l' _ h' => by tally
  · refine (withSession_costs (b := 7) ((collect_costs hc m [] a).mono fun n l r h => ?_)).mono fun n' l' _ h' => by tally
    unfold Pays Spends at *
    tally

theorem getMetricMsg_costs (json : Bool) (path : Str) :
    Costs V (getMetricMsg json path) fun n l _ => l = 0 ∧ n ≤ (newPathSpec path).length + 5 := by
  unfold getMetricMsg getMetric
  refine Costs.bind (Costs.bind ((lookupPath_costs 0 path).mono fun n l r h => ?_))
  obtain ⟨rfl, h⟩ := h
  obtain ⟨_, _ | m⟩ := r
  · exact ⟨rfl, by tally⟩
  · intro r _
    rcases r with _ | mv
    · exact ⟨rfl, by tally⟩
    · refine Costs.bind ((initMetricAlone_costs json mv).mono fun n' l' r h' => ?_)
      exact ⟨by simp [foundIn, h'.1], by tally⟩

theorem textEndpoint_costs (fm : Fmts) {W : Type} (wr : Writer W) (fuel : ℕ) (path : Str) (x : W) :
    Costs V (textEndpoint fm wr fuel path x) fun n l _ => n ≤ (newPathSpec path).length + 7 + 7 * l.2 := by
  unfold textEndpoint
  refine Costs.bind ((lookupPath_costs 0 path).mono fun n l r h => ?_)
  obtain ⟨rfl, h⟩ := h
  have hm (m : ℕ) : Costs V (.op (.metric m) fun
      | none => .ret (x, .panic)
      | some mv => (textEmitMetric fm wr mv none x).bind fun r => .ret r.2)
      fun n' l' _ => n + n' ≤ (newPathSpec path).length + 7 + 7 * (0 + l').2 := by
    intro r _
    rcases r with _ | mv
    · simp only [Costs, foundIn]; tally
    · refine Costs.bind ((textEmitMetric_costs_alone fm wr mv x).mono fun n' l' r h' => ?_)
      simp only [Costs, foundIn]
      tally
  obtain ⟨_ | dir, _ | m⟩ := r
  · simp only [Costs]; tally
  · exact hm m
  · exact (withSession_costs (traverse_costs (textColl_costs fm wr) fuel dir [] x)).mono fun n' l' _ h' => by tally
  · exact hm m

theorem htmlEntries_costs (fm : Fmts) {W : Type} (wr : Writer W) (es : List (ℕ × Entry)) (s : Session) (x : W) :
    Costs V (htmlEntries fm wr es s x) fun n l r => l = 0 ∧ Pays (4 * es.length) n s r.1 := by
  induction es generalizing s x with
  | nil => exact ⟨rfl, by simp [Pays]⟩
  | cons e es ih =>
    obtain ⟨i, en⟩ := e
    unfold htmlEntries
    have h1 : Costs V (htmlEntry fm wr en s x) fun n l r => l = 0 ∧ Pays 4 n s r.1 := by
      unfold htmlEntry
      split
      · intro r _
        rcases r with _ | p <;> exact ⟨rfl, by simp [Pays]; tally⟩
      · intro r _
        rcases r with _ | mv
        · exact ⟨rfl, by simp [Pays]; tally⟩
        · refine (htmlMetric_costs fm wr mv s x).mono fun n l r h => ?_
          unfold Pays at *
          exact ⟨by simp [foundIn, h.1], by tally⟩
      · exact ⟨rfl, by simp [Pays]⟩
    refine Costs.bind (h1.mono fun n l r h => ?_)
    obtain ⟨rfl, h2⟩ := h
    obtain ⟨s', x', st⟩ := r
    unfold Pays at h2
    cases st with
    | ok =>
      refine (ih s' x').mono fun n' l' r' h' => ?_
      unfold Pays at *
      simp only [List.length_cons] at h2 h' ⊢
      exact ⟨by simp [h'.1], by omega⟩
    | _ =>
      simp only [List.length_cons] at h2
      exact ⟨rfl, by simp only [Pays, List.length_cons]; tally⟩

theorem htmlEnd_costs {W : Type} (wr : Writer W) (r : Session × W × Status) :
    Costs V (htmlEnd wr r) fun n l r' => n = 0 ∧ l = 0 ∧ r'.1 = r.1 := by
  unfold htmlEnd
  split <;> exact ⟨rfl, rfl, rfl⟩

theorem htmlEndpoint_costs (fm : Fmts) {W : Type} (wr : Writer W) (path : Str) (x : W) :
    Costs V (htmlEndpoint fm wr path x) fun n l _ => n ≤ (newPathSpec path).length + 4 + 4 * l.2 ∧ l.1 ≤ 1 := by
  unfold htmlEndpoint
  refine Costs.bind ((lookupPath_costs 0 path).mono fun n l r h => ?_)
  obtain ⟨rfl, h⟩ := h
  have hw {body : Session → Prog (Session × W × Status)} (hb : Costs V (body []) fun n l r => n + r.1.length ≤ 4 + 4 * l.2 ∧ l.1 ≤ 1) :
      Costs V (withSession body) fun n' l' _ => n + n' ≤ (newPathSpec path).length + 4 + 4 * (0 + l').2 ∧ (0 + l').1 ≤ 1 := by
    refine Costs.bind (hb.mono fun n l r h => ?_)
    refine Costs.bind ((close_costs _).mono fun n' l' _ h' => ?_)
    obtain ⟨rfl, rfl⟩ := h'
    simp only [Costs] at *
    tally
  have hm (m : ℕ) : Costs V (withSession fun s => writing wr x [pageHead] s fun w' => .op (.metric m) fun
      | none => .ret (s, w', .panic)
      | some mv => (htmlMetric fm wr mv s w').bind (htmlEnd wr))
      fun n' l' _ => n + n' ≤ (newPathSpec path).length + 4 + 4 * (0 + l').2 ∧ (0 + l').1 ≤ 1 := by
    refine hw (writing_costs (fun r h => by rw [h]; simp) fun x' => ?_)
    intro r _
    rcases r with _ | mv
    · simp [Costs, foundIn]
    · refine Costs.bind ((htmlMetric_costs fm wr mv [] x').mono fun n' l' r h' => ?_)
      refine (htmlEnd_costs wr r).mono fun n'' l'' r' h'' => ?_
      obtain ⟨rfl, h2⟩ := h'
      obtain ⟨rfl, rfl, h3⟩ := h''
      rw [h3]
      simp only [Pays, List.length_nil, foundIn] at *
      tally
  obtain ⟨_ | dir, _ | m⟩ := r
  · simp only [Costs]; tally
  · exact hm m
  · refine hw (writing_costs (fun r h => by rw [h]; simp) fun x' => ?_)
    intro r _
    refine Costs.bind ((htmlEntries_costs fm wr (sortEntries r) [] x').mono fun n' l' r' h' => ?_)
    refine (htmlEnd_costs wr r').mono fun n'' l'' r'' h'' => ?_
    obtain ⟨rfl, h2⟩ := h'
    obtain ⟨rfl, rfl, h3⟩ := h''
    rw [h3]
    have hl : (sortEntries r).length = (foundIn (.list dir) r).2 := sortEntries_length r
    have hl' : (foundIn (.list dir) r).1 = 1 := rfl
    simp only [Pays, List.length_nil] at *
    tally
  · exact hm m

end Tricorder
