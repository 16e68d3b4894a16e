import Verif.Proof.ListRun2
import Verif.Proof.Registry2
/-!
# Reading alone: the results as functions of the state
-/

namespace Tricorder
open Go Spec Tree

variable {A α : Type} {w : World} {s : State}

/-- the times in the session are the answers the groups give now -/
def Sane (w : World) (s : State) (se : Session) : Prop := ∀ r t, se.lookup r = some t → t = w.lockTime s r

theorem Sane.nil : Sane w s [] := by intro r t h; cases h

/-- success or panic -/
def outOf : Option α → Out α
  | none => .panic
  | some a => .ok a

theorem visit_now {se : Session} (hs : Sane w s se) (r : ℕ) :
    ∃ se', Sane w s se' ∧ (visit se r).run w s = (s, (se', w.lockTime s r)) := by
  unfold visit
  cases h : se.lookup r with
  | some t => exact ⟨se, hs, by rw [← hs r t h]; rfl⟩
  | none =>
    refine ⟨(r, w.lockTime s r) :: se, ?_, rfl⟩
    intro r' t' h'
    rw [List.lookup_cons] at h'
    split at h'
    · rename_i hb
      cases h'
      rw [beq_iff_eq.mp hb]
    · exact hs _ _ h'

/-- the value of a metric's source now -/
def nowDyn (w : World) (s : State) (v : MValue) : Option Dyn := v.src.bind (current w s)

/-- what `evaluate` returns now -/
def nowHandle (w : World) (s : State) : Option Src → Out Handle
  | none => .panic
  | some (.var v) => .ok (.var v)
  | some (.fn f) => called (w.fn s f)
  | some (.flagGet g) => called (w.flagGet s g)
  | some (.flagString g) => called ((w.flagString s g).map fun s => .scalar none (.string s))

theorem evalSrc_now (o : Option Src) : (evalSrc o).run w s = (s, nowHandle w s o) := by
  unfold evalSrc
  split <;> rfl

theorem evalIn_now {se : Session} (hs : Sane w s se) (v : MValue) :
    ∃ se', Sane w s se' ∧ (evalIn v se).run w s = (s, (se', nowHandle w s v.src)) := by
  unfold evalIn
  split
  · exact ⟨se, hs, by rw [run_bind, evalSrc_now]; rfl⟩
  · rename_i r _
    obtain ⟨se', h1, h2⟩ := visit_now hs r
    exact ⟨se', h1, by rw [run_bind, h2]; simp only; rw [run_bind, evalSrc_now]; rfl⟩

theorem close_now (se : Session) : (close se).run w s = (s, ()) := by
  induction se with
  | nil => rfl
  | cons x se ih => obtain ⟨r, t⟩ := x; exact ih

/-- reading the handle -/
def readHandle (s : State) (conv : Dyn → Option α) : Out Handle → Out α
  | .panic => .panic
  | .ok (.val d) => outOf (conv d)
  | .ok (.var v) => outOf ((s.vars[v]?).bind conv)

theorem readHandle_now (conv : Dyn → Option α) (v : MValue) :
    readHandle s conv (nowHandle w s v.src) = outOf ((nowDyn w s v).bind conv) := by
  unfold nowDyn
  rcases v.src with _ | (v | f | g | g)
  · rfl
  · rfl
  · show readHandle s conv (called (w.fn s f)) = outOf ((w.fn s f).bind conv)
    cases w.fn s f <;> rfl
  · show readHandle s conv (called (w.flagGet s g)) = outOf ((w.flagGet s g).bind conv)
    cases w.flagGet s g <;> rfl
  · show readHandle s conv (called ((w.flagString s g).map _)) = outOf (((w.flagString s g).map _).bind conv)
    cases w.flagString s g <;> rfl

theorem readAs_step {v : MValue} {so so' : Option Session} {o : Out Handle} (conv : Dyn → Option α)
    (h : (evaluate v so).run w s = (s, (so', o))) :
    (readAs v so conv).run w s = (s, (so', readHandle s conv o)) := by
  unfold readAs
  rw [run_bind, h]
  cases o with
  | panic => rfl
  | ok hd =>
    simp only
    rw [run_bind]
    cases hd with
    | val d =>
      simp only [deref, Prog.run, Option.bind_some, readHandle, outOf]
      cases conv d <;> rfl
    | var x =>
      have : (deref (.var x)).run w s = (s, s.vars[x]?) := rfl
      rw [this]
      simp only [readHandle, outOf]
      cases (s.vars[x]?).bind conv <;> rfl

theorem readAs_now {se : Session} (hs : Sane w s se) (v : MValue) (conv : Dyn → Option α) :
    ∃ se', Sane w s se' ∧
      (readAs v (some se) conv).run w s = (s, (some se', outOf ((nowDyn w s v).bind conv))) := by
  obtain ⟨se', h1, h2⟩ := evalIn_now hs v
  refine ⟨se', h1, ?_⟩
  rw [← readHandle_now]
  refine readAs_step conv ?_
  unfold evaluate
  simp only
  rw [run_bind, h2]
  rfl

theorem readAs_now_alone (v : MValue) (conv : Dyn → Option α) :
    (readAs v none conv).run w s = (s, (none, outOf ((nowDyn w s v).bind conv))) := by
  obtain ⟨se', h1, h2⟩ := evalIn_now (w := w) (s := s) Sane.nil v
  rw [← readHandle_now]
  refine readAs_step conv ?_
  unfold evaluate evalAlone
  simp only
  rw [run_bind, run_bind, h2]
  simp only
  rw [run_bind, close_now]
  rfl

/-- `IsInfNaN` now -/
def nowInfNaN (w : World) (s : State) (v : MValue) : Out Bool :=
  if v.valType.isFloat then outOf ((nowDyn w s v).bind fun d => d.float.map fun x => x.isNaN || x.isInf)
  else .ok false

theorem isInfNaN_now {se : Session} (hs : Sane w s se) (v : MValue) :
    ∃ se', Sane w s se' ∧ (isInfNaN v (some se)).run w s = (s, (some se', nowInfNaN w s v)) := by
  unfold isInfNaN nowInfNaN
  split
  · exact readAs_now hs v _
  · exact ⟨se, hs, rfl⟩

/-- `AsInterface` now -/
def nowVal (w : World) (s : State) (v : MValue) : Option Val :=
  (nowDyn w s v).bind fun d => valueToInterface d v.valType v.isPtr

theorem asInterface_now {se : Session} (hs : Sane w s se) (v : MValue) :
    ∃ se', Sane w s se' ∧ (asInterface v (some se)).run w s = (s, (some se', outOf (nowVal w s v))) := by
  unfold asInterface nowVal
  cases h : v.src with
  | none =>
    refine ⟨se, hs, ?_⟩
    simp only [nowDyn, h]
    rfl
  | some _ => exact readAs_now hs v _

/-- a scalar metric now -/
def nowScalar (w : World) (s : State) (mv : MetricView) : Option Metric :=
  match nowVal w s mv.value, mv.value.region with
  | some val, some r => (s.regions[r]?).map fun gid => { blankMetric mv .unknown with
      value := val, timeStamp := .time (w.lockTime s r), groupId := gid }
  | _, _ => none

theorem scalarMetric_now {se : Session} (hs : Sane w s se) (mv : MetricView) :
    ∃ se', Sane w s se' ∧ (scalarMetric mv se).run w s = (s, (se', outOf (nowScalar w s mv))) := by
  unfold scalarMetric nowScalar
  obtain ⟨se', h1, h2⟩ := asInterface_now hs mv.value
  rw [run_bind, h2]
  cases hv : nowVal w s mv.value with
  | none => exact ⟨se', h1, rfl⟩
  | some val =>
    cases hr : mv.value.region with
    | none => exact ⟨se', h1, by simp only [outOf, hr]; rfl⟩
    | some r =>
      cases hg : s.regions[r]? with
      | none =>
        refine ⟨se', h1, ?_⟩
        have : (exec w (.regionId r) s).2 = none := hg
        simp only [outOf, hr, Prog.run, this, hg]
        rfl
      | some g =>
        obtain ⟨se'', h3, h4⟩ := visit_now h1 r
        refine ⟨se'', h3, ?_⟩
        have : (exec w (.regionId r) s).2 = some g := hg
        simp only [outOf, hr, Prog.run, this, hg, Option.getD_some]
        have h5 : (exec w (.regionId r) s).1 = s := rfl
        rw [h5, run_bind, h4]
        rfl

/-- a metric now, in RPC form -/
def nowMetric (w : World) (s : State) (mv : MetricView) : Option Metric :=
  if mv.value.valType = .dist then
    match mv.value.dist with
    | none => none
    | some i => match s.dists[i]? with
      | none => none
      | some d => d.snapshot.map fun sn => { blankMetric mv .unknown with
          value := .dist (some (distMsg sn)), timeStamp := .time sn.timeStamp, groupId := d.groupId }
  else if mv.value.valType = .list then
    match mv.value.alist with
    | none => none
    | some i => (listView s i).map fun x => { blankMetric mv x.subType with
        value := x.val, timeStamp := .time x.timeStamp, groupId := x.groupId }
  else nowScalar w s mv

theorem distMetric_now (mv : MetricView) (h : mv.value.valType = .dist) :
    (distMetric mv).run w s = (s, outOf (nowMetric w s mv)) := by
  unfold distMetric nowMetric
  rw [if_pos h]
  cases hd : mv.value.dist with
  | none => rfl
  | some i =>
    simp only [Prog.run]
    have h1 : (exec w (.snapshot i) s).1 = s := rfl
    have h2 : (exec w (.snapshot i) s).2 = (match s.dists[i]? with
      | none => none
      | some d => d.snapshot.map fun x => ⟨x, d.groupId⟩) := rfl
    rw [h1, h2]
    cases s.dists[i]? with
    | none => rfl
    | some d =>
      simp only
      cases d.snapshot <;> rfl

theorem listMetric_now (mv : MetricView) (h0 : mv.value.valType ≠ .dist) (h : mv.value.valType = .list) :
    (listMetric mv).run w s = (s, outOf (nowMetric w s mv)) := by
  unfold listMetric nowMetric
  rw [if_neg h0, if_pos h]
  cases hd : mv.value.alist with
  | none => rfl
  | some i =>
    simp only [Prog.run]
    have h1 : (exec w (.getList i) s).1 = s := rfl
    have h2 : (exec w (.getList i) s).2 = listView s i := rfl
    rw [h1, h2]
    cases listView s i <;> rfl

theorem initMetricIn_now {se : Session} (hs : Sane w s se) (json : Bool) (mv : MetricView) :
    ∃ se', Sane w s se' ∧
      (initMetricIn json mv se).run w s = (s, (se', encodeOut json (outOf (nowMetric w s mv)))) := by
  unfold initMetricIn
  split
  · rename_i h
    exact ⟨se, hs, by rw [run_bind, distMetric_now mv h]; rfl⟩
  · rename_i h
    split
    · rename_i h2
      exact ⟨se, hs, by rw [run_bind, listMetric_now mv h h2]; rfl⟩
    · rename_i h2
      obtain ⟨se', h3, h4⟩ := scalarMetric_now hs mv
      refine ⟨se', h3, ?_⟩
      rw [run_bind, h4]
      unfold nowMetric
      rw [if_neg h, if_neg h2]
      rfl

theorem initMetricAlone_now (json : Bool) (mv : MetricView) :
    (initMetricAlone json mv).run w s = (s, encodeOut json (outOf (nowMetric w s mv))) := by
  obtain ⟨se', h3, h4⟩ := initMetricIn_now (w := w) (s := s) Sane.nil json mv
  unfold initMetricAlone
  rw [run_bind, h4]
  simp only
  rw [run_bind, close_now]
  rfl

/-- one metric of a listing now: `none` if it is left out -/
def nowItem (w : World) (s : State) (json : Bool) (m : ℕ) : Out (Option Metric) :=
  match metricView s.tree m with
  | none => .panic
  | some mv => match nowInfNaN w s mv.value with
    | .panic => .panic
    | .ok true => .ok none
    | .ok false => match encodeOut json (outOf (nowMetric w s mv)) with
      | .panic => .panic
      | .ok x => .ok (some x)

/-- the effect of one metric on a listing -/
def addItem (a : List Metric) : Out (Option Metric) → List Metric × Status
  | .panic => (a, .panic)
  | .ok none => (a, .ok)
  | .ok (some x) => (a ++ [x], .ok)

theorem collect_now {se : Session} (hs : Sane w s se) (json : Bool) (m : ℕ) (a : List Metric) :
    ∃ se', Sane w s se' ∧
      (collect (msgColl json) m se a).run w s = (s, (se', addItem a (nowItem w s json m))) := by
  unfold collect nowItem
  have h1 : (exec w (.metric m) s).1 = s := rfl
  have h2 : (exec w (.metric m) s).2 = metricView s.tree m := rfl
  rw [Prog.run, h1, h2]
  cases hm : metricView s.tree m with
  | none => exact ⟨se, hs, rfl⟩
  | some mv =>
    obtain ⟨se', h3, h4⟩ := isInfNaN_now hs mv.value
    simp only
    rw [run_bind, h4]
    cases hi : nowInfNaN w s mv.value with
    | panic => exact ⟨se', h3, rfl⟩
    | ok b =>
      cases b with
      | true => exact ⟨se', h3, rfl⟩
      | false =>
        obtain ⟨se'', h5, h6⟩ := initMetricIn_now h3 json mv
        refine ⟨se'', h5, ?_⟩
        simp only [msgColl]
        rw [Prog.run, h1, h2, hm]
        simp only [Option.getD_some]
        rw [run_bind, h6]
        cases encodeOut json (outOf (nowMetric w s mv)) <;> rfl

theorem calls_now {json : Bool} {H : List Ev} (hH : ∀ e ∈ H, e.own = true ∧ e.pre = s) {V se a se' a' st}
    (hc : Calls w (msgColl json) H V se a se' a' st) (hs : Sane w s se) :
    (st = .ok → (∀ m ∈ V, nowItem w s json m ≠ .panic) ∧
      a' = a ++ V.filterMap fun m => match nowItem w s json m with | .ok o => o | .panic => none) ∧
    (st = .panic → ∃ m ∈ V, nowItem w s json m = .panic) := by
  have start : ∀ {m se a σ h σ' r}, RunI w (collect (msgColl json) m se a) σ h σ' r → (∀ e ∈ h, e.own = true ∧ e.pre = s) → Sane w s se →
      ∃ se', Sane w s se' ∧ r = (se', addItem a (nowItem w s json m)) := by
    intro m se a σ h σ' r hr hi hse
    have hown : ∀ e ∈ h, e.own = true := fun e he => (hi e he).1
    have hσ : σ = s := by
      cases hr with
      | env c _ _ => exact absurd (hown _ List.mem_cons_self) (by simp)
      | op _ => exact (hi _ List.mem_cons_self).2
    subst hσ
    have h1 := run_of_RunI hr hown
    obtain ⟨se', h2, h3⟩ := collect_now hse json m a
    rw [h3] at h1
    exact ⟨se', h2, by rw [Prod.mk.injEq] at h1; exact h1.2.symm⟩
  induction hc with
  | done => exact ⟨fun _ => ⟨by simp, by simp⟩, by simp⟩
  | timeout => exact ⟨by simp, by simp⟩
  | @more _ _ _ m ms se a se1 a1 se2 a2 st σ σ' _ hr _ ih =>
    obtain ⟨sx, h1, h2⟩ := start hr (fun e he => hH e (by simp [he])) hs
    rw [Prod.mk.injEq] at h2
    obtain ⟨rfl, h2⟩ := h2
    obtain ⟨i1, i2⟩ := ih (fun e he => hH e (by simp [he])) h1
    have hne : nowItem w s json m ≠ .panic := by
      intro hp; rw [hp] at h2; cases h2
    refine ⟨?_, ?_⟩
    · intro hok
      obtain ⟨j1, j2⟩ := i1 hok
      refine ⟨?_, ?_⟩
      · intro m' hm'
        rcases List.mem_cons.mp hm' with rfl | hm'
        · exact hne
        · exact j1 m' hm'
      · rw [j2]
        cases hx : nowItem w s json m with
        | panic => exact absurd hx hne
        | ok o =>
          rw [hx] at h2
          rw [List.filterMap_cons, hx]
          cases o with
          | none => cases h2; rfl
          | some x => cases h2; simp
    · intro hp
      obtain ⟨m', h3, h4⟩ := i2 hp
      exact ⟨m', List.mem_cons_of_mem _ h3, h4⟩
  | @stop _ _ _ m se a se1 a1 st σ σ' _ hr _ hn =>
    obtain ⟨sx, h1, h2⟩ := start hr (fun e he => hH e (by simp [he])) hs
    rw [Prod.mk.injEq] at h2
    obtain ⟨rfl, h2⟩ := h2
    refine ⟨fun hok => absurd hok hn, fun _ => ⟨m, by simp, ?_⟩⟩
    cases hx : nowItem w s json m with
    | panic => rfl
    | ok o =>
      rw [hx] at h2
      cases o <;> cases h2 <;> exact absurd rfl hn

end Tricorder
