import Verif.Proof.Demo3
/-!
# Lemmas about the demo program: the whole run, and reading
-/

namespace Tricorder
open Go Spec Tree

variable {α : Type} {w : World} {s s' : State}

/-! ### reading -/

theorem metricView_of {m : ℕ} {mo : MetricObj MValue} {mv : MetricView} (h1 : metricView s.tree m = some mv)
    (hm : s.tree.metrics[m]? = some mo) : mv.value = mo.value ∧ mv.description = mo.description := by
  unfold metricView at h1
  rw [hm] at h1
  cases hp : s.tree.metricAbsPath m with
  | none => rw [hp] at h1; cases h1
  | some q => rw [hp] at h1; cases h1; exact ⟨rfl, rfl⟩

/-- `GetMetric` of a distribution -/
theorem read_dist (hs : Reachable w s) {path desc : Str} {i : ℕ} {u : MUnit} {D : Dist Fl} {x : DistMsg}
    (h : MetricAt s 0 (newPathSpec path) desc ⟨none, none, some i, none, .dist, false, u⟩) (hD : s.dists[i]? = some D)
    (hx : D.snapshot.map distMsg = some x) : GetTells w s path (.dist (some x)) u desc D.groupId := by
  obtain ⟨m, mo, hr, hm, hd, hv⟩ := h
  obtain ⟨mv, h1, h2⟩ := (getMetricMsg_now hs false rfl).1 m hr
  obtain ⟨k1, k2⟩ := metricView_of h1 hm
  cases hsn : D.snapshot with
  | none => rw [hsn] at hx; cases hx
  | some sn =>
    rw [hsn] at hx
    have hx' := Option.some.inj hx
    have hn : nowMetric w s mv = some { blankMetric mv .unknown with
        value := .dist (some (distMsg sn)), timeStamp := .time sn.timeStamp, groupId := D.groupId } := by
      unfold nowMetric
      rw [k1, hv]
      simp only [if_true, hD, hsn, Option.map_some]
    rw [hn] at h2
    refine ⟨_, h2, ?_, ?_, ?_, rfl⟩
    · rw [← hx']
    · show mv.value.unit = _
      rw [k1, hv]
    · exact k2.trans hd

/-- `GetMetric` of a list -/
theorem read_list (hs : Reachable w s) {path desc : Str} {i : ℕ} {u : MUnit} {x : ListView}
    (h : MetricAt s 0 (newPathSpec path) desc ⟨none, none, none, some i, .list, false, u⟩)
    (hx : listView s i = some x) : GetTells w s path x.val u desc x.groupId := by
  obtain ⟨m, mo, hr, hm, hd, hv⟩ := h
  obtain ⟨mv, h1, h2⟩ := (getMetricMsg_now hs false rfl).1 m hr
  obtain ⟨k1, k2⟩ := metricView_of h1 hm
  have hn : nowMetric w s mv = some { blankMetric mv x.subType with
      value := x.val, timeStamp := .time x.timeStamp, groupId := x.groupId } := by
    unfold nowMetric
    rw [k1, hv]
    simp [hx]
  rw [hn] at h2
  refine ⟨_, h2, rfl, ?_, ?_, rfl⟩
  · show mv.value.unit = _
    rw [k1, hv]
  · exact k2.trans hd

/-- `GetMetric` of a variable or a callback -/
theorem read_at (hs : Reachable w s) {path desc : Str} {u : MUnit} {src : Src} {t : Ty} {d : Dyn} {x : Val}
    (h : MetricAt s 0 (newPathSpec path) desc ⟨some src, some 0, none, none, t, false, u⟩) (ht : t ≠ .dist ∧ t ≠ .list)
    (hd : Spec.current w s src = some d) (hx : valueToInterface d t false = some x) : GetTells w s path x u desc 0 := by
  obtain ⟨m, mo, hr, hm, hde, hv⟩ := h
  obtain ⟨y, h1, h2, h3, -, h5, h6⟩ := read_src (src := src) (g := 0) (gid := 0) (d := d) (x := x) hs hr hm (by rw [hv])
    (by rw [hv]) (by rw [hv]; exact ht) hd (by rw [hv]; exact hx) (region_zero hs)
  exact ⟨y, h1, h2, by rw [h3, hv], h5.trans hde, h6⟩

namespace Demo

theorem dress_snapshot (d : Dist Fl) (t : Time) (g : ℕ) (u : MUnit) (b : Bool) :
    (d.dress t g u b).snapshot.map distMsg = d.snapshot.map distMsg := by
  have h1 : (d.dress t g u b).calculateMedian = d.calculateMedian := rfl
  unfold Dist.snapshot
  rw [h1]
  show Option.map distMsg (if d.counts.length < d.pieces.length then none else _) = _
  split
  · rfl
  · show Option.map distMsg (if d.count = 0 then _ else _) = _
    split
    · rfl
    · cases d.calculateMedian <;> rfl

/-- the demo's distribution, computed -/
theorem latency_eq {pieces : List (Piece Fl)} (hp : powersOfTen = .ok pieces) :
    (filled pieces 500).snapshot.map distMsg = some demoLatency := by
  have h : (match powersOfTen with
    | .ok p => decide ((filled p 500).snapshot.map distMsg = some demoLatency)
    | _ => false) = true := by decide +kernel
  rw [hp] at h
  exact of_decide_eq_true h

/-- the program's objects -/
def objs (s : State) : Objs :=
  ⟨s.vars.length, s.vars.length + 1, s.vars.length + 2, s.dists.length, s.lists.length⟩

/-- the state with the program's variables, its distribution and its list -/
def made (s : State) (pieces : List (Piece Fl)) (t0 : Time) : State :=
  { s with
    vars := s.vars ++ [.scalar none (.float64 (.fin 0)), .scalar none (.bool false), .scalar none (.duration 0)]
    dists := s.dists ++ [newDist pieces false t0 s.nextId]
    mem := s.mem ++ [⟨none, .scalar ⟨none, .int .int⟩, none, false⟩, ⟨none, .scalar ⟨none, .int .int64⟩, some [], true⟩]
    lists := s.lists ++ [⟨s.nextId + 1, .int64, s.mem.length + 1, t0⟩]
    nextId := s.nextId + 2 }

theorem made_run (fnTy : ℕ → GoTy) (pieces : List (Piece Fl)) (t0 : Time) (ts : ℕ → Time) :
    (registerMetrics fnTy pieces t0 ts).run w s = (registerAll fnTy (objs s) ts).run w (made s pieces t0) := by
  have ha : asSliceValue (s.mem ++ [⟨none, .scalar ⟨none, .int .int⟩, none, false⟩]) (.slice s.mem.length) true =
      some (s.mem ++ [⟨none, .scalar ⟨none, .int .int⟩, none, false⟩] ++
        [⟨none, .scalar ⟨none, .int .int64⟩, some [], true⟩], s.mem.length + 1, .int64) := by
    unfold asSliceValue
    simp only [List.getElem?_concat_length, List.length_append, List.length_cons, List.length_nil]
    rfl
  rw [registerMetrics]
  simp only [Prog.run, exec, State.newList, ha, List.append_assoc, List.cons_append, List.nil_append, List.length_append,
    List.length_cons, List.length_nil]
  rfl

theorem made_reachable (hs : Reachable w s) (pieces : List (Piece Fl)) (t0 : Time) : Reachable w (made s pieces t0) := by
  have h := Reachable.step (w := w) (.newList (.slice s.mem.length) true t0)
    (.step (.newSlice ⟨none, .scalar ⟨none, .int .int⟩, none, false⟩)
    (.step (.newDist pieces false t0)
    (.step (.newVar (.scalar none (.duration 0)))
    (.step (.newVar (.scalar none (.bool false)))
    (.step (.newVar (.scalar none (.float64 (.fin 0)))) hs trivial) trivial) trivial) trivial) trivial) trivial
  have ha : asSliceValue (s.mem ++ [⟨none, .scalar ⟨none, .int .int⟩, none, false⟩]) (.slice s.mem.length) true =
      some (s.mem ++ [⟨none, .scalar ⟨none, .int .int⟩, none, false⟩] ++
        [⟨none, .scalar ⟨none, .int .int64⟩, some [], true⟩], s.mem.length + 1, .int64) := by
    unfold asSliceValue
    simp only [List.getElem?_concat_length, List.length_append, List.length_cons, List.length_nil]
    rfl
  simp only [exec, State.newList, ha, List.append_assoc, List.cons_append, List.nil_append] at h
  exact h

theorem made_ready (pieces : List (Piece Fl)) (t0 : Time) : Ready w (made s pieces t0) (objs s) := by
  refine ⟨?_, ?_, ?_, ⟨newDist pieces false t0 s.nextId, ?_, rfl⟩⟩
  · simp [made, objs]
  · simp [made, objs]
  · simp [made, objs]
  · simp only [made, objs]
    exact List.getElem?_concat_length ..

/-- the whole program -/
theorem demo_run (hw : IsDemo w) (hs : Reachable w s) (hc : ∀ p ∈ demoPaths, Clear s.tree 0 (newPathSpec p))
    {pieces : List (Piece Fl)} (hp : pieces ≠ []) (t0 : Time) (ts : ℕ → Time) :
    ∃ s', (registerMetrics w.fnTy pieces t0 ts).run w s = (s', .ok (.ok (objs s))) ∧ Reachable w s' ∧
      Ext s.tree s'.tree ∧ (∀ d0 q n, Reaches s.tree d0 q n → Reaches s'.tree d0 q n) ∧
      (∀ q m, Reaches s'.tree 0 q (.metric m) → Reaches s.tree 0 q (.metric m) ∨ ∃ p ∈ demoPaths, q = newPathSpec p) ∧
      s'.vars = s.vars ++ [.scalar none (.float64 (.fin (45 / 2))), .scalar none (.bool true),
        .scalar none (.duration 125000000000)] ∧
      s'.dists = s.dists ++ [(filled pieces 500).dress (ts 499) s.nextId .millisecond true] ∧
      s'.mem = (made s pieces t0).mem ∧ s'.lists = (made s pieces t0).lists ∧
      ∀ x ∈ allRegs (objs s), ∃ v, valOf w.fnTy (made s pieces t0).vars x.spec (some x.group) x.unit = some v ∧
        MetricAt s' 0 (newPathSpec x.path) x.description v := by
  have hm := made_reachable hs pieces t0
  obtain ⟨s5, e1, r5, x5, m5, n5, q5, d5, v5⟩ := regs_run (α := Objs) hw hm (made_ready pieces t0) hc
    (setValues (objs s) ts)
  have hvars : s5.vars = s.vars ++ [.scalar none (.float64 (.fin 0)), .scalar none (.bool false), .scalar none (.duration 0)] := by
    rw [q5]; rfl
  have hd5 : s5.dists = s.dists ++ [(filled pieces 0).dress t0 s.nextId .millisecond true] := by
    apply List.ext_getElem?
    intro i
    rw [d5 i]
    have hlen : (made s pieces t0).dists = s.dists ++ [newDist pieces false t0 s.nextId] := rfl
    rw [hlen]
    rcases Nat.lt_trichotomy i s.dists.length with hi | hi | hi
    · rw [List.getElem?_append_left hi, List.getElem?_append_left hi]
      have : unitsSet (rootRegs (objs s)) i = id := by
        funext D
        have hne : s.dists.length ≠ i := by omega
        simp [unitsSet, rootRegs, objs, hne]
      rw [this, Option.map_id]; rfl
    · subst hi
      rw [List.getElem?_concat_length, List.getElem?_concat_length]
      have : unitsSet (rootRegs (objs s)) s.dists.length (newDist pieces false t0 s.nextId) =
          (filled pieces 0).dress t0 s.nextId .millisecond true := by
        simp [unitsSet, rootRegs, objs, filled, Dist.dress, newDist]
      rw [Option.map_some, this]
    · rw [List.getElem?_eq_none (by simp; omega), List.getElem?_eq_none (by simp; omega)]
      rfl
  -- the assignments
  have w1 : (exec w (.writeVar (objs s).temperature (.scalar none (.float64 (.fin (45 / 2))))) s5).1 =
      { s5 with vars := s.vars ++ [.scalar none (.float64 (.fin (45 / 2))), .scalar none (.bool false),
        .scalar none (.duration 0)] } := by
    rw [writeVar_run (v := (objs s).temperature) (d := .scalar none (.float64 (.fin (45 / 2))))
      (d0 := .scalar none (.float64 (.fin 0))) (by rw [hvars]; simp [objs]) rfl, hvars]
    simp [objs]
  have w2 : ∀ σ : State, σ.vars = s.vars ++ [.scalar none (.float64 (.fin (45 / 2))), .scalar none (.bool false),
        .scalar none (.duration 0)] → (exec w (.writeVar (objs s).someBool (.scalar none (.bool true))) σ).1 =
      { σ with vars := s.vars ++ [.scalar none (.float64 (.fin (45 / 2))), .scalar none (.bool true),
        .scalar none (.duration 0)] } := by
    intro σ hσ
    rw [writeVar_run (v := (objs s).someBool) (d := .scalar none (.bool true)) (d0 := .scalar none (.bool false)) (by rw [hσ]; simp [objs]) rfl, hσ]
    simp [objs]
  have w3 : ∀ σ : State, σ.vars = s.vars ++ [.scalar none (.float64 (.fin (45 / 2))), .scalar none (.bool true),
        .scalar none (.duration 0)] → (exec w (.writeVar (objs s).someDuration
          (.scalar none (.duration (2 * 60000000000 + 5 * 1000000000)))) σ).1 =
      { σ with vars := s.vars ++ [.scalar none (.float64 (.fin (45 / 2))), .scalar none (.bool true),
        .scalar none (.duration 125000000000)] } := by
    intro σ hσ
    rw [writeVar_run (v := (objs s).someDuration) (d := .scalar none (.duration (2 * 60000000000 + 5 * 1000000000)))
      (d0 := .scalar none (.duration 0)) (by rw [hσ]; simp [objs]) rfl, hσ]
    simp [objs]
  have r6 := Reachable.step (w := w) (.writeVar (objs s).someDuration (.scalar none (.duration (2 * 60000000000 + 5 * 1000000000))))
    (.step (.writeVar (objs s).someBool (.scalar none (.bool true)))
      (.step (.writeVar (objs s).temperature (.scalar none (.float64 (.fin (45 / 2))))) r5 trivial) trivial) trivial
  rw [w1, w2 _ rfl, w3 _ rfl] at r6
  obtain ⟨t', y1, y2, y3⟩ := addLoop_run (w := w) (pieces := pieces) hp (i := (objs s).rpc) (g := s.nextId) (ts := ts) 500
    (le_refl _) (t := t0) (u := .millisecond) (s := { s5 with vars := s.vars ++ [.scalar none (.float64 (.fin (45 / 2))),
      .scalar none (.bool true), .scalar none (.duration 125000000000)] }) (by
      show s5.dists[(objs s).rpc]? = _
      rw [hd5]
      exact List.getElem?_concat_length ..) r6
  have hset : s5.dists.set (objs s).rpc ((filled pieces 500).dress t' s.nextId .millisecond true) =
      s.dists ++ [(filled pieces 500).dress (ts 499) s.nextId .millisecond true] := by
    rw [hd5, y2 (by omega)]
    simp [objs]
  refine ⟨_, ?_, y3, x5, m5, n5, rfl, hset, ?_, ?_, v5⟩
  · rw [made_run, registerAll, e1, setValues, Prog.run, w1, Prog.run, w2 _ rfl, Prog.run, w3 _ rfl, run_bind, y1]
    rfl
  · show s5.mem = _
    rw [q5]
  · show s5.lists = _
    rw [q5]

/-- start-up leaves paths elsewhere free -/
theorem registerList_clear {rs : List Reg} (hs : Reachable w s) (hspec : ∀ r ∈ rs, ∀ i, r.spec ≠ .dist i) {c : List Str}
    (hc : Clear s.tree 0 c) (ha : ∀ r ∈ rs, Apart (newPathSpec r.path) c) :
    Clear ((registerList w.fnTy rs).run w s).1.tree 0 c := by
  induction rs generalizing s with
  | nil => exact hc
  | cons a rs ih =>
    have ht := reachable_isTree hs
    have k := register_keeps (w := w) ht ht.rootIn (path := a.path) (hspec a (by simp)) (some a.group) a.unit a.description
    have hre := register_reachable hs ht.rootIn a.path a.spec (some a.group) a.unit a.description
    rw [registerList, run_bind]
    have h1 := k.clear c (ha a (by simp)) hc
    generalize (apiRegisterMetric w.fnTy 0 a.path a.spec (some a.group) a.unit a.description).run w s = q at *
    obtain ⟨q1, q2⟩ := q
    cases q2 with
    | panic => exact h1
    | ok x => exact ih hre (fun r hr => hspec r (by simp [hr])) h1 (fun r hr => ha r (by simp [hr]))

theorem defaults_apart (b : Bool) : ∀ q ∈ demoPaths, ∀ r ∈ defaultRegs b, Apart (newPathSpec r.path) (newPathSpec q) := by
  cases b <;> decide +kernel

theorem started_clear {p : Proc} {now : Time} {q : Str} (hq : q ∈ demoPaths) :
    Clear (started w p now).tree 0 (newPathSpec q) := by
  have h := registerList_clear (w := w) (beforeRegs_reachable p) (rs := defaultRegs p.hasFds)
    (fun r hr i h => by
      rcases defaultRegs_spec _ r hr with ⟨v, _, hs⟩ | ⟨_, hs⟩ <;> rw [hs] at h <;> cases h)
    (init_clear (paths_ne q hq)) (defaults_apart _ q hq)
  have hst : (started w p now).tree = ((registerList w.fnTy (defaultRegs p.hasFds)).run w (beforeRegs p)).1.tree := by
    unfold started
    rw [initDefaultMetrics, run_bind, newVars_run, Prog.run, Prog.run, run_bind]
    have : (exec w .newRegion (exec w .newRegion { State.init with vars := State.init.vars ++ defaultVars p }).1).1 =
        beforeRegs p := rfl
    rw [this]
    generalize (registerList w.fnTy (defaultRegs p.hasFds)).run w (beforeRegs p) = r
    obtain ⟨r1, r2⟩ := r
    cases r2 with
    | panic => rfl
    | ok x =>
      simp only [Prog.run, exec]
      split
      · split <;> rfl
      · rfl
  rw [hst]
  exact h

end Demo
end Tricorder
