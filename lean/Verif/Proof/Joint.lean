import Verif.Spec.Joint
import Verif.Proof.Registry2
import Verif.Proof.Sys2
/-!
# Several goroutines that register at the same time: runs of one of them
-/

namespace Tricorder
open Go Spec Tree

variable {w : World} {α β ι : Type}

/-! ### steps that only add to the tree -/

/-- the step takes nothing out of the tree -/
def GrowStep (w : World) (c : Cmd) (s : State) : Prop :=
  ∀ d q n, Reaches s.tree d q n → Reaches (exec w c s).1.tree d q n

def Growing (w : World) (h : List Ev) : Prop := ∀ e ∈ h, GrowStep w e.cmd e.pre

theorem Growing.append {a b : List Ev} : Growing w (a ++ b) ↔ Growing w a ∧ Growing w b := by
  unfold Growing
  simp only [List.mem_append]
  exact ⟨fun h => ⟨fun e he => h e (Or.inl he), fun e he => h e (Or.inr he)⟩,
    fun h e he => he.elim (h.1 e) (h.2 e)⟩

theorem Growing.cons {e : Ev} {b : List Ev} : Growing w (e :: b) ↔ GrowStep w e.cmd e.pre ∧ Growing w b := by
  unfold Growing
  simp

theorem grow_run {p : Prog α} {s s' : State} {h : List Ev} {a : α} (hr : RunI w p s h s' a) (hg : Growing w h)
    {d q n} (hx : Reaches s.tree d q n) : Reaches s'.tree d q n := by
  induction hr with
  | ret => exact hx
  | env c _ _ ih => exact ih (Growing.cons.mp hg).2 ((Growing.cons.mp hg).1 _ _ _ hx)
  | op _ ih => exact ih (Growing.cons.mp hg).2 ((Growing.cons.mp hg).1 _ _ _ hx)

theorem grow_mem {p : Prog α} {s s' : State} {h : List Ev} {a : α} (hr : RunI w p s h s' a) (hg : Growing w h)
    {e : Ev} (he : e ∈ h) {d q n} (hx : Reaches s.tree d q n) : Reaches e.pre.tree d q n := by
  induction hr with
  | ret => cases he
  | env c _ _ ih =>
    rcases List.mem_cons.mp he with hm | hm
    · subst hm; exact hx
    · exact ih (Growing.cons.mp hg).2 hm ((Growing.cons.mp hg).1 _ _ _ hx)
  | op _ ih =>
    rcases List.mem_cons.mp he with hm | hm
    · subst hm; exact hx
    · exact ih (Growing.cons.mp hg).2 hm ((Growing.cons.mp hg).1 _ _ _ hx)

theorem createDir_grow {s : State} (ht : IsTree s.tree) {d : ℕ} (hd : d < s.tree.dirs.length) (name : Str) :
    GrowStep w (.createDir d name) s := by
  intro d0 q n hx
  change Reaches (s.tree.createDir d name).1 d0 q n
  cases hg : s.tree.getEntry d name with
  | none => rw [createDir_new hg]; exact link_mono ht hd _ _ _ hx
  | some e =>
    obtain ⟨en, he, _⟩ := ht.child _ _ _ (getEntry_some hg)
    cases hdd : en.dir with
    | none => rw [createDir_err hg he hdd]; exact hx
    | some x => rw [createDir_old hg he hdd]; exact hx

theorem storeMetric_grow {s : State} (ht : IsTree s.tree) {d : ℕ} (hd : d < s.tree.dirs.length) (name desc : Str)
    (v : MValue) : GrowStep w (.storeMetric d name desc v) s := by
  intro d0 q n hx
  change Reaches (s.tree.storeMetric d name desc v).1 d0 q n
  cases hg : s.tree.getEntry d name with
  | none => rw [storeMetric_new hg]; exact link_mono ht hd _ _ _ hx
  | some e => rw [storeMetric_old hg]; exact hx

/-- `createDir` succeeds unless there is a metric; what it returns is there afterwards -/
theorem createDir_says {s : State} (ht : IsTree s.tree) {d : ℕ} (hd : d < s.tree.dirs.length) {name : Str} :
    (∃ d', (exec w (.createDir d name) s).2 = .ok d' ∧ Reaches (exec w (.createDir d name) s).1.tree d [name] (.dir d')) ∨
    (∃ m, (exec w (.createDir d name) s).2 = .error .pathInUse ∧ Reaches s.tree d [name] (.metric m)) := by
  change (∃ d', (s.tree.createDir d name).2 = .ok d' ∧ Reaches (s.tree.createDir d name).1 d [name] (.dir d')) ∨
    (∃ m, (s.tree.createDir d name).2 = .error .pathInUse ∧ Reaches s.tree d [name] (.metric m))
  cases hg : s.tree.getEntry d name with
  | none =>
    rw [createDir_new hg]
    exact Or.inl ⟨_, rfl, (reaches_link ht hd (Or.inl ⟨rfl, rfl, rfl, rfl⟩) hd).mpr (Or.inr ⟨[], .here d, rfl, rfl⟩)⟩
  | some e =>
    have hc := getEntry_some hg
    obtain ⟨en, he, _⟩ := ht.child _ _ _ hc
    cases hdd : en.dir with
    | none =>
      rw [createDir_err hg he hdd]
      obtain ⟨m, hm⟩ := entry_no_dir ht he hdd
      exact Or.inr ⟨m, rfl, .metric hc he hm⟩
    | some x => rw [createDir_old hg he hdd]; exact Or.inl ⟨x, rfl, .dir hc he hdd (.here x)⟩

/-- `storeMetric` succeeds if there is nothing; then the metric is there -/
theorem storeMetric_says {s : State} (ht : IsTree s.tree) {d : ℕ} (hd : d < s.tree.dirs.length) {name desc : Str}
    {v : MValue} :
    (∃ m, (exec w (.storeMetric d name desc v) s).2 = .ok m ∧ (∀ n, ¬ Reaches s.tree d [name] n) ∧
      Reaches (exec w (.storeMetric d name desc v) s).1.tree d [name] (.metric m) ∧
      ∃ mo, (exec w (.storeMetric d name desc v) s).1.tree.metrics[m]? = some mo ∧ mo.description = desc ∧ mo.value = v) ∨
    ((exec w (.storeMetric d name desc v) s).2 = .error .pathInUse ∧ ∃ n, Reaches s.tree d [name] n) := by
  change (∃ m, (s.tree.storeMetric d name desc v).2 = .ok m ∧ (∀ n, ¬ Reaches s.tree d [name] n) ∧
      Reaches (s.tree.storeMetric d name desc v).1 d [name] (.metric m) ∧
      ∃ mo, (s.tree.storeMetric d name desc v).1.metrics[m]? = some mo ∧ mo.description = desc ∧ mo.value = v) ∨
    ((s.tree.storeMetric d name desc v).2 = .error .pathInUse ∧ ∃ n, Reaches s.tree d [name] n)
  cases hg : s.tree.getEntry d name with
  | none =>
    rw [storeMetric_new hg]
    refine Or.inl ⟨_, rfl, fun n hn => ?_, (reaches_link ht hd (Or.inr ⟨rfl, rfl, rfl, _, rfl, rfl⟩) hd).mpr
      (Or.inr ⟨[], .here d, rfl, rfl⟩), ⟨desc, v, s.tree.entries.length⟩, ?_, rfl, rfl⟩
    · cases hn with
      | metric hc _ _ => exact getEntry_none_iff.mp hg _ hc
      | dir hc _ _ _ => exact getEntry_none_iff.mp hg _ hc
    · rw [link_metrics]; simp
  | some e =>
    have hc := getEntry_some hg
    obtain ⟨en, he, _⟩ := ht.child _ _ _ hc
    rw [storeMetric_old hg]
    refine Or.inr ⟨rfl, ?_⟩
    cases hdd : en.dir with
    | none =>
      obtain ⟨m, hm⟩ := entry_no_dir ht he hdd
      exact ⟨_, .metric hc he hm⟩
    | some x => exact ⟨_, .dir hc he hdd (.here x)⟩

/-! ### `registerDirectory` -/

/-- an own step of `registerDirectory d p` -/
def MakesDir (d : ℕ) (p : List Str) (e : Ev) : Prop :=
  ∃ d' name u, e.cmd = .createDir d' name ∧ Reaches e.pre.tree d u (.dir d') ∧ u ++ [name] <+: p

theorem registerDirectory_runI {d : ℕ} {p : List Str} (hp : ∀ x ∈ p, GoodName x) {s s' : State} {h : List Ev} {r}
    (hs : Reachable w s) (hd : d < s.tree.dirs.length) (hr : RunI w (registerDirectory d p) s h s' r)
    (hg : Growing w h) :
    (∀ e ∈ h, e.own = true → MakesDir d p e) ∧
    ((∃ d', r = .ok d' ∧ Reaches s'.tree d p (.dir d')) ∨
      (r = .error .pathInUse ∧ ∃ u m, u <+: p ∧ Reaches s'.tree d u (.metric m))) := by
  induction p generalizing d s h with
  | nil =>
    obtain ⟨h1, h2⟩ := RunI_ret hr
    exact ⟨fun e he ho => absurd (h2 e he) (by simp [ho]), Or.inl ⟨d, h1.symm, .here d⟩⟩
  | cons name p ih =>
    obtain ⟨h1, s1, h2, e, r1, r2⟩ := RunI_op hr
    have hd1 : d < s1.tree.dirs.length := lt_of_lt_of_le hd (RunI_ext r1).2.dirs
    have hs1 := env_reachable r1 hs
    have hok : (Cmd.createDir d name).Ok s1 := ⟨hd1, okName.mpr (hp name List.mem_cons_self)⟩
    have hs2 : Reachable w (exec w (.createDir d name) s1).1 := .step _ hs1 hok
    subst e
    obtain ⟨hg1, hg2, hg3⟩ : Growing w h1 ∧ GrowStep w (.createDir d name) s1 ∧ Growing w h2 := by
      have := Growing.append.mp hg
      exact ⟨this.1, Growing.cons.mp this.2⟩
    have own : ∀ {Q : Ev → Prop}, Q ⟨true, .createDir d name, s1⟩ → (∀ e ∈ h2, e.own = true → Q e) →
        ∀ e ∈ h1 ++ (⟨true, .createDir d name, s1⟩ : Ev) :: h2, e.own = true → Q e := by
      intro Q q1 q2 e he ho
      rcases List.mem_append.mp he with he | he
      · rw [(RunI_ret r1).2 e he] at ho; cases ho
      · rcases List.mem_cons.mp he with he | he
        · subst he; exact q1
        · exact q2 e he ho
    have hme : MakesDir d (name :: p) ⟨true, .createDir d name, s1⟩ := ⟨d, name, [], rfl, .here d, ⟨p, rfl⟩⟩
    rcases createDir_says (w := w) (reachable_isTree hs1) hd1 (name := name) with ⟨d2, hc, hx⟩ | ⟨m, hc, hx⟩
    · rw [hc] at r2
      have hd2 : d2 < (exec w (.createDir d name) s1).1.tree.dirs.length := createDir_handle (reachable_isTree hs1) hc
      obtain ⟨i1, i2⟩ := ih (fun x hx => hp x (List.mem_cons_of_mem _ hx)) hs2 hd2 r2 hg3
      refine ⟨own hme fun e he ho => ?_, ?_⟩
      · obtain ⟨d', nm, u, a, b, c⟩ := i1 e he ho
        refine ⟨d', nm, name :: u, a, ?_, by obtain ⟨z, hz⟩ := c; exact ⟨z, by rw [← hz]; rfl⟩⟩
        have : Reaches e.pre.tree d [name] (.dir d2) := grow_mem r2 hg3 he hx
        exact reaches_trans this b
      · have hfin := grow_run r2 hg3 hx
        rcases i2 with ⟨d', a, b⟩ | ⟨a, u, m, ⟨z, hz⟩, c⟩
        · exact Or.inl ⟨d', a, reaches_trans hfin b⟩
        · exact Or.inr ⟨a, name :: u, m, ⟨z, by rw [← hz]; rfl⟩, reaches_trans hfin c⟩
    · rw [hc] at r2
      obtain ⟨h3, h4⟩ := RunI_ret r2
      refine ⟨own hme fun e he ho => absurd (h4 e he) (by simp [ho]), Or.inr ⟨h3.symm, [name], m, ⟨p, rfl⟩, ?_⟩⟩
      exact grow_run r2 hg3 (hg2 _ _ _ hx)

/-! ### `registerMetric` -/

/-- `newValue` takes one step at most: its result is that of a run alone in one of the states -/
theorem newValue_at {spec : RegSpec} {group : Option ℕ} {unit : MUnit} {s s' : State} {h : List Ev} {r}
    (hr : RunI w (newValue w.fnTy spec group unit) s h s' r) :
    ∃ σ ∈ statesOf h s', ((newValue w.fnTy spec group unit).run w σ).2 = r := by
  have one : ∀ {γ : Type} {p : Prog γ} {s s' h r}, RunI w p s h s' r →
      (match p with | .ret _ => True | .op _ k => ∀ x, ∃ a, k x = .ret a) → ∃ σ ∈ statesOf h s', (p.run w σ).2 = r := by
    intro γ p s s' h r hr hp
    cases p with
    | ret a => exact ⟨s', by simp [statesOf], (RunI_ret hr).1⟩
    | op c k =>
      obtain ⟨h1, s1, h2, rfl, r1, r2⟩ := RunI_op hr
      refine ⟨s1, by simp [statesOf], ?_⟩
      obtain ⟨a, ha⟩ := hp (exec w c s1).2
      rw [ha] at r2
      rw [Prog.run, ha]
      exact (RunI_ret r2).1
  refine one hr ?_
  cases spec with
  | dist i =>
    cases i with
    | none => trivial
    | some i => rintro (_ | _ | _) <;> exact ⟨_, rfl⟩
  | list => trivial
  | flag g b => cases b <;> rintro (_ | _) <;> exact ⟨_, rfl⟩
  | func n f =>
    simp only [newValue]
    by_cases hn : n ≠ 1
    · rw [if_pos hn]; trivial
    · rw [if_neg hn]
      cases getPrimitiveType (w.fnTy f) <;> trivial
  | ptr v =>
    rintro (_ | d)
    · exact ⟨_, rfl⟩
    · simp only
      cases d.ty with
      | none => exact ⟨_, rfl⟩
      | some ty => simp only; cases getPrimitiveType ty <;> exact ⟨_, rfl⟩
  | invalid => trivial

theorem valueSays_not_path (w : World) (s : State) (unit : MUnit) (spec : RegSpec) :
    valueSays w s unit spec ≠ .ok (some .pathInUse) := by
  unfold valueSays
  intro h
  repeat' split at h
  all_goals first | cases h | (simp only [Out.ok.injEq] at h; split at h <;> cases h)

/-- an own step of `registerMetric d p` -/
def RegStep (d : ℕ) (p : List Str) (spec : RegSpec) (group : Option ℕ) (unit : MUnit) (desc : Str) (e : Ev) : Prop :=
  MakesDir d p.dropLast e ∨ e.cmd.isTree = false ∨
    ∃ d' name v, e.cmd = .storeMetric d' name desc v ∧ Reaches e.pre.tree d p.dropLast (.dir d') ∧
      p = p.dropLast ++ [name] ∧ StandsFor v spec group unit

theorem registerMetric_runI {d : ℕ} {p : List Str} (hp : ∀ x ∈ p, GoodName x) {spec group unit desc} {s s' : State}
    {h : List Ev} {r} (hs : Reachable w s) (hd : d < s.tree.dirs.length)
    (hr : RunI w (registerMetric w.fnTy d p spec group unit desc) s h s' r) (hg : Growing w h) :
    (∀ e ∈ h, e.own = true → RegStep d p spec group unit desc e) ∧
    ((r = .ok (.ok ()) ∧ ∃ e ∈ h, e.own = true ∧ ∃ d' name v m, e.cmd = .storeMetric d' name desc v ∧
        Reaches e.pre.tree d p.dropLast (.dir d') ∧ p = p.dropLast ++ [name] ∧ StandsFor v spec group unit ∧
        (e.pre.tree.storeMetric d' name desc v).2 = .ok m) ∨
     ((∀ e ∈ h, e.own = true → ∀ d' name de v m, e.cmd = .storeMetric d' name de v →
          (e.pre.tree.storeMetric d' name de v).2 ≠ .ok m) ∧
      (r = .ok (.error .pathInUse) ∧ (p = [] ∨ (∃ u m, u <+: p ∧ Reaches s'.tree d u (.metric m)) ∨
          ∃ n, Reaches s'.tree d p n) ∨
        r ≠ .ok (.ok ()) ∧ r ≠ .ok (.error .pathInUse) ∧ ∃ σ ∈ statesOf h s', valueSays w σ unit spec ≠ .ok none))) := by
  by_cases h0 : p = []
  · subst h0
    obtain ⟨h1, h2⟩ := RunI_ret hr
    refine ⟨fun e he ho => absurd (h2 e he) (by simp [ho]), Or.inr ⟨fun e he ho => absurd (h2 e he) (by simp [ho]),
      Or.inl ⟨h1.symm, Or.inl rfl⟩⟩⟩
  have hbase : p = p.dropLast ++ [p.getLast h0] := (List.dropLast_append_getLast h0).symm
  obtain ⟨e1, e2⟩ := pathDir_base h0
  unfold registerMetric at hr
  rw [if_neg (by simpa [pathEmpty] using h0)] at hr
  simp only [e1, e2] at hr
  obtain ⟨h1, s1, a, h2, rfl, r1, r2⟩ := RunI_bind hr
  obtain ⟨hg1, hg2⟩ := Growing.append.mp hg
  obtain ⟨hok1, hh⟩ := registerDirectory_safe (dropLast_good hp) hs hd r1
  have hs1 := (RunI_reachable r1 hs hok1).2
  obtain ⟨o1, res1⟩ := registerDirectory_runI (dropLast_good hp) hs hd r1 hg1
  have no1 : ∀ e ∈ h1, e.own = true → ∀ d' name de v m, e.cmd = .storeMetric d' name de v →
      (e.pre.tree.storeMetric d' name de v).2 ≠ .ok m := by
    intro e he ho d' name de v m hc
    obtain ⟨_, _, _, hc', _⟩ := o1 e he ho
    rw [hc] at hc'; cases hc'
  have comb : ∀ {Q : Ev → Prop} {l1 l2 : List Ev}, (∀ e ∈ l1, e.own = true → Q e) →
      (∀ e ∈ l2, e.own = true → Q e) → ∀ e ∈ l1 ++ l2, e.own = true → Q e := by
    intro Q l1 l2 a b e he
    rcases List.mem_append.mp he with he | he
    · exact a e he
    · exact b e he
  have rets : ∀ {Q : Ev → Prop} {γ : Type} {x y : γ} {s1 s2 : State} {l}, RunI w (.ret x) s1 l s2 y →
      ∀ e ∈ l, e.own = true → Q e := by
    intro Q γ x y s1 s2 l hr e he ho
    rw [(RunI_ret hr).2 e he] at ho; cases ho
  rcases res1 with ⟨cur, rfl, hcur⟩ | ⟨rfl, u, m, hu, hm⟩
  swap
  · refine ⟨comb (fun e he ho => Or.inl (o1 e he ho)) (rets r2), Or.inr ⟨comb no1 (rets r2), Or.inl
      ⟨(RunI_ret r2).1.symm, Or.inr (Or.inl ⟨u, m, hu.trans (List.dropLast_prefix p), grow_run r2 hg2 hm⟩)⟩⟩⟩
  simp only at r2
  obtain ⟨h3, s3, v, h4, rfl, r3, r4⟩ := RunI_bind r2
  obtain ⟨hg3, hg4⟩ := Growing.append.mp hg2
  have hnt3 : ∀ e ∈ h3, e.own = true → e.cmd.isTree = false := RunI_all (newValue_all _ _ _ _) r3
  have no3 : ∀ e ∈ h3, e.own = true → ∀ d' name de v m, e.cmd = .storeMetric d' name de v →
      (e.pre.tree.storeMetric d' name de v).2 ≠ .ok m := by
    intro e he ho d' name de v m hc
    have := hnt3 e he ho
    rw [hc] at this; cases this
  have hs3 := (RunI_reachable r3 hs1 fun e he ho => ok_of_not_tree (hnt3 e he ho) _).2
  have hc3 : cur < s3.tree.dirs.length := lt_of_lt_of_le (hh cur rfl) (RunI_ext r3).2.dirs
  obtain ⟨σ, hσ, hv⟩ := newValue_at r3
  have hnv := (newValue_run (w := w) (s := σ) spec group unit).2
  simp only [hv] at hnv
  have hσ' : σ ∈ statesOf (h1 ++ (h3 ++ h4)) s' := by
    rcases List.mem_append.mp hσ with hx | hx
    · refine List.mem_append_left _ ?_
      simp only [List.map_append, List.mem_append]
      exact Or.inr (Or.inl hx)
    · rw [List.mem_singleton.mp hx]
      have hh4 : s3 ∈ statesOf h4 s' := List.mem_of_head? (RunI_head r4)
      rcases List.mem_append.mp hh4 with hy | hy
      · refine List.mem_append_left _ ?_
        simp only [List.map_append, List.mem_append]
        exact Or.inr (Or.inr hy)
      · exact List.mem_append_right _ hy
  cases v with
  | panic =>
    refine ⟨comb (fun e he ho => Or.inl (o1 e he ho)) (comb (fun e he ho => Or.inr (Or.inl (hnt3 e he ho))) (rets r4)),
      Or.inr ⟨comb no1 (comb no3 (rets r4)), Or.inr ?_⟩⟩
    rw [← (RunI_ret r4).1]
    exact ⟨by simp, by simp, σ, hσ', by rw [hnv]; simp⟩
  | ok x =>
    cases x with
    | error er =>
      refine ⟨comb (fun e he ho => Or.inl (o1 e he ho)) (comb (fun e he ho => Or.inr (Or.inl (hnt3 e he ho))) (rets r4)),
        Or.inr ⟨comb no1 (comb no3 (rets r4)), Or.inr ?_⟩⟩
      rw [← (RunI_ret r4).1]
      refine ⟨by simp, ?_, σ, hσ', by rw [hnv]; simp⟩
      intro he
      cases he
      exact valueSays_not_path _ _ _ _ hnv
    | ok v =>
      simp only at r4
      obtain ⟨h5, s5, h6, rfl, r5, r6⟩ := RunI_op r4
      obtain ⟨hg5, hg6⟩ := Growing.append.mp hg4
      obtain ⟨hg6, hg7⟩ := Growing.cons.mp hg6
      have hs5 := env_reachable r5 hs3
      have hc5 : cur < s5.tree.dirs.length := lt_of_lt_of_le hc3 (RunI_ext r5).2.dirs
      have hcur5 : Reaches s5.tree d p.dropLast (.dir cur) := grow_run r5 hg5 (grow_run r3 hg3 hcur)
      have hstep : RegStep d p spec group unit desc ⟨true, .storeMetric cur (p.getLast h0) desc v, s5⟩ :=
        Or.inr (Or.inr ⟨cur, _, v, rfl, hcur5, hbase, hnv.2⟩)
      have own : ∀ {Q : Ev → Prop}, (∀ e ∈ h1, e.own = true → Q e) → (∀ e ∈ h3, e.own = true → Q e) →
          Q ⟨true, .storeMetric cur (p.getLast h0) desc v, s5⟩ → (∀ e ∈ h6, e.own = true → Q e) →
          ∀ e ∈ h1 ++ (h3 ++ (h5 ++ ⟨true, .storeMetric cur (p.getLast h0) desc v, s5⟩ :: h6)), e.own = true → Q e := by
        intro Q q1 q2 q3 q4
        refine comb q1 (comb q2 (comb (rets r5) fun e he ho => ?_))
        rcases List.mem_cons.mp he with he | he
        · subst he; exact q3
        · exact q4 e he ho
      rcases storeMetric_says (w := w) (reachable_isTree hs5) hc5 (name := p.getLast h0) (desc := desc) (v := v) with
        ⟨m, hm, -⟩ | ⟨hm, n, hn⟩
      · rw [hm] at r6
        refine ⟨own (fun e he ho => Or.inl (o1 e he ho)) (fun e he ho => Or.inr (Or.inl (hnt3 e he ho))) hstep (rets r6),
          Or.inl ⟨(RunI_ret r6).1.symm, ⟨true, .storeMetric cur (p.getLast h0) desc v, s5⟩, by simp, rfl, cur, _, v, m, rfl, hcur5, hbase, hnv.2, hm⟩⟩
      · rw [hm] at r6
        refine ⟨own (fun e he ho => Or.inl (o1 e he ho)) (fun e he ho => Or.inr (Or.inl (hnt3 e he ho))) hstep (rets r6),
          Or.inr ⟨own no1 no3 ?_ (rets r6), Or.inl ⟨(RunI_ret r6).1.symm, Or.inr (Or.inr ⟨n, ?_⟩)⟩⟩⟩
        · intro d' name de v' m' hc
          cases hc
          rw [show (s5.tree.storeMetric cur (p.getLast h0) desc v).2 = _ from hm]
          simp
        · have hx : Reaches s5.tree d p n := by rw [hbase]; exact reaches_trans hcur5 hn
          exact grow_run r6 hg7 (hg6 _ _ _ hx)

end Tricorder
