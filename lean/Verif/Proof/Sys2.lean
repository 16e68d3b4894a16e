import Verif.Proof.Registry2
/-!
# Programs with interference
-/

namespace Tricorder
open Go Spec Tree

variable {α β : Type} {w : World}

instance (s : State) : (c : Cmd) → Decidable (c.Ok s)
  | .createDir d name => inferInstanceAs (Decidable (d < s.tree.dirs.length ∧ (47 : UInt8) ∉ name ∧ trimSpace name ≠ []))
  | .storeMetric d name _ _ => inferInstanceAs (Decidable (d < s.tree.dirs.length ∧ (47 : UInt8) ∉ name ∧ trimSpace name ≠ []))
  | .getEntry _ _ | .list _ | .removeEntry _ _ | .unregisterDir _ | .metric _ | .dirAbsPath _
  | .setUnit _ _ | .snapshot _ | .distCall _ _ | .newDist _ _ _ | .newList _ _ _ | .changeList _ _ _ _
  | .getList _ | .newVar _ | .readVar _ | .writeVar _ _ | .newSlice _ | .writeSlice _ _ _ | .callFn _
  | .callFlagGet _ | .callFlagString _ | .newRegion | .regionId _ | .rlock _ | .runlock _ | .tick _ =>
    .isTrue trivial

/-- run a list of steps, if they are possible -/
def play (w : World) : List Cmd → State → Option State
  | [], s => some s
  | c :: cs, s => if c.Ok s then play w cs (exec w c s).1 else none

theorem play_reachable {cs : List Cmd} {s s' : State} (h : play w cs s = some s')
    (hs : Reachable w s) : Reachable w s' := by
  induction cs generalizing s with
  | nil => simp only [play, Option.some.injEq] at h; exact h ▸ hs
  | cons c cs ih =>
    rw [play] at h
    split at h
    · rename_i hc; exact ih h (.step c hs hc)
    · cases h

/-- every step keeps all objects -/
theorem exec_ext (c : Cmd) (s : State) : Ext s.tree (exec w c s).1.tree := by
  by_cases h : c.isTree = true
  · cases c <;> simp [Cmd.isTree] at h
    · exact ext_setContents _ _ _
    · exact ext_unregisterDir _ _
    · exact ext_createDir _ _ _
    · exact ext_storeMetric _ _ _ _ _
  · rw [exec_tree_of_not (by simpa using h)]
    exact Ext.refl _

theorem RunI_ext {p : Prog α} {s s' : State} {h : List Ev} {a : α} (hr : RunI w p s h s' a) :
    (∀ e ∈ h, Ext s.tree e.pre.tree) ∧ Ext s.tree s'.tree :=
  RunI_inv (P := fun x => Ext s.tree x.tree) hr (Ext.refl _)
    (fun e _ he => he.trans (exec_ext e.cmd e.pre))

theorem RunI_env_ok {p : Prog α} {s s' : State} {h : List Ev} {a : α} (hr : RunI w p s h s' a) :
    ∀ e ∈ h, e.own = false → e.cmd.Ok e.pre := by
  induction hr with
  | ret => simp
  | env c hc _ ih =>
    intro e he
    rcases List.mem_cons.mp he with hh | hh
    · subst hh; exact fun _ => hc
    · exact ih e hh
  | op _ ih =>
    intro e he
    rcases List.mem_cons.mp he with hh | hh
    · subst hh; simp
    · exact ih e hh

/-- a program that begins with a step: others step, then it does -/
theorem RunI_op {c : Cmd} {k : c.Resp → Prog α} {s s' : State} {h : List Ev} {a : α}
    (hr : RunI w (.op c k) s h s' a) :
    ∃ h1 s1 h2, h = h1 ++ ⟨true, c, s1⟩ :: h2 ∧ RunI w (.ret ()) s h1 s1 () ∧
      RunI w (k (exec w c s1).2) (exec w c s1).1 h2 s' a := by
  generalize hq : Prog.op c k = q at hr
  induction hr with
  | ret => cases hq
  | env c' hc _ ih =>
    obtain ⟨h1, s1, h2, e, r1, r2⟩ := ih hq
    exact ⟨_ :: h1, s1, h2, by rw [e]; rfl, .env c' hc r1, r2⟩
  | @op c' k' s h s' a hr' _ =>
    cases hq
    exact ⟨[], s, h, rfl, .ret () s, hr'⟩

theorem RunI_env_trans {p : Prog α} {s s1 s' : State} {h1 h2 : List Ev} {a : α}
    (h : RunI w (.ret ()) s h1 s1 ()) (hr : RunI w p s1 h2 s' a) :
    RunI w p s (h1 ++ h2) s' a := by
  generalize hu : () = u at h
  generalize hq : Prog.ret u = q at h
  induction h with
  | ret => exact hr
  | env c hc _ ih => exact .env c hc (ih hr hu hq)
  | op => cases hq

/-- all steps a program can take satisfy `Q` -/
def ProgAll (Q : Cmd → Prop) : Prog α → Prop
  | .ret _ => True
  | .op c k => Q c ∧ ∀ r, ProgAll Q (k r)

theorem ProgAll_bind {Q : Cmd → Prop} {p : Prog α} {f : α → Prog β} (hp : ProgAll Q p)
    (hf : ∀ a, ProgAll Q (f a)) : ProgAll Q (p.bind f) := by
  induction p with
  | ret a => exact hf a
  | op c k ih => exact ⟨hp.1, fun r => ih r (hp.2 r)⟩

theorem ProgAll_mono {Q R : Cmd → Prop} {p : Prog α} (h : ∀ c, Q c → R c) (hp : ProgAll Q p) :
    ProgAll R p := by
  induction p with
  | ret => trivial
  | op c k ih => exact ⟨h c hp.1, fun r => ih r (hp.2 r)⟩

theorem RunI_all {Q : Cmd → Prop} {p : Prog α} {s s' : State} {h : List Ev} {a : α}
    (hp : ProgAll Q p) (hr : RunI w p s h s' a) : ∀ e ∈ h, e.own = true → Q e.cmd := by
  induction hr with
  | ret => simp
  | env c hc _ ih =>
    intro e he
    rcases List.mem_cons.mp he with hh | hh
    · subst hh; simp
    · exact ih hp e hh
  | op _ ih =>
    intro e he
    rcases List.mem_cons.mp he with hh | hh
    · subst hh; exact fun _ => hp.1
    · exact ih (hp.2 _) e hh

/-- steps that change nothing -/
def Cmd.reads : Cmd → Bool
  | .getEntry _ _ | .list _ | .metric _ | .dirAbsPath _ | .snapshot _ | .getList _ | .readVar _
  | .callFn _ | .callFlagGet _ | .callFlagString _ | .regionId _ | .rlock _ | .runlock _ => true
  | _ => false

theorem exec_reads {c : Cmd} (h : c.reads = true) (s : State) : (exec w c s).1 = s := by
  cases c <;> simp [Cmd.reads] at h <;> rfl

theorem run_reads {p : Prog α} (hp : ProgAll (fun c => c.reads = true) p) (s : State) :
    (p.run w s).1 = s := by
  induction p generalizing s with
  | ret => rfl
  | op c k ih =>
    rw [Prog.run, ih _ (hp.2 _), exec_reads hp.1]

/-- if the program's own steps are possible, all states of the run are reachable -/
theorem RunI_reachable {p : Prog α} {s s' : State} {h : List Ev} {a : α} (hr : RunI w p s h s' a)
    (hs : Reachable w s) (ho : ∀ e ∈ h, e.own = true → e.cmd.Ok e.pre) :
    (∀ e ∈ h, Reachable w e.pre) ∧ Reachable w s' := by
  refine RunI_inv (P := Reachable w) hr hs ?_
  intro e he hre
  refine .step e.cmd hre ?_
  cases ho' : e.own with
  | true => exact ho e he ho'
  | false => exact RunI_env_ok hr e he ho'

theorem createDir_handle {V : Type} {t : Tree V} (ht : IsTree t) {d name d'} (h : (t.createDir d name).2 = .ok d') :
    d' < (t.createDir d name).1.dirs.length := by
  cases hg : t.getEntry d name with
  | none =>
    rw [createDir_new hg] at h ⊢
    simp only [Except.ok.injEq] at h
    subst h
    simp only [link_length]
    simp
  | some e =>
    obtain ⟨en, he, _⟩ := ht.child _ _ _ (getEntry_some hg)
    cases hd : en.dir with
    | none => rw [createDir_err hg he hd] at h; cases h
    | some x =>
      rw [createDir_old hg he hd] at h ⊢
      cases h
      exact (entry_dir ht he hd).2.2.1

theorem env_reachable {s s1 : State} {h1 : List Ev} (hr : RunI w (.ret ()) s h1 s1 ())
    (hs : Reachable w s) : Reachable w s1 := by
  have := (RunI_ret hr).2
  exact (RunI_reachable hr hs (fun e he ho => by rw [this e he] at ho; cases ho)).2

/-- `registerDirectory` with interference: its steps are possible, and the handle it returns exists -/
theorem registerDirectory_safe {d : ℕ} {p : List Str} (hp : ∀ x ∈ p, GoodName x) {s s' : State}
    {h : List Ev} {r} (hs : Reachable w s) (hd : d < s.tree.dirs.length)
    (hr : RunI w (registerDirectory d p) s h s' r) :
    (∀ e ∈ h, e.own = true → e.cmd.Ok e.pre) ∧ ∀ d', r = .ok d' → d' < s'.tree.dirs.length := by
  induction p generalizing d s h with
  | nil =>
    obtain ⟨h1, h2⟩ := RunI_ret hr
    refine ⟨fun e he ho => absurd (h2 e he) (by simp [ho]), ?_⟩
    rintro d' rfl
    cases h1
    exact lt_of_lt_of_le hd (RunI_ext hr).2.dirs
  | cons name p ih =>
    obtain ⟨h1, s1, h2, e, r1, r2⟩ := RunI_op hr
    have hd1 : d < s1.tree.dirs.length := lt_of_lt_of_le hd (RunI_ext r1).2.dirs
    have hs1 := env_reachable r1 hs
    have hok : (Cmd.createDir d name).Ok s1 := ⟨hd1, okName.mpr (hp name List.mem_cons_self)⟩
    have hs2 : Reachable w (exec w (.createDir d name) s1).1 := .step _ hs1 hok
    have hown1 : ∀ e ∈ h1, e.own = true → e.cmd.Ok e.pre := fun e he ho => by
      rw [(RunI_ret r1).2 e he] at ho; cases ho
    subst e
    have comb : ∀ {h2}, (∀ e ∈ h2, e.own = true → e.cmd.Ok e.pre) →
        ∀ e ∈ h1 ++ (⟨true, .createDir d name, s1⟩ : Ev) :: h2, e.own = true → e.cmd.Ok e.pre := by
      intro h2 hh e he
      rcases List.mem_append.mp he with he | he
      · exact hown1 e he
      · rcases List.mem_cons.mp he with he | he
        · subst he; exact fun _ => hok
        · exact hh e he
    cases hc : (exec w (.createDir d name) s1).2 with
    | error er =>
      rw [hc] at r2
      obtain ⟨h3, h4⟩ := RunI_ret r2
      refine ⟨comb fun e he ho => absurd (h4 e he) (by simp [ho]), ?_⟩
      rintro d' rfl
      cases h3
    | ok d2 =>
      rw [hc] at r2
      have hd2 : d2 < (exec w (.createDir d name) s1).1.tree.dirs.length :=
        createDir_handle (reachable_isTree hs1) hc
      obtain ⟨h3, h4⟩ := ih (fun x hx => hp x (List.mem_cons_of_mem _ hx)) hs2 hd2 r2
      exact ⟨comb h3, h4⟩

theorem ok_of_not_tree {c : Cmd} (h : c.isTree = false) (s : State) : c.Ok s := by
  cases c <;> simp [Cmd.isTree] at h <;> trivial

theorem newValue_all (fnTy spec group unit) :
    ProgAll (fun c => c.isTree = false) (newValue fnTy spec group unit) := by
  cases spec with
  | dist i =>
    cases i with
    | none => trivial
    | some i =>
      refine ⟨rfl, ?_⟩
      rintro (_ | _ | _) <;> trivial
  | list => trivial
  | flag g b =>
    cases b
    · refine ⟨rfl, ?_⟩
      rintro (_ | _) <;> trivial
    · refine ⟨rfl, ?_⟩
      rintro (_ | _) <;> trivial
  | func n f =>
    simp only [newValue]
    split
    · trivial
    · cases getPrimitiveType (fnTy f) <;> trivial
  | ptr v =>
    refine ⟨rfl, ?_⟩
    rintro (_ | d)
    · trivial
    · simp only
      cases d.ty with
      | none => trivial
      | some ty => simp only; cases getPrimitiveType ty <;> trivial
  | invalid => trivial

/-- `registerMetric` with interference: its steps are possible -/
theorem registerMetric_safe {fnTy : ℕ → GoTy} {d : ℕ} {p : List Str} (hp : ∀ x ∈ p, GoodName x)
    {spec group unit desc} {s s' : State} {h : List Ev} {r} (hs : Reachable w s)
    (hd : d < s.tree.dirs.length)
    (hr : RunI w (registerMetric fnTy d p spec group unit desc) s h s' r) :
    ∀ e ∈ h, e.own = true → e.cmd.Ok e.pre := by
  by_cases h0 : p = []
  · subst h0
    have h2 := (RunI_ret hr).2
    exact fun e he ho => by rw [h2 e he] at ho; cases ho
  · obtain ⟨h1, h2⟩ := pathDir_base h0
    unfold registerMetric at hr
    rw [if_neg (by simpa [pathEmpty] using h0)] at hr
    simp only [h1, h2] at hr
    obtain ⟨h1, s1, a, h2, e, r1, r2⟩ := RunI_bind hr
    subst e
    obtain ⟨hok1, hh⟩ := registerDirectory_safe (dropLast_good hp) hs hd r1
    have hs1 := (RunI_reachable r1 hs hok1).2
    have comb : ∀ {l1 l2 : List Ev}, (∀ e ∈ l1, e.own = true → e.cmd.Ok e.pre) →
        (∀ e ∈ l2, e.own = true → e.cmd.Ok e.pre) → ∀ e ∈ l1 ++ l2, e.own = true → e.cmd.Ok e.pre := by
      intro l1 l2 a b e he
      rcases List.mem_append.mp he with he | he
      · exact a e he
      · exact b e he
    have rets : ∀ {γ : Type} {x y : γ} {s1 s2 : State} {l}, RunI w (.ret x) s1 l s2 y →
        ∀ e ∈ l, e.own = true → e.cmd.Ok e.pre := by
      intro γ x y s1 s2 l hr e he ho
      rw [(RunI_ret hr).2 e he] at ho; cases ho
    refine comb hok1 ?_
    cases a with
    | error er => exact rets r2
    | ok cur =>
      simp only at r2
      obtain ⟨h3, s3, v, h4, e, r3, r4⟩ := RunI_bind r2
      subst e
      have hok3 : ∀ e ∈ h3, e.own = true → e.cmd.Ok e.pre :=
        fun e he ho => ok_of_not_tree (RunI_all (newValue_all _ _ _ _) r3 e he ho) _
      have hs3 := (RunI_reachable r3 hs1 hok3).2
      have hc3 : cur < s3.tree.dirs.length := lt_of_lt_of_le (hh cur rfl) (RunI_ext r3).2.dirs
      refine comb hok3 ?_
      cases v with
      | panic => exact rets r4
      | ok x =>
        cases x with
        | error er => exact rets r4
        | ok v =>
          simp only at r4
          obtain ⟨h5, s5, h6, e, r5, r6⟩ := RunI_op r4
          subst e
          refine comb (rets r5) ?_
          intro e he
          rcases List.mem_cons.mp he with he | he
          · subst he
            intro _
            exact ⟨lt_of_lt_of_le hc3 (RunI_ext r5).2.dirs, okName.mpr (hp _ (List.getLast_mem h0))⟩
          · refine (?_ : ∀ e ∈ h6, e.own = true → e.cmd.Ok e.pre) e he
            cases hx : (exec w (.storeMetric cur (p.getLast h0) desc v) s5).2 with
            | error er => rw [hx] at r6; exact rets r6
            | ok m => rw [hx] at r6; exact rets r6

end Tricorder
