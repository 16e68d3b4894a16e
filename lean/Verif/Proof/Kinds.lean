import Verif.Spec.Kinds
import Verif.Proof.Lists
import Verif.Proof.ListRun2
/-!
# Metrics and their sources
-/

namespace Tricorder
open Go Spec Tree

variable {α : Type} {w : World}

theorem metricType_eq (g : GoTy) : metricType g = getPrimitiveType g := by
  cases g with
  | timePtr => rfl
  | other i => rfl
  | scalar t =>
    obtain ⟨n, b⟩ := t
    cases n with
    | none =>
      cases b with
      | int k => cases k <;> rfl
      | _ => rfl
    | some n =>
      cases b with
      | int k => cases k <;> rfl
      | _ => rfl

theorem grown_reachable {s : State} (h : Grown w s) : Reachable w s := by
  induction h with
  | init => exact .init
  | step c _ hc _ ih => exact .step c ih hc

/-- the type of a variable never changes -/
theorem exec_var {c : Cmd} {s : State} {i : ℕ} {d : Dyn} (h : s.vars[i]? = some d) :
    ∃ d', (exec w c s).1.vars[i]? = some d' ∧ d'.ty = d.ty := by
  cases c with
  | newVar x =>
    refine ⟨d, ?_, rfl⟩
    exact prefix_get (List.prefix_append _ _) h
  | writeVar v x =>
    simp only [exec]
    cases hv : s.vars[v]? with
    | none => exact ⟨d, h, rfl⟩
    | some d0 =>
      simp only
      split
      · rename_i ht
        by_cases hi : v = i
        · subst hi
          rw [hv] at h
          cases h
          have hl := (List.getElem?_eq_some_iff.mp hv).1
          exact ⟨x, by simp [List.getElem?_set_self hl], ht.symm⟩
        · exact ⟨d, by simp [List.getElem?_set_ne hi, h], rfl⟩
      · exact ⟨d, h, rfl⟩
  | newList a m ts =>
    refine ⟨d, ?_, rfl⟩
    simp only [exec, State.newList]
    split <;> exact h
  | changeList j a m ts =>
    refine ⟨d, ?_, rfl⟩
    simp only [exec, State.changeList]
    split
    · exact h
    · split
      · exact h
      · split <;> exact h
  | setUnit j u => refine ⟨d, ?_, rfl⟩; simp only [exec]; split <;> exact h
  | distCall j u => refine ⟨d, ?_, rfl⟩; simp only [exec]; split <;> exact h
  | _ => exact ⟨d, h, rfl⟩

theorem fits_exec {c : Cmd} {s : State} {v : MValue} (h : Fits w s v) : Fits w (exec w c s).1 v := by
  unfold Fits at h ⊢
  split
  · rename_i hs; rw [hs] at h; exact h
  · rename_i i hs
    rw [hs] at h
    obtain ⟨d, h1, g, h2, h3⟩ := h
    obtain ⟨d', h4, h5⟩ := exec_var (w := w) (c := c) h1
    exact ⟨d', h4, g, by rw [h5]; exact h2, h3⟩
  · rename_i i hs; rw [hs] at h; exact h
  · rename_i i hs; rw [hs] at h; exact h
  · rename_i i hs; rw [hs] at h; exact h

/-- metrics are only added, and only by `storeMetric` -/
theorem exec_metric {c : Cmd} {s : State} {m : ℕ} {mo : MetricObj MValue}
    (h : (exec w c s).1.tree.metrics[m]? = some mo) :
    s.tree.metrics[m]? = some mo ∨ ∃ d name desc, c = .storeMetric d name desc mo.value := by
  cases c with
  | removeEntry d name => exact Or.inl h
  | unregisterDir d =>
    refine Or.inl ?_
    simp only [exec, Tree.unregisterDir] at h
    split at h
    · exact h
    · split at h
      · exact h
      · unfold Tree.removeChild at h
        split at h
        · exact h
        · split at h
          · exact h
          · split at h <;> exact h
  | createDir d name =>
    refine Or.inl ?_
    simp only [exec, Tree.createDir] at h
    split at h
    · exact h
    · split at h <;> exact h
  | storeMetric d name desc v =>
    simp only [exec, Tree.storeMetric] at h
    split at h
    · exact Or.inl h
    · rw [Tree.setContents_metrics] at h
      rw [List.getElem?_append] at h
      split at h
      · exact Or.inl h
      · right
        have : mo = ⟨desc, v, s.tree.entries.length⟩ := by
          cases hk : m - s.tree.metrics.length with
          | zero => rw [hk] at h; simp at h; exact h.symm
          | succ k => rw [hk] at h; simp at h
        subst this
        exact ⟨d, name, desc, rfl⟩
  | newList a m ts =>
    refine Or.inl ?_
    simp only [exec, State.newList] at h
    split at h <;> exact h
  | changeList j a m ts =>
    refine Or.inl ?_
    simp only [exec, State.changeList] at h
    split at h
    · exact h
    · split at h
      · exact h
      · split at h <;> exact h
  | setUnit j u => refine Or.inl ?_; simp only [exec] at h; split at h <;> exact h
  | distCall j u => refine Or.inl ?_; simp only [exec] at h; split at h <;> exact h
  | writeVar v x =>
    refine Or.inl ?_
    simp only [exec] at h
    split at h
    · split at h <;> exact h
    · exact h
  | _ => exact Or.inl h

/-- all metrics have the type of their source -/
def AllFit (w : World) (s : State) : Prop := ∀ (m : ℕ) (mo : MetricObj MValue), s.tree.metrics[m]? = some mo → Fits w s mo.value

theorem AllFit.exec {c : Cmd} {s : State} (h : AllFit w s) (hc : StoreFits w ⟨false, c, s⟩) : AllFit w (exec w c s).1 := by
  intro m mo hm
  rcases exec_metric hm with h1 | ⟨d, name, desc, rfl⟩
  · exact fits_exec (h m mo h1)
  · exact fits_exec (hc d name desc mo.value rfl)

theorem grown_fit {s : State} (h : Grown w s) : AllFit w s := by
  induction h with
  | init => intro m mo hm; simp [State.init, Tree.init] at hm
  | step c _ _ hc ih => exact ih.exec hc

theorem view_fits {s : State} (h : AllFit w s) {m : ℕ} {mv : MetricView} (hm : metricView s.tree m = some mv) :
    Fits w s mv.value := by
  unfold metricView at hm
  split at hm
  · rename_i mo p h1 h2
    cases hm
    exact h m mo h1
  · cases hm

/-! ### lists -/

/-- the elements of a list have its element type -/
def ListsTyped (s : State) : Prop :=
  ∀ (i : ℕ) (l : ListObj), s.lists[i]? = some l → ∃ cell, s.mem[l.slice]? = some cell ∧
    elemType cell.elem = some l.subType ∧ ¬ Unsized cell

/-- memory cells keep their type -/
def MemKeeps (m m' : List Cell) : Prop :=
  ∀ (i : ℕ) (c : Cell), m[i]? = some c → ∃ c', m'[i]? = some c' ∧ c'.elem = c.elem

theorem MemKeeps.refl (m : List Cell) : MemKeeps m m := fun _ c h => ⟨c, h, rfl⟩

theorem MemKeeps.prefix {m m' : List Cell} (h : m <+: m') : MemKeeps m m' := fun _ c hc => ⟨c, prefix_get h hc, rfl⟩

theorem exec_mem (c : Cmd) (s : State) : MemKeeps s.mem (exec w c s).1.mem := by
  cases c with
  | newSlice x => exact .prefix (List.prefix_append _ _)
  | writeSlice k j b =>
    intro i c hi
    simp only [exec, List.getElem?_modify, hi, Option.map_eq_map, Option.map_some]
    split
    · refine ⟨_, rfl, ?_⟩
      simp only [writeCell]; split <;> rfl
    · exact ⟨_, rfl, rfl⟩
  | newList a m ts =>
    simp only [exec, State.newList]
    split
    · exact .refl _
    · rename_i h; exact .prefix (asSliceValue_mem h)
  | changeList j a m ts =>
    simp only [exec, State.changeList]
    split
    · exact .refl _
    · split
      · exact .refl _
      · rename_i h
        split <;> exact .prefix (asSliceValue_mem h)
  | setUnit j u => simp only [exec]; split <;> exact .refl _
  | distCall j u => simp only [exec]; split <;> exact .refl _
  | writeVar v x =>
    simp only [exec]
    split
    · split <;> exact .refl _
    · exact .refl _
  | _ => exact .refl _

theorem asSliceValue_typed {mem : List Cell} {a : SliceArg} {m : Bool} {mem' : List Cell} {c' : ℕ} {t : Ty}
    (h : asSliceValue mem a m = some (mem', c', t)) :
    ∃ cell, mem'[c']? = some cell ∧ elemType cell.elem = some t ∧ ¬ Unsized cell := by
  unfold asSliceValue at h
  split at h
  · cases h
  · rename_i c
    split at h
    · cases h
    · rename_i cell hc
      split at h
      · cases h
      · cases h
      · rename_i t' ht
        have ht' := (elemType_iff cell.elem t').mpr ht
        split at h
        · rename_i n he
          cases h
          rw [he] at ht'
          simp only [elemType] at ht'
          cases ht'
          refine ⟨_, by simp; rfl, rfl, ?_⟩
          rintro ⟨n, h | h⟩ <;> simp at h
        · rename_i n he
          cases h
          rw [he] at ht'
          simp only [elemType] at ht'
          cases ht'
          refine ⟨_, by simp; rfl, rfl, ?_⟩
          rintro ⟨n, h | h⟩ <;> simp at h
        · rename_i n1 n2
          split at h
          · cases h
            refine ⟨{ cell with data := some (cell.data.getD []), internal := true }, by simp, ht', ?_⟩
            rintro ⟨n, h | h⟩
            · exact n1 _ h
            · exact n2 _ h
          · cases h
            refine ⟨cell, hc, ht', ?_⟩
            rintro ⟨n, h | h⟩
            · exact n1 _ h
            · exact n2 _ h

theorem ListsTyped.exec {c : Cmd} {s : State} (h : ListsTyped s) : ListsTyped (exec w c s).1 := by
  have keep : ∀ (l : ListObj) (s' : State), (∃ cell, s.mem[l.slice]? = some cell ∧ elemType cell.elem = some l.subType ∧ ¬ Unsized cell) →
      MemKeeps s.mem s'.mem → ∃ cell, s'.mem[l.slice]? = some cell ∧ elemType cell.elem = some l.subType ∧ ¬ Unsized cell := by
    rintro l s' ⟨cell, h1, h2, h3⟩ hk
    obtain ⟨c', h4, h5⟩ := hk _ _ h1
    refine ⟨c', h4, by rw [h5]; exact h2, ?_⟩
    unfold Unsized at h3 ⊢
    rw [h5]; exact h3
  have hm := exec_mem (w := w) c s
  by_cases hcase : (Tricorder.exec w c s).1.lists = s.lists
  · intro i l hl
    rw [hcase] at hl
    exact keep l _ (h i l hl) hm
  · intro i l hl
    cases c with
    | newList a m ts =>
      cases hn : s.newList a m ts with
      | mk s1 o =>
        cases o with
        | none =>
          exfalso; apply hcase
          simp only [Tricorder.exec, State.newList]
          split
          · rfl
          · rename_i hx
            unfold State.newList at hn
            rw [hx] at hn; cases hn
        | some k =>
          obtain ⟨mem, c, t, h1, rfl, rfl⟩ := newList_some hn
          have e : (Tricorder.exec w (.newList a m ts) s).1 = (s.newList a m ts).1 := rfl
          rw [e, hn] at hl hm ⊢
          simp only at hl
          rw [List.getElem?_append] at hl
          split at hl
          · exact keep l _ (h i l hl) hm
          · cases hk : i - s.lists.length with
            | succ k => rw [hk] at hl; simp at hl
            | zero =>
              rw [hk] at hl
              simp only [List.getElem?_cons_zero, Option.some.injEq] at hl
              subst hl
              exact asSliceValue_typed h1
    | changeList j a m ts =>
      have e : (Tricorder.exec w (.changeList j a m ts) s).1 = (s.changeList j a m ts).1 := rfl
      rw [e] at hl hm hcase ⊢
      by_cases hb : (s.changeList j a m ts).2 = true
      · obtain ⟨l0, mem, c, h0, h1, h2⟩ := changeList_true (s1 := (s.changeList j a m ts).1) (by rw [← hb])
        rw [h2] at hl hm ⊢
        simp only at hl
        by_cases hj : j = i
        · subst hj
          rw [List.getElem?_set_self (List.getElem?_eq_some_iff.mp h0).1] at hl
          cases hl
          exact asSliceValue_typed h1
        · rw [List.getElem?_set_ne hj] at hl
          exact keep l _ (h i l hl) hm
      · exfalso
        unfold State.changeList at hb hcase
        split at hb <;> rename_i hx
        · simp [hx] at hcase
        · split at hb <;> rename_i hy
          · simp [hx, hy] at hcase
          · split at hb <;> rename_i hz
            · simp [hx, hy, hz] at hcase
            · exact hb rfl
    | setUnit j u => exfalso; apply hcase; simp only [Tricorder.exec]; split <;> rfl
    | distCall j u => exfalso; apply hcase; simp only [Tricorder.exec]; split <;> rfl
    | writeVar v x =>
      exfalso; apply hcase
      simp only [Tricorder.exec]
      split
      · split <;> rfl
      · rfl
    | _ => exact absurd rfl hcase

theorem reachable_typed {s : State} (h : Reachable w s) : ListsTyped s := by
  induction h with
  | init => intro i l hl; simp [State.init] at hl
  | step c _ _ ih => exact ih.exec

theorem listView_kind {s : State} (h : ListsTyped s) {i : ℕ} {lv : ListView} (hv : listView s i = some lv)
    (hn : ¬ NamedVal lv.val) : fromGoValueWithSubType lv.val = (.list, lv.subType) := by
  unfold listView at hv
  split at hv
  · cases hv
  · rename_i l hl
    split at hv
    · cases hv
    · rename_i c hc
      cases hv
      obtain ⟨cell, h1, h2, h3⟩ := h i l hl
      rw [hc] at h1
      cases h1
      simp only at hn ⊢
      unfold Cell.val at hn ⊢
      cases he : c.elem with
      | timePtr => rw [he] at h2; cases h2
      | other k => rw [he] at h2; cases h2
      | scalar t =>
        rw [he] at h2 hn
        obtain ⟨n, b⟩ := t
        simp only [NamedVal, not_or, not_not] at hn
        obtain ⟨hn1, rfl⟩ := hn
        rw [hn1]
        have hu : b ≠ .int .int ∧ b ≠ .int .uint := by
          constructor
          · rintro rfl; exact h3 ⟨none, Or.inl he⟩
          · rintro rfl; exact h3 ⟨none, Or.inr he⟩
        cases b with
        | int k => cases k <;> simp_all [fromGoValueWithSubType, scalarKind, elemType]
        | _ => simp_all [fromGoValueWithSubType, scalarKind, elemType]

/-! ### scalars -/

theorem interface_kind {v : MValue} {d : Dyn} {x : Val} (hd : DynFits v d)
    (hx : valueToInterface d v.valType v.isPtr = some x) (hn : ¬ NamedVal x) :
    fromGoValueWithSubType x = (v.valType, .unknown) := by
  obtain ⟨g, h1, h2⟩ := hd
  obtain ⟨src, region, dist, alist, t, p, u⟩ := v
  simp only at h2 hx ⊢
  cases d with
  | invalid => cases h1
  | other i => cases h1; simp [metricType, elemType] at h2
  | timePtr o =>
    cases h1
    simp only [metricType, Option.some.injEq, Prod.mk.injEq] at h2
    obtain ⟨rfl, rfl⟩ := h2
    cases o <;> simp [valueToInterface, valueToTime] at hx <;> subst hx <;> rfl
  | scalar n b =>
    cases h1
    cases n with
    | none =>
      cases b with
      | int k y =>
        cases k <;> simp only [metricType, elemType, Base.ty, Option.map_some, Option.some.injEq, Prod.mk.injEq] at h2 <;>
          obtain ⟨rfl, rfl⟩ := h2 <;>
          simp [valueToInterface, Dyn.int, Dyn.uint, IntKind.signed, Dyn.interface] at hx <;> subst hx <;> rfl
      | _ =>
        simp only [metricType, elemType, Base.ty, Option.map_some, Option.some.injEq, Prod.mk.injEq] at h2
        obtain ⟨rfl, rfl⟩ := h2
        simp [valueToInterface, valueToTime, valueToGoDuration, Dyn.int, Dyn.interface] at hx
        subst hx
        rfl
    | some n =>
      cases b with
      | int k y =>
        cases k <;> simp only [metricType, elemType, Base.ty, Option.map_some, Option.some.injEq, Prod.mk.injEq] at h2 <;>
          obtain ⟨rfl, rfl⟩ := h2 <;>
          simp [valueToInterface, Dyn.int, Dyn.uint, IntKind.signed, Dyn.interface] at hx <;> subst hx <;>
          first | rfl | exact absurd (by simp [NamedVal]) hn
      | time y => simp [metricType, elemType, Base.ty] at h2
      | _ =>
        simp only [metricType, elemType, Base.ty, Option.map_some, Option.some.injEq, Prod.mk.injEq] at h2
        obtain ⟨rfl, rfl⟩ := h2
        simp [valueToInterface, valueToTime, valueToGoDuration, Dyn.int, Dyn.interface] at hx
        subst hx
        first | rfl | exact absurd (by simp [NamedVal]) hn

theorem interface_converted {d : Dyn} {t : Ty} {p : Bool} {x : Val} (ht : Converted t) (hnd : t ≠ .dist)
    (hp : p = true → t = .goTime)
    (hx : valueToInterface d t p = some x) : ¬ NamedVal x := by
  unfold valueToInterface at hx
  have hpf : t ≠ .goTime → p = false := by
    intro h; cases p with
    | false => rfl
    | true => exact absurd (hp rfl) h
  rcases ht with rfl | rfl | rfl | rfl | rfl | rfl | rfl
  · simp [hpf] at hx; obtain ⟨y, -, rfl⟩ := hx; simp [NamedVal]
  · simp [hpf] at hx; obtain ⟨y, -, rfl⟩ := hx; simp [NamedVal]
  · simp [hpf] at hx; obtain ⟨y, -, rfl⟩ := hx; simp [NamedVal]
  · simp [hpf] at hx; obtain ⟨y, -, rfl⟩ := hx; simp [NamedVal]
  · simp at hx; obtain ⟨y, -, rfl⟩ := hx; simp [NamedVal]
  · simp at hx; obtain ⟨y, -, rfl⟩ := hx; simp [NamedVal]
  · exact absurd rfl hnd

/-! ### runs -/

/-- the step stores no metric -/
def NoStore (c : Cmd) : Prop := ∀ d name desc v, c ≠ .storeMetric d name desc v

theorem registerDirectory_noStore (d : ℕ) (p : List Str) : ProgAll NoStore (registerDirectory d p) := by
  induction p generalizing d with
  | nil => trivial
  | cons x p ih =>
    refine ⟨(fun _ _ _ _ h => nomatch h), ?_⟩
    intro r
    cases r with
    | error e => trivial
    | ok d' => exact ih d'

theorem newValue_noStore (f : ℕ → GoTy) (spec : RegSpec) (region : Option ℕ) (u : MUnit) :
    ProgAll NoStore (newValue f spec region u) := by
  cases spec with
  | dist i =>
    cases i with
    | none => trivial
    | some i =>
      refine ⟨(fun _ _ _ _ h => nomatch h), ?_⟩
      intro r
      match r with
      | none => trivial
      | some false => trivial
      | some true => trivial
  | list i => trivial
  | flag g b =>
    cases b
    · refine ⟨(fun _ _ _ _ h => nomatch h), ?_⟩
      intro r
      match r with
      | none => trivial
      | some _ => trivial
    · refine ⟨(fun _ _ _ _ h => nomatch h), ?_⟩
      intro r
      match r with
      | none => trivial
      | some _ => trivial
  | func n g =>
    simp only [newValue]
    split
    · trivial
    · split <;> trivial
  | ptr v =>
    refine ⟨(fun _ _ _ _ h => nomatch h), ?_⟩
    intro r
    match r with
    | none => trivial
    | some d =>
      simp only
      split
      · trivial
      · split <;> trivial
  | invalid => trivial

theorem var_run {p : Prog α} {s s' : State} {h : List Ev} {a : α} (hr : RunI w p s h s' a) {i : ℕ} {d : Dyn}
    (hd : s.vars[i]? = some d) : ∃ d', s'.vars[i]? = some d' ∧ d'.ty = d.ty :=
  (RunI_inv (P := fun σ => ∃ d', σ.vars[i]? = some d' ∧ d'.ty = d.ty) hr ⟨d, hd, rfl⟩ (by
    rintro e _ ⟨d', h1, h2⟩
    obtain ⟨d'', h3, h4⟩ := exec_var (w := w) (c := e.cmd) h1
    exact ⟨d'', h3, h4.trans h2⟩)).2

/-- what `flagValue` makes has the type of its source -/
theorem flagValue_fits {g : ℕ} {b : Bool} {region : Option ℕ} {u : MUnit} {d : Dyn} {v : MValue} (s : State)
    (h : flagValue g b region u d = .ok (.ok v)) (hb : b = false → ∃ str, d = .scalar none (.string str)) : Fits w s v := by
  unfold flagValue at h
  split at h
  · cases h
  · rename_i ty hty
    split at h
    · cases h; exact ⟨rfl, rfl⟩
    · rename_i t p hp
      cases h
      cases b with
      | true => exact ⟨ty, by rw [metricType_eq]; exact hp⟩
      | false =>
        obtain ⟨str, rfl⟩ := hb rfl
        cases hty
        simp [getPrimitiveType, kindType, Base.ty] at hp
        obtain ⟨rfl, rfl⟩ := hp
        exact ⟨rfl, rfl⟩

theorem newValue_fits {spec : RegSpec} {region : Option ℕ} {u : MUnit} {s s' : State} {h : List Ev} {v : MValue}
    (hr : RunI w (newValue w.fnTy spec region u) s h s' (.ok (.ok v))) : Fits w s' v := by
  cases spec with
  | dist i =>
    cases i with
    | none => cases (RunI_ret hr).1
    | some i =>
      obtain ⟨h1, s1, h2, rfl, r1, r2⟩ := RunI_op hr
      cases hv : (exec w (.setUnit i u) s1).2 with
      | none => rw [hv] at r2; cases (RunI_ret r2).1
      | some b =>
        rw [hv] at r2
        cases b
        · cases (RunI_ret r2).1
        · cases (RunI_ret r2).1; exact Or.inl ⟨rfl, rfl⟩
  | list i => cases (RunI_ret hr).1; exact Or.inr rfl
  | flag g b =>
    cases b
    · obtain ⟨h1, s1, h2, rfl, r1, r2⟩ := RunI_op hr
      cases hv : (exec w (.callFlagString g) s1).2 with
      | none => rw [hv] at r2; cases (RunI_ret r2).1
      | some str =>
        rw [hv] at r2
        exact flagValue_fits s' (RunI_ret r2).1 (fun _ => ⟨str, rfl⟩)
    · obtain ⟨h1, s1, h2, rfl, r1, r2⟩ := RunI_op hr
      cases hv : (exec w (.callFlagGet g) s1).2 with
      | none => rw [hv] at r2; cases (RunI_ret r2).1
      | some d =>
        rw [hv] at r2
        exact flagValue_fits s' (RunI_ret r2).1 (fun h => by cases h)
  | func n f =>
    simp only [newValue] at hr
    split at hr
    · cases (RunI_ret hr).1
    · split at hr
      · cases (RunI_ret hr).1
      · rename_i t p hp
        cases (RunI_ret hr).1
        unfold Fits
        simp only
        rw [metricType_eq]; exact hp
  | ptr i =>
    obtain ⟨h1, s1, h2, rfl, r1, r2⟩ := RunI_op hr
    cases hv : (exec w (.readVar i) s1).2 with
    | none => rw [hv] at r2; cases (RunI_ret r2).1
    | some d =>
      rw [hv] at r2
      simp only at r2
      split at r2
      · cases (RunI_ret r2).1
      · rename_i ty hty
        split at r2
        · cases (RunI_ret r2).1
        · rename_i t p hp
          obtain ⟨d', h3, h4⟩ := var_run r2 (i := i) (d := d) hv
          cases (RunI_ret r2).1
          exact ⟨d', h3, ty, by rw [h4]; exact hty, by rw [metricType_eq]; exact hp⟩
  | invalid => cases (RunI_ret hr).1

theorem fits_run {p : Prog α} {s s' : State} {h : List Ev} {a : α} (hr : RunI w p s h s' a) {v : MValue}
    (hv : Fits w s v) : Fits w s' v :=
  (RunI_inv (P := fun σ => Fits w σ v) hr hv (fun _ _ h => fits_exec h)).2

theorem register_fits {d : ℕ} {path : List Str} {spec : RegSpec} {region : Option ℕ} {u : MUnit} {desc : Str}
    {s s' : State} {h : List Ev} {r} (hr : RunI w (registerMetric w.fnTy d path spec region u desc) s h s' r) :
    ∀ e ∈ h, e.own = true → StoreFits w e := by
  have hno : ∀ e : Ev, NoStore e.cmd → StoreFits w e := fun e he d n ds v hc => absurd hc (he d n ds v)
  have hret : ∀ {β : Type} {b b' : β} {s s' : State} {h : List Ev}, RunI w (.ret b) s h s' b' →
      ∀ e ∈ h, e.own = true → StoreFits w e := by
    intro β b b' s s' h hr e he ho
    rw [(RunI_ret hr).2 e he] at ho
    cases ho
  unfold registerMetric at hr
  split at hr
  · exact hret hr
  · split at hr
    · rename_i dir base _ _
      obtain ⟨h1, s1, x, h2, rfl, r1, r2⟩ := RunI_bind hr
      have q1 := RunI_all (registerDirectory_noStore d dir) r1
      intro e he ho
      rcases List.mem_append.mp he with he | he
      · exact hno e (q1 e he ho)
      · cases x with
        | error er => exact hret r2 e he ho
        | ok cur =>
          obtain ⟨h3, s3, y, h4, rfl, r3, r4⟩ := RunI_bind r2
          have q3 := RunI_all (newValue_noStore w.fnTy spec region u) r3
          rcases List.mem_append.mp he with he | he
          · exact hno e (q3 e he ho)
          · match y, r3, r4 with
            | .panic, _, r4 => exact hret r4 e he ho
            | .ok (.error er), _, r4 => exact hret r4 e he ho
            | .ok (.ok v), r3, r4 =>
              have hf := newValue_fits r3
              obtain ⟨h5, s5, h6, rfl, r5, r6⟩ := RunI_op r4
              rcases List.mem_append.mp he with he | he
              · exact hret r5 e he ho
              · rcases List.mem_cons.mp he with he | he
                · subst he
                  intro d' n ds v' hc
                  cases hc
                  exact fits_run r5 hf
                · cases hz : (exec w (.storeMetric cur base desc v) s5).2 with
                  | error er => rw [hz] at r6; exact hret r6 e he ho
                  | ok z => rw [hz] at r6; exact hret r6 e he ho
    · exact hret hr

theorem vars_final {p : Prog α} {s s' : State} {h : List Ev} {a : α} (hr : RunI w p s h s' a) :
    ∀ σ ∈ statesOf h s', ∀ (i : ℕ) (d : Dyn), σ.vars[i]? = some d → ∃ d', s'.vars[i]? = some d' ∧ d'.ty = d.ty := by
  intro σ hσ i d hd
  rcases List.mem_append.mp hσ with hm | hm
  · obtain ⟨e, he, rfl⟩ := List.mem_map.mp hm
    obtain ⟨h1, h2, rfl⟩ := List.append_of_mem he
    obtain ⟨p', hr'⟩ := RunI_after hr rfl
    obtain ⟨d1, h3, h4⟩ := exec_var (w := w) (c := e.cmd) hd
    obtain ⟨d2, h5, h6⟩ := var_run hr' h3
    exact ⟨d2, h5, h6.trans h4⟩
  · rw [List.mem_singleton.mp hm] at hd
    exact ⟨d, hd, rfl⟩

theorem bits_eq (t : Ty) : t.bits = bitsOf t := by cases t <;> rfl

theorem elemType_known {g : GoTy} {t : Ty} (h : elemType g = some t) : t ≠ .unknown := by
  rintro rfl
  unfold elemType at h
  split at h <;> cases h

theorem metricType_known {g : GoTy} {t : Ty} {p : Bool} (h : metricType g = some (t, p)) : t ≠ .unknown := by
  cases g with
  | timePtr => cases h; simp
  | scalar x =>
    obtain ⟨t', h1, h2⟩ := Option.map_eq_some_iff.mp h
    cases h2
    exact elemType_known h1
  | other i => cases h

theorem fits_known {s : State} {v : MValue} (h : Fits w s v) : v.valType ≠ .unknown := by
  unfold Fits at h
  split at h
  · rcases h with ⟨h, -⟩ | h <;> rw [h] <;> simp
  · obtain ⟨d, -, g, -, h⟩ := h; exact metricType_known h
  · exact metricType_known h
  · obtain ⟨g, h⟩ := h; exact metricType_known h
  · rw [h.1]; simp

theorem named_unknown {v : Val} (h : NamedVal v) : fromGoValueWithSubType v = (.unknown, .unknown) := by
  unfold NamedVal at h
  split at h
  · rename_i n b
    cases n with
    | none => exact absurd rfl h
    | some n => rfl
  · rename_i n e xs
    obtain ⟨en, eb⟩ := e
    cases n with
    | some n => rfl
    | none =>
      cases en with
      | none => rcases h with h | h <;> exact absurd rfl h
      | some en => rfl
  · exact h.elim

/-- the kind of what is reported -/
theorem kind_core {S : State → Prop} {T : State} (hl : ∀ σ, S σ → ListsTyped σ)
    (hvars : ∀ σ, S σ → ∀ (i : ℕ) (d : Dyn), σ.vars[i]? = some d → ∃ d', T.vars[i]? = some d' ∧ d'.ty = d.ty)
    {mv : MetricView} (hf : Fits w T mv.value) {y : Metric} (hd : Describes y mv) (ht : PreTells w S mv y)
    (hk : FlagKeeps w S mv.value) :
    (fromGoValueWithSubType y.value = (y.kind, y.subType) ↔ ¬ NamedVal y.value) ∧
      (Converted y.kind → ¬ NamedVal y.value) ∧ y.bits = bitsOf (if y.kind = .list then y.subType else y.kind) := by
  have hunk := fits_known hf
  have h0 : (¬ NamedVal y.value → fromGoValueWithSubType y.value = (y.kind, y.subType)) ∧
      (Converted y.kind → ¬ NamedVal y.value) := ?_
  · refine ⟨⟨fun h1 h2 => ?_, h0.1⟩, h0.2, by rw [hd.2.2.2.2.1]; exact bits_eq _⟩
    rw [named_unknown h2] at h1
    exact hunk (by rw [← hd.2.2.2.1]; exact (Prod.mk.inj h1).1.symm)
  obtain ⟨-, -, -, d4, -, d6⟩ := hd
  cases ht with
  | dist a1 a2 a3 a4 a5 a6 =>
    rw [a6]
    refine ⟨fun _ => ?_, fun _ h => h⟩
    rw [d4, d6 (by rw [d4, a1]; simp), a1]; rfl
  | list a1 a2 a3 a4 a5 a6 a7 a8 =>
    rw [a5]
    refine ⟨fun hn => ?_, fun hc => ?_⟩
    · rw [listView_kind (hl _ a3) a4 hn, d4, a1, a8]
    · rw [d4, a1] at hc; simp [Converted] at hc
  | @scalar sc d r σ σ' a1 a2 a3 a4 a5 a6 =>
    have hsub : y.subType = .unknown := d6 (by rw [d4]; exact a2)
    have hfits : DynFits mv.value d := by
      unfold Fits at hf
      rw [a3] at hf
      cases sc with
      | var i =>
        obtain ⟨d0, h1, g, h2, h3⟩ := hf
        obtain ⟨d', h4, h5⟩ := hvars σ a4 i d a5
        rw [h1] at h4
        cases h4
        exact ⟨g, by rw [← h5]; exact h2, h3⟩
      | fn f => exact ⟨_, w.fn_ty _ _ _ a5, hf⟩
      | flagGet g => exact hk g σ d a3 a4 a5
      | flagString g =>
        simp only [current, Option.map_eq_some_iff] at a5
        obtain ⟨str, -, rfl⟩ := a5
        exact ⟨_, rfl, by rw [hf.1, hf.2]; rfl⟩
    refine ⟨fun hn => ?_, fun hc => ?_⟩
    · rw [interface_kind hfits a6 hn, d4, hsub]
    · rw [d4] at hc
      refine interface_converted hc a1 ?_ a6
      intro hp
      obtain ⟨g, -, h3⟩ := hfits
      rw [hp] at h3
      cases g with
      | timePtr => simp [metricType] at h3; exact h3.symm
      | _ => simp [metricType] at h3

/-- all that is needed about the states of a run -/
theorem grown_run {p : Prog α} {s s' : State} {h : List Ev} {a : α} (hs : Grown w s) (hp : OnlyReads p)
    (hr : RunI w p s h s' a) (he : ∀ e ∈ h, StoreFits w e) :
    (∀ σ ∈ statesOf h s', ListsTyped σ) ∧ AllFit w s' ∧ (∀ σ ∈ statesOf h s', IsTree σ.tree ∧ Ext σ.tree s'.tree) ∧
      IsTree s'.tree := by
  have hre := (RunI_reads hp hr (grown_reachable hs)).1
  obtain ⟨hT, hS⟩ := states_tree hr hre
  refine ⟨fun σ hσ => reachable_typed (hre σ hσ), ?_, hS, hT⟩
  exact (RunI_inv (P := fun σ => AllFit w σ) hr (grown_fit hs) (fun e hm hf => hf.exec (fun d n ds v hc => he e hm d n ds v hc))).2

end Tricorder
