import Verif.Spec.Typed
import Verif.Proof.Kinds
import Verif.Proof.DistHist
import Verif.Proof.Dist
/-!
# Type-correct steps keep the registry type-correct
-/

namespace Tricorder
open Go _root_.Spec Tricorder.Spec

variable {w : World} {s : State}

/-- every variable has a value of its Go type -/
def VarsOk (s : State) : Prop := ∀ (i : ℕ) (d : Dyn), s.vars[i]? = some d → DynOk d

theorem get_append {α : Type} {l : List α} {a x : α} {i : ℕ} (h : (l ++ [a])[i]? = some x) :
    l[i]? = some x ∨ x = a := by
  rw [List.getElem?_append] at h
  split at h
  · exact .inl h
  · cases hk : i - l.length with
    | succ k => rw [hk] at h; simp at h
    | zero => rw [hk] at h; simp only [List.getElem?_cons_zero, Option.some.injEq] at h; exact .inr h.symm

theorem get_set {α : Type} {l : List α} {a x : α} {i j : ℕ} (h : (l.set j a)[i]? = some x) :
    l[i]? = some x ∨ x = a := by
  rw [List.getElem?_set] at h
  split at h
  · split at h
    · exact .inr (Option.some.inj h).symm
    · cases h
  · exact .inl h

theorem resize_ok {n : Option ℕ} {es : Option (List Base)} {k : IntKind} (hk : k = .int ∨ k = .uint)
    (h : ElemsOk ⟨n, .int k⟩ es) :
    ElemsOk ⟨none, .int (if k = .int then .int64 else .uint64)⟩
      (some ((es.getD []).map (resize (if k = .int then .int64 else .uint64)))) := by
  intro b hb
  simp only [Option.getD_some, List.mem_map] at hb
  obtain ⟨a, ha, rfl⟩ := hb
  obtain ⟨h1, h2⟩ := h a ha
  rcases hk with rfl | rfl
  all_goals
    cases a with
    | int k x =>
      refine ⟨rfl, ?_⟩
      simp [resize, Base.Valid, IntKind.InRange, IntKind.signed, IntKind.bits, i64, u64]
      try omega
    | _ => simp [Base.ty] at h1

theorem asSliceValue_ok {mem mem' : List Cell} {a : SliceArg} {m : Bool} {c' : ℕ} {ty : Ty}
    (h : asSliceValue mem a m = some (mem', c', ty))
    (hm : ∀ (i : ℕ) (c : Cell), mem[i]? = some c → ∀ t, c.elem = .scalar t → ElemsOk t c.data) :
    ∀ (i : ℕ) (c : Cell), mem'[i]? = some c → ∀ t, c.elem = .scalar t → ElemsOk t c.data := by
  unfold asSliceValue at h
  split at h
  · cases h
  · rename_i c
    split at h
    · cases h
    · rename_i cell hc
      split at h
      · cases h
      · cases h
      · split at h
        · rename_i n he
          cases h
          intro i c' hi t ht
          rcases get_append hi with hi | rfl
          · exact hm i c' hi t ht
          · simp only [GoTy.scalar.injEq] at ht
            subst ht
            exact resize_ok (k := .int) (.inl rfl) (hm _ _ hc _ he)
        · rename_i n he
          cases h
          intro i c' hi t ht
          rcases get_append hi with hi | rfl
          · exact hm i c' hi t ht
          · simp only [GoTy.scalar.injEq] at ht
            subst ht
            exact resize_ok (k := .uint) (.inr rfl) (hm _ _ hc _ he)
        · split at h
          · cases h
            intro i c' hi t ht
            rcases get_append hi with hi | rfl
            · exact hm i c' hi t ht
            · exact hm _ _ hc t ht
          · cases h; exact hm

theorem writeCell_ok {c : Cell} {j : ℕ} {b : Base} (hb : ∀ t, c.elem = .scalar t → b.ty = t.base ∧ b.Valid)
    (hc : ∀ t, c.elem = .scalar t → ElemsOk t c.data) (t : ScalarTy) (ht : (writeCell c j b).elem = .scalar t) :
    ElemsOk t (writeCell c j b).data := by
  unfold writeCell at ht ⊢
  split at ht
  · rename_i h; simp only [h, if_true]; exact hc t ht
  · rename_i h
    simp only [h, Bool.false_eq_true, if_false]
    simp only at ht
    intro x hx
    cases hd : c.data with
    | none => rw [hd] at hx; simp at hx
    | some xs =>
      rw [hd] at hx
      simp only [Option.map_some, Option.getD_some] at hx
      rcases List.mem_or_eq_of_mem_set hx with hx | rfl
      · exact hc t ht x (by rw [hd]; exact hx)
      · exact hb t ht

theorem VarsOk.exec {c : Cmd} (h : VarsOk s) (hc : StepTyped s c) : VarsOk (exec w c s).1 := by
  cases c with
  | newVar d => intro i x hx; rcases get_append hx with hx | rfl; exacts [h i x hx, hc]
  | writeVar v d =>
    simp only [Tricorder.exec]
    split
    · split
      · intro i x hx; rcases get_set hx with hx | rfl; exacts [h i x hx, hc]
      · exact h
    · exact h
  | setUnit j u => simp only [Tricorder.exec]; split <;> exact h
  | distCall j u => simp only [Tricorder.exec]; split <;> exact h
  | newList a m ts => simp only [Tricorder.exec, State.newList]; split <;> exact h
  | changeList j a m ts =>
    simp only [Tricorder.exec, State.changeList]
    split
    · exact h
    · split
      · exact h
      · split <;> exact h
  | _ => exact h

theorem SlicesOk.exec {c : Cmd} (h : SlicesOk s) (hc : StepTyped s c) : SlicesOk (exec w c s).1 := by
  cases c with
  | newSlice c =>
    intro i x hx
    rcases get_append hx with hx | rfl
    · exact h i x hx
    · exact hc
  | writeSlice c j b =>
    intro i x hx
    simp only [Tricorder.exec, List.getElem?_modify] at hx
    cases hi : s.mem[i]? with
    | none => rw [hi] at hx; cases hx
    | some cell =>
      rw [hi] at hx
      by_cases e : c = i
      · subst e
        simp only [if_true] at hx
        cases hx
        exact writeCell_ok (fun t => hc cell t hi) (h _ _ hi)
      · simp only [e, if_false] at hx
        cases hx
        exact h _ _ hi
  | newList a m ts =>
    simp only [Tricorder.exec, State.newList]
    split
    · exact h
    · rename_i hx; exact asSliceValue_ok hx h
  | changeList j a m ts =>
    simp only [Tricorder.exec, State.changeList]
    split
    · exact h
    · split
      · exact h
      · rename_i hx
        split <;> exact asSliceValue_ok hx h
  | setUnit j u => simp only [Tricorder.exec]; split <;> exact h
  | distCall j u => simp only [Tricorder.exec]; split <;> exact h
  | writeVar v d =>
    simp only [Tricorder.exec]
    split
    · split <;> exact h
    · exact h
  | _ => exact h

theorem DistsOk.exec {c : Cmd} (h : DistsOk s) (hc : StepTyped s c) : DistsOk (exec w c s).1 := by
  cases c with
  | newDist pieces nc ts =>
    intro i x hx
    rcases get_append hx with hx | rfl
    · exact h i x hx
    · obtain ⟨l, hl⟩ := hc
      exact ⟨l, (fromEndpoints_length hl).2, fun i => fromEndpoints_get hl i⟩
  | setUnit j u =>
    simp only [Tricorder.exec]
    split
    · exact h
    · rename_i d hd
      intro i x hx
      rcases get_set hx with hx | rfl
      · exact h i x hx
      · have := (call_const d (.setUnit u)).1
        simp only [Dist.call] at this
        rw [this]; exact h _ _ hd
  | distCall j u =>
    simp only [Tricorder.exec]
    split
    · exact h
    · rename_i d hd
      intro i x hx
      rcases get_set hx with hx | rfl
      · exact h i x hx
      · rw [(call_const d u).1]; exact h _ _ hd
  | newList a m ts => simp only [Tricorder.exec, State.newList]; split <;> exact h
  | changeList j a m ts =>
    simp only [Tricorder.exec, State.changeList]
    split
    · exact h
    · split
      · exact h
      · split <;> exact h
  | writeVar v d =>
    simp only [Tricorder.exec]
    split
    · split <;> exact h
    · exact h
  | _ => exact h

theorem history_ok (h : TypedHistory w s) : Grown w s ∧ VarsOk s ∧ SlicesOk s ∧ DistsOk s := by
  induction h with
  | init =>
    refine ⟨.init, ?_, ?_, ?_⟩ <;> intro i x hx <;> simp [State.init] at hx
  | step c _ h1 h2 h3 ih =>
    exact ⟨.step c ih.1 h1 h2, ih.2.1.exec h3, SlicesOk.exec ih.2.2.1 h3, DistsOk.exec ih.2.2.2 h3⟩

/-! ## registration -/

/-- the command makes no variable, slice or distribution -/
def NoData (c : Cmd) : Prop := ∀ s, StepTyped s c

theorem registerDirectory_noData (d : ℕ) (p : List Str) : ProgAll NoData (registerDirectory d p) := by
  induction p generalizing d with
  | nil => trivial
  | cons x p ih =>
    refine ⟨fun _ => trivial, ?_⟩
    intro r
    cases r with
    | error e => trivial
    | ok d' => exact ih d'

theorem newValue_noData (f : ℕ → GoTy) (spec : RegSpec) (region : Option ℕ) (u : MUnit) :
    ProgAll NoData (newValue f spec region u) := by
  unfold newValue newValueForDist
  repeat' split
  all_goals first
    | trivial
    | refine ⟨fun _ => trivial, fun r => ?_⟩
      dsimp only
      repeat' split
      all_goals trivial

theorem registerMetric_noData (f : ℕ → GoTy) (d : ℕ) (path : List Str) (spec : RegSpec) (region : Option ℕ) (u : MUnit)
    (desc : Str) : ProgAll NoData (registerMetric f d path spec region u desc) := by
  unfold registerMetric
  split
  · trivial
  · split
    · refine ProgAll_bind (registerDirectory_noData _ _) fun r => ?_
      split
      · trivial
      · refine ProgAll_bind (newValue_noData _ _ _ _) fun r => ?_
        split
        · trivial
        · trivial
        · refine ⟨fun _ => trivial, fun r => ?_⟩
          dsimp only
          split <;> trivial
    · trivial

theorem history_typed (h : TypedHistory w s) (hw : CallsOk w)
    (hf : ∀ m mv, metricView s.tree m = some mv → FlagKeeps w (· = s) mv.value) : Typed w s := by
  obtain ⟨hg, hv, hs, hd⟩ := history_ok h
  refine ⟨hg, ?_, hd, hs, hf⟩
  intro m mv sc d _ _ hc
  cases sc with
  | var v => exact hv v d hc
  | fn f => exact hw.1 s f d hc
  | flagGet g => exact hw.2 s g d hc
  | flagString g =>
    simp only [Tricorder.Spec.current] at hc
    cases hx : w.flagString s g with
    | none => rw [hx] at hc; cases hc
    | some x => rw [hx] at hc; cases hc; trivial

end Tricorder
