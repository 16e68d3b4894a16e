import Verif.Spec.Lists
import Verif.Proof.Sys
/-!
# Lists: copies are never written, types never change
-/

namespace Tricorder
open Go Spec

variable {α : Type} {w : World}

theorem elemType_iff (g : GoTy) (t : Ty) : elemType g = some t ↔ getPrimitiveType g = some (t, false) := by
  cases g with
  | timePtr => simp [elemType, getPrimitiveType]
  | other i => simp [elemType, getPrimitiveType]
  | scalar s =>
    obtain ⟨n, b⟩ := s
    cases n <;> cases b <;> try (rename_i k; cases k) <;> simp [elemType, getPrimitiveType, kindType]
    all_goals simp [elemType, getPrimitiveType, kindType]

/-- what `asSliceValue` gives -/
theorem asSliceValue_some {mem : List Cell} {a : SliceArg} {m : Bool} {mem' : List Cell} {c' : ℕ} {t : Ty}
    (h : asSliceValue mem a m = some (mem', c', t)) :
    ∃ c cell, a = .slice c ∧ mem[c]? = some cell ∧ elemType cell.elem = some t ∧
      ((∃ new, mem' = mem ++ [new] ∧ c' = mem.length ∧ new.internal = true ∧
          ((∃ n, cell.elem = .scalar ⟨n, .int .int⟩) ∧
            new = ⟨none, .scalar ⟨none, .int .int64⟩, some ((cell.data.getD []).map (resize .int64)), true⟩ ∨
           (∃ n, cell.elem = .scalar ⟨n, .int .uint⟩) ∧
            new = ⟨none, .scalar ⟨none, .int .uint64⟩, some ((cell.data.getD []).map (resize .uint64)), true⟩ ∨
           ¬ Unsized cell ∧ m = true ∧ new = { cell with data := some (cell.data.getD []), internal := true })) ∨
       (¬ Unsized cell ∧ m = false ∧ mem' = mem ∧ c' = c)) := by
  unfold asSliceValue at h
  cases a with
  | notSlice => cases h
  | slice c =>
    cases hc : mem[c]? with
    | none => simp [hc] at h
    | some cell =>
      refine ⟨c, cell, rfl, hc ▸ rfl, ?_⟩
      simp only [hc] at h
      cases hp : getPrimitiveType cell.elem with
      | none => simp [hp] at h
      | some x =>
        obtain ⟨t0, p⟩ := x
        cases p with
        | true => simp [hp] at h
        | false =>
          simp only [hp] at h
          have ht := (elemType_iff cell.elem t0).mpr hp
          split at h
          · rename_i n he
            simp only [Option.some.injEq, Prod.mk.injEq] at h
            obtain ⟨rfl, rfl, rfl⟩ := h
            exact ⟨ht, Or.inl ⟨_, rfl, rfl, rfl, Or.inl ⟨⟨n, he⟩, rfl⟩⟩⟩
          · rename_i n he
            simp only [Option.some.injEq, Prod.mk.injEq] at h
            obtain ⟨rfl, rfl, rfl⟩ := h
            exact ⟨ht, Or.inl ⟨_, rfl, rfl, rfl, Or.inr (Or.inl ⟨⟨n, he⟩, rfl⟩)⟩⟩
          · rename_i h1 h2
            have hu : ¬ Unsized cell := by
              rintro ⟨n, h | h⟩
              · exact h1 n h
              · exact h2 n h
            split at h <;> simp only [Option.some.injEq, Prod.mk.injEq] at h <;> obtain ⟨rfl, rfl, rfl⟩ := h
            · rename_i hm
              exact ⟨ht, Or.inl ⟨_, rfl, rfl, rfl, Or.inr (Or.inr ⟨hu, hm, rfl⟩)⟩⟩
            · rename_i hm
              exact ⟨ht, Or.inr ⟨hu, by simpa using hm, rfl, rfl⟩⟩

/-- when `asSliceValue` panics -/
theorem asSliceValue_isSome (mem : List Cell) (a : SliceArg) (m : Bool) (t : Ty) :
    ArgType mem a t ↔ ∃ mem' c', asSliceValue mem a m = some (mem', c', t) := by
  constructor
  · rintro ⟨c, cell, rfl, hc, ht⟩
    rw [elemType_iff] at ht
    unfold asSliceValue
    simp only [hc, ht]
    split
    · exact ⟨_, _, rfl⟩
    · exact ⟨_, _, rfl⟩
    · split <;> exact ⟨_, _, rfl⟩
  · rintro ⟨mem', c', h⟩
    obtain ⟨c, cell, h1, h2, h3, -⟩ := asSliceValue_some h
    exact ⟨c, cell, h1, h2, h3⟩

theorem argType_unique {mem : List Cell} {a : SliceArg} {t t' : Ty} (h : ArgType mem a t) (h' : ArgType mem a t') :
    t = t' := by
  obtain ⟨c, cell, h1, h2, h3⟩ := h
  obtain ⟨c', cell', h1', h2', h3'⟩ := h'
  rw [h1] at h1'
  cases h1'
  rw [h2] at h2'
  cases h2'
  rw [h3] at h3'
  exact Option.some.inj h3'

theorem resize_sized {k : IntKind} {b : Base} (hb : b.Valid) :
    (b.ty = .int .int → k = .int64 → resize k b = sized b) ∧ (b.ty = .int .uint → k = .uint64 → resize k b = sized b) := by
  cases b with
  | int k' x =>
    constructor
    · rintro h rfl
      simp only [Base.ty, BaseTy.int.injEq] at h
      subst h
      have : InI64 x := by
        simp [Base.Valid, IntKind.InRange, IntKind.signed, IntKind.bits] at hb
        unfold InI64; omega
      simp [resize, IntKind.signed, i64_eq this, sized]
    · rintro h rfl
      simp only [Base.ty, BaseTy.int.injEq] at h
      subst h
      simp [Base.Valid, IntKind.InRange, IntKind.signed, IntKind.bits] at hb
      have : ((u64 x.toNat : ℕ) : ℤ) = x := by unfold u64; omega
      simp [resize, IntKind.signed, this, sized]
  | _ => constructor <;> (intro h; simp [Base.ty] at h)

theorem sized_of_ty {b : Base} {t : BaseTy} (hb : b.ty = t) (h1 : t ≠ .int .int) (h2 : t ≠ .int .uint) : sized b = b := by
  subst hb
  cases b with
  | int k x => cases k <;> first | rfl | exact absurd rfl h1 | exact absurd rfl h2
  | _ => rfl

theorem map_sized {xs : List Base} {t : BaseTy} (h : ∀ b ∈ xs, b.ty = t) (h1 : t ≠ .int .int) (h2 : t ≠ .int .uint) :
    xs.map sized = xs := by
  conv_rhs => rw [← List.map_id xs]
  exact List.map_congr_left fun b hb => sized_of_ty (h b hb) h1 h2

theorem map_resize {xs : List Base} {k k' : IntKind} (h : ∀ b ∈ xs, b.ty = .int k ∧ b.Valid)
    (hk : k = .int ∧ k' = .int64 ∨ k = .uint ∧ k' = .uint64) : xs.map (resize k') = xs.map sized := by
  refine List.map_congr_left fun b hb => ?_
  obtain ⟨h1, h2⟩ := h b hb
  rcases hk with ⟨rfl, rfl⟩ | ⟨rfl, rfl⟩
  · exact (resize_sized h2).1 h1 rfl
  · exact (resize_sized h2).2 h1 rfl

/-- the copy (or the slice itself) shows the values of the slice -/
theorem asSliceValue_shows {mem : List Cell} {c : ℕ} {cell : Cell} {m : Bool} {mem' : List Cell} {c' : ℕ} {t : Ty}
    (h : asSliceValue mem (.slice c) m = some (mem', c', t)) (hc : mem[c]? = some cell) (hok : CellOk cell) :
    ∃ cell', mem'[c']? = some cell' ∧ Shows cell'.val cell ∧ (m = true ∨ Unsized cell → cell'.internal = true) := by
  obtain ⟨c0, cell0, h1, h2, h3, h4⟩ := asSliceValue_some h
  cases h1
  rw [hc] at h2
  cases h2
  obtain ⟨ty, hty, hel⟩ := hok
  have hel' : ∀ b ∈ cell.data.getD [], b.ty = ty.base ∧ b.Valid := by
    cases hd : cell.data with
    | none => simp
    | some xs => exact hel xs hd
  rcases h4 with ⟨new, hm', hc', hi, h5⟩ | ⟨h5, h6, rfl, rfl⟩
  · refine ⟨new, by rw [hm', hc']; simp, ?_, fun _ => hi⟩
    rcases h5 with ⟨⟨n, he⟩, rfl⟩ | ⟨⟨n, he⟩, rfl⟩ | ⟨hu, -, rfl⟩
    · refine ⟨none, ⟨none, .int .int64⟩, _, rfl, ?_, ?_, ?_, ?_⟩
      · rw [hty] at he; cases he
        exact map_resize hel' (Or.inl ⟨rfl, rfl⟩)
      · exact fun hh => absurd ⟨n, Or.inl he⟩ hh
      · exact fun n' _ => ⟨rfl, rfl⟩
      · intro n' h'; rw [he] at h'; cases h'
    · refine ⟨none, ⟨none, .int .uint64⟩, _, rfl, ?_, ?_, ?_, ?_⟩
      · rw [hty] at he; cases he
        exact map_resize hel' (Or.inr ⟨rfl, rfl⟩)
      · exact fun hh => absurd ⟨n, Or.inr he⟩ hh
      · intro n' h'; rw [he] at h'; cases h'
      · exact fun n' _ => ⟨rfl, rfl⟩
    · refine ⟨cell.sliceNamed, ty, some (cell.data.getD []), ?_, ?_, ?_, ?_, ?_⟩
      · simp [Cell.val, hty]
      · rw [map_sized (fun b hb => (hel' b hb).1)]
        · rfl
        · rintro he; exact hu ⟨ty.named, Or.inl (by rw [hty, ← he])⟩
        · rintro he; exact hu ⟨ty.named, Or.inr (by rw [hty, ← he])⟩
      · exact fun _ => ⟨rfl, hty⟩
      · exact fun n' h' => absurd ⟨n', Or.inl h'⟩ hu
      · exact fun n' h' => absurd ⟨n', Or.inr h'⟩ hu
  · refine ⟨cell, hc, ?_, ?_⟩
    · refine ⟨cell.sliceNamed, ty, cell.data, ?_, ?_, ?_, ?_, ?_⟩
      · simp [Cell.val, hty]
      · rw [map_sized (fun b hb => (hel' b hb).1)]
        · rintro he; exact h5 ⟨ty.named, Or.inl (by rw [hty, ← he])⟩
        · rintro he; exact h5 ⟨ty.named, Or.inr (by rw [hty, ← he])⟩
      · exact fun _ => ⟨rfl, hty⟩
      · exact fun n' h' => absurd ⟨n', Or.inl h'⟩ h5
      · exact fun n' h' => absurd ⟨n', Or.inr h'⟩ h5
    · rintro (h' | h')
      · rw [h6] at h'; cases h'
      · exact absurd h' h5

theorem asSliceValue_mem {mem : List Cell} {a : SliceArg} {m : Bool} {mem' : List Cell} {c' : ℕ} {t : Ty}
    (h : asSliceValue mem a m = some (mem', c', t)) : mem <+: mem' := by
  obtain ⟨c, cell, -, -, -, ⟨new, rfl, -⟩ | ⟨-, -, rfl, -⟩⟩ := asSliceValue_some h
  · exact List.prefix_append _ _
  · exact List.prefix_rfl

theorem prefix_get {A : Type} {l l' : List A} (h : l <+: l') {i : ℕ} {x : A} (hx : l[i]? = some x) : l'[i]? = some x := by
  obtain ⟨t, rfl⟩ := h
  have : i < l.length := by
    by_contra hn
    rw [List.getElem?_eq_none (by omega)] at hx
    cases hx
  rw [List.getElem?_append_left this]
  exact hx

/-- a defensive copy is never written -/
theorem exec_internal {c : Cmd} {s : State} {i : ℕ} {cell : Cell} (h : s.mem[i]? = some cell) (hi : cell.internal = true) :
    (exec w c s).1.mem[i]? = some cell := by
  cases c with
  | newList a m ts =>
    simp only [exec, State.newList]
    cases h' : asSliceValue s.mem a m with
    | none => exact h
    | some x => obtain ⟨mem, c, t⟩ := x; exact prefix_get (asSliceValue_mem h') h
  | changeList j a m ts =>
    simp only [exec, State.changeList]
    cases hl : s.lists[j]? with
    | none => exact h
    | some l =>
      cases h' : asSliceValue s.mem a m with
      | none => exact h
      | some x =>
        obtain ⟨mem, c, t⟩ := x
        simp only
        split <;> exact prefix_get (asSliceValue_mem h') h
  | newSlice c => exact prefix_get (List.prefix_append _ _) h
  | writeSlice c j b =>
    simp only [exec, List.getElem?_modify, h, Option.map_some]
    split
    · simp [writeCell, hi]
    · rfl
  | setUnit j u => simp only [exec]; cases s.dists[j]? <;> exact h
  | distCall j u => simp only [exec]; cases s.dists[j]? <;> exact h
  | writeVar v d =>
    simp only [exec]
    cases s.vars[v]? with
    | none => exact h
    | some d0 => simp only; split <;> exact h
  | _ => exact h

/-- only `Change` of this list changes the list object -/
theorem exec_list {c : Cmd} {s : State} {i : ℕ} {l : ListObj} (h : s.lists[i]? = some l)
    (hno : ∀ a m ts, c = .changeList i a m ts → (s.changeList i a m ts).2 = false) :
    (exec w c s).1.lists[i]? = some l := by
  cases c with
  | newList a m ts =>
    simp only [exec, State.newList]
    cases h' : asSliceValue s.mem a m with
    | none => exact h
    | some x => exact prefix_get (List.prefix_append _ _) h
  | changeList j a m ts =>
    simp only [exec]
    by_cases hj : j = i
    · subst hj
      have := hno a m ts rfl
      unfold State.changeList at this ⊢
      simp only [h] at this ⊢
      cases h' : asSliceValue s.mem a m with
      | none => exact h
      | some x =>
        obtain ⟨mem, c, t⟩ := x
        simp only [h'] at this ⊢
        split
        · exact h
        · rename_i hne
          simp [hne] at this
    · unfold State.changeList
      cases hl : s.lists[j]? with
      | none => exact h
      | some l' =>
        simp only
        cases h' : asSliceValue s.mem a m with
        | none => exact h
        | some x =>
          obtain ⟨mem, c, t⟩ := x
          simp only
          split
          · exact h
          · simp only [List.getElem?_set_ne hj, h]
  | setUnit j u => simp only [exec]; cases s.dists[j]? <;> exact h
  | distCall j u => simp only [exec]; cases s.dists[j]? <;> exact h
  | writeVar v d =>
    simp only [exec]
    cases s.vars[v]? with
    | none => exact h
    | some d0 => simp only; split <;> exact h
  | _ => exact h

/-- list `i` reports `lv` from a defensive copy -/
def Safe (s : State) (i : ℕ) (lv : ListView) : Prop :=
  ∃ l c, s.lists[i]? = some l ∧ s.mem[l.slice]? = some c ∧ c.internal = true ∧ lv = ⟨c.val, l.timeStamp, l.groupId, l.subType⟩

theorem Safe.view {s : State} {i : ℕ} {lv : ListView} (h : Safe s i lv) : listView s i = some lv := by
  obtain ⟨l, c, h1, h2, -, rfl⟩ := h
  simp [listView, h1, h2]

theorem safe_run {p : Prog α} {s s' : State} {h : List Ev} {r : α} (hr : RunI w p s h s' r) {i : ℕ} {lv : ListView}
    (hs : Safe s i lv) (hno : ∀ e ∈ h, ¬ ChangesList i e) : ∀ σ ∈ statesOf h s', Safe σ i lv := by
  have := RunI_inv (P := fun σ => Safe σ i lv) hr hs (by
    rintro e he ⟨l, c, h1, h2, h3, h4⟩
    refine ⟨l, c, exec_list h1 ?_, exec_internal h2 h3, h3, h4⟩
    intro a m ts hc
    cases hb : (e.pre.changeList i a m ts).2 with
    | false => rfl
    | true => exact absurd ⟨a, m, ts, hc, hb⟩ (hno e he))
  intro σ hσ
  rcases List.mem_append.mp hσ with h1 | h1
  · obtain ⟨e, he, rfl⟩ := List.mem_map.mp h1
    exact this.1 e he
  · cases List.mem_singleton.mp h1
    exact this.2

/-- a successful `NewList` -/
theorem newList_some {s s1 : State} {a : SliceArg} {m : Bool} {ts : Time} {i : ℕ} (h : s.newList a m ts = (s1, some i)) :
    ∃ mem c t, asSliceValue s.mem a m = some (mem, c, t) ∧ i = s.lists.length ∧
      s1 = { s with mem := mem, lists := s.lists ++ [⟨s.nextId, t, c, ts⟩], nextId := s.nextId + 1 } := by
  unfold State.newList at h
  cases h' : asSliceValue s.mem a m with
  | none => simp [h'] at h
  | some x =>
    obtain ⟨mem, c, t⟩ := x
    simp only [h', Prod.mk.injEq, Option.some.injEq] at h
    exact ⟨mem, c, t, rfl, h.2.symm, h.1.symm⟩

/-- a successful `Change` -/
theorem changeList_true {s s1 : State} {a : SliceArg} {m : Bool} {ts : Time} {i : ℕ}
    (h : s.changeList i a m ts = (s1, true)) :
    ∃ l mem c, s.lists[i]? = some l ∧ asSliceValue s.mem a m = some (mem, c, l.subType) ∧
      s1 = { s with mem := mem, lists := s.lists.set i { l with slice := c, timeStamp := ts } } := by
  unfold State.changeList at h
  cases hl : s.lists[i]? with
  | none => simp [hl] at h
  | some l =>
    simp only [hl] at h
    cases h' : asSliceValue s.mem a m with
    | none => simp [h'] at h
    | some x =>
      obtain ⟨mem, c, t⟩ := x
      simp only [h'] at h
      split at h
      · simp at h
      · rename_i hne
        simp only [Prod.mk.injEq] at h
        have : t = l.subType := by simpa using hne
        subst this
        exact ⟨l, mem, c, rfl, rfl, h.1.symm⟩

theorem newList_safe {s s1 : State} {c : ℕ} {cell : Cell} {m : Bool} {ts : Time} {i : ℕ}
    (h : s.newList (.slice c) m ts = (s1, some i)) (hc : s.mem[c]? = some cell) (hok : CellOk cell)
    (hcopy : m = true ∨ Unsized cell) :
    ∃ lv, Safe s1 i lv ∧ Shows lv.val cell ∧ lv.timeStamp = ts ∧ elemType cell.elem = some lv.subType := by
  obtain ⟨mem, c', t, h1, rfl, rfl⟩ := newList_some h
  obtain ⟨cell', h2, h3, h4⟩ := asSliceValue_shows h1 hc hok
  obtain ⟨c0, cell0, e0, e1, e2, -⟩ := asSliceValue_some h1
  cases e0
  rw [hc] at e1
  cases e1
  exact ⟨_, ⟨⟨s.nextId, t, c', ts⟩, cell', by simp, h2, h4 hcopy, rfl⟩, h3, rfl, e2⟩

theorem changeList_safe {s s1 : State} {c : ℕ} {cell : Cell} {m : Bool} {ts : Time} {i : ℕ}
    (h : s.changeList i (.slice c) m ts = (s1, true)) (hc : s.mem[c]? = some cell) (hok : CellOk cell)
    (hcopy : m = true ∨ Unsized cell) :
    ∃ lv, Safe s1 i lv ∧ Shows lv.val cell ∧ lv.timeStamp = ts ∧ elemType cell.elem = some lv.subType := by
  obtain ⟨l, mem, c', h0, h1, rfl⟩ := changeList_true h
  obtain ⟨cell', h2, h3, h4⟩ := asSliceValue_shows h1 hc hok
  obtain ⟨c0, cell0, e0, e1, e2, -⟩ := asSliceValue_some h1
  cases e0
  rw [hc] at e1
  cases e1
  have hlt : i < s.lists.length := by
    by_contra hn
    rw [List.getElem?_eq_none (by omega)] at h0
    cases h0
  exact ⟨_, ⟨{ l with slice := c', timeStamp := ts }, cell', by simp [hlt], h2, h4 hcopy, rfl⟩, h3, rfl, e2⟩

/-- type and group of a list never change -/
theorem exec_listType {c : Cmd} {s : State} {i : ℕ} {l : ListObj} (h : s.lists[i]? = some l) :
    ∃ l', (exec w c s).1.lists[i]? = some l' ∧ l'.subType = l.subType ∧ l'.groupId = l.groupId := by
  by_cases hch : ∃ a m ts, c = .changeList i a m ts ∧ (s.changeList i a m ts).2 = true
  · obtain ⟨a, m, ts, rfl, hb⟩ := hch
    obtain ⟨l0, mem, c, h0, -, h2⟩ := changeList_true (s1 := (s.changeList i a m ts).1) (by rw [← hb])
    rw [h] at h0
    cases h0
    have hlt : i < s.lists.length := by
      by_contra hn
      rw [List.getElem?_eq_none (by omega)] at h
      cases h
    refine ⟨{ l with slice := c, timeStamp := ts }, ?_, rfl, rfl⟩
    change (s.changeList i a m ts).1.lists[i]? = _
    rw [h2]
    simp [hlt]
  · refine ⟨l, exec_list h ?_, rfl, rfl⟩
    intro a m ts hc
    cases hb : (s.changeList i a m ts).2 with
    | false => rfl
    | true => exact absurd ⟨a, m, ts, hc, hb⟩ hch

/-- the rest of a run after a step is a run -/
theorem RunI_after {p : Prog α} {s s' : State} {h : List Ev} {r : α} (hr : RunI w p s h s' r) {h1 : List Ev} {e : Ev}
    {h2 : List Ev} (hh : h = h1 ++ e :: h2) : ∃ p' : Prog α, RunI w p' (exec w e.cmd e.pre).1 h2 s' r := by
  induction hr generalizing h1 with
  | ret => simp at hh
  | @env p s h s' a c hc hr ih =>
    cases h1 with
    | nil => simp only [List.nil_append, List.cons.injEq] at hh; obtain ⟨rfl, rfl⟩ := hh; exact ⟨p, hr⟩
    | cons x h1 => simp only [List.cons_append, List.cons.injEq] at hh; exact ih hh.2
  | @op c k s h s' a hr ih =>
    cases h1 with
    | nil => simp only [List.nil_append, List.cons.injEq] at hh; obtain ⟨rfl, rfl⟩ := hh; exact ⟨_, hr⟩
    | cons x h1 => simp only [List.cons_append, List.cons.injEq] at hh; exact ih hh.2

theorem sets_safe {i : ℕ} {e : Ev} {cell : Cell} {m : Bool} {ts : Time} (h : Sets i e cell m ts) (hok : CellOk cell)
    (hcopy : m = true ∨ Unsized cell) :
    ∃ lv, Safe (exec w e.cmd e.pre).1 i lv ∧ Shows lv.val cell ∧ lv.timeStamp = ts ∧
      elemType cell.elem = some lv.subType := by
  obtain ⟨own, cmd, s⟩ := e
  obtain ⟨c, hc, ⟨rfl, h2⟩ | ⟨rfl, h2⟩⟩ := h
  · exact newList_safe (by rw [← h2]; rfl) hc hok hcopy
  · exact changeList_safe (by rw [← h2]; rfl) hc hok hcopy

end Tricorder
