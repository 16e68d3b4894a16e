import Verif.Proof.Lists
import Verif.Proof.PlayI
import Verif.Model.Read
import Verif.Props.Ex
/-!
# Lists

What a reader of list `i` gets in state `σ` is `listView σ i` (`AsSlice`, `GroupId` and `SubType` of
`/repo/go/tricorder/metric.go:712-730`; C11 says that listings report exactly this for some moment).
-/

namespace Tricorder
open Go Spec

variable {α : Type} {w : World}

/-! ## C37 -/

/-- **C37** In any run of any program, among any steps of other goroutines: if step `e` creates list `i` from a slice
or changes it to the values of a slice, and the slice is declared mutable or has `int` or `uint` elements, then at all
later moments up to the next successful `Change` of this list a reader gets the values that the slice had at step
`e`, with the time stamp given there.  The steps in `after` are arbitrary; among them can be writes into this slice and
into any other. -/
theorem C37_isolated {p : Prog α} {s s' : State} {before after : List Ev} {e : Ev} {r : α} {i : ℕ} {cell : Cell}
    {m : Bool} {ts : Time} (hr : RunI w p s (before ++ e :: after) s' r) (he : Sets i e cell m ts)
    (hok : CellOk cell) (hcopy : m = true ∨ Unsized cell) (hno : ∀ e' ∈ after, ¬ ChangesList i e') :
    ∃ lv, Shows lv.val cell ∧ lv.timeStamp = ts ∧ elemType cell.elem = some lv.subType ∧
      ∀ σ ∈ statesOf after s', listView σ i = some lv := by
  obtain ⟨lv, h1, h2, h3, h4⟩ := sets_safe (w := w) he hok hcopy
  obtain ⟨p', hr'⟩ := RunI_after hr rfl
  exact ⟨lv, h2, h3, h4, fun σ hσ => (safe_run hr' h1 hno σ hσ).view⟩

/-- a slice with two elements; after it is declared mutable the application overwrites both -/
def exSlice : Cell := ⟨none, .scalar ⟨none, .float64⟩, some [.float64 (.fin 1), .float64 (.fin 2)], false⟩
def exInts : Cell := ⟨none, .scalar ⟨none, .int .int⟩, some [.int .int 1, .int .int (-2)], false⟩

def exListCmds (m : Bool) (c : Cell) (b : Base) : List Cmd :=
  [.newSlice c, .newList (.slice 2) m ⟨7, 0⟩, .writeSlice 2 0 b, .writeSlice 2 1 b, .writeSlice 0 0 b]

/-- what the list reports after these steps -/
def exListView (m : Bool) (c : Cell) (b : Base) : Option ListView :=
  match playEnv exW (exListCmds m c b) exS with
  | some (_, s) => listView s 1
  | none => none

/-- The hypotheses of C37 are met: the second step sets list 1, then come writes to the slice. -/
example : ∃ before e after s', RunI exW (.ret ()) exS (before ++ e :: after) s' () ∧
    Sets 1 e exSlice true ⟨7, 0⟩ ∧ CellOk exSlice ∧ (∀ e' ∈ after, ¬ ChangesList 1 e') ∧ after.length = 3 ∧
    s'.mem[2]? = some { exSlice with data := some [.float64 (.fin 9), .float64 (.fin 9)] } := by
  refine ⟨[_], _, [_, _, _], _, .env (.newSlice exSlice) trivial (.env (.newList (.slice 2) true ⟨7, 0⟩) trivial
    (.env (.writeSlice 2 0 (.float64 (.fin 9))) trivial (.env (.writeSlice 2 1 (.float64 (.fin 9))) trivial
    (.env (.writeSlice 0 0 (.float64 (.fin 9))) trivial (.ret () _))))), ⟨2, ?_, Or.inl ⟨rfl, ?_⟩⟩, ?_, ?_, rfl, ?_⟩
  · decide +kernel
  · decide +kernel
  · refine ⟨⟨none, .float64⟩, rfl, ?_⟩
    intro xs h b hb
    cases h
    simp only [List.mem_cons, List.not_mem_nil, or_false] at hb
    rcases hb with rfl | rfl
    · exact ⟨rfl, by show Fl.Rep b64 (.fin 1); decide +kernel⟩
    · exact ⟨rfl, by show Fl.Rep b64 (.fin 2); decide +kernel⟩
  · intro e' he'
    rintro ⟨a, m, ts, h, -⟩
    simp only [List.mem_cons, List.not_mem_nil, or_false] at he'
    rcases he' with rfl | rfl | rfl <;> cases h
  · decide +kernel

/-- the list keeps the old values -/
example : exListView true exSlice (.float64 (.fin 9)) =
    some ⟨.slice none ⟨none, .float64⟩ (some [.float64 (.fin 1), .float64 (.fin 2)]), ⟨7, 0⟩, 3, .float64⟩ := by
  decide +kernel

example : exListView false exInts (.int .int 9) =
    some ⟨.slice none ⟨none, .int .int64⟩ (some [.int .int64 1, .int .int64 (-2)]), ⟨7, 0⟩, 3, .int64⟩ := by
  decide +kernel

/-- **C37 (immutable slices)** The copy matters: a slice that was declared immutable and is not `[]int` or `[]uint`
is not copied, and later writes to it show. -/
theorem C37_immutable_shared :
    exListView false exSlice (.float64 (.fin 9)) =
      some ⟨.slice none ⟨none, .float64⟩ (some [.float64 (.fin 9), .float64 (.fin 9)]), ⟨7, 0⟩, 3, .float64⟩ := by
  decide +kernel

/-! ## C38 -/

/-- Examples for all of C38, in the state `exS` with list 0 of type `int64` and the slice 0 of the application:
`Change` to slice 0 works, `Change` to floating point numbers and to something that is not a slice panics. -/
example : (exS.changeList 0 (.slice 0) false ⟨8, 0⟩).2 = true ∧
    ((exec exW (.newSlice exSlice) exS).1.changeList 0 (.slice 2) true ⟨8, 0⟩).2 = false ∧
    (exS.changeList 0 .notSlice true ⟨8, 0⟩).2 = false ∧ (exS.newList .notSlice true ⟨8, 0⟩).2 = none ∧
    ((exec exW (.newSlice exInts) exS).1.changeList 0 (.slice 2) true ⟨8, 0⟩).2 = true := by
  decide +kernel

/-- **C38 (when it panics)** Creating a list panics, and changes nothing, exactly if the argument is not a slice of a
reportable element type. -/
theorem C38_new_panics (s : State) (a : SliceArg) (m : Bool) (ts : Time) :
    (exec w (.newList a m ts) s).2 = none ↔ ∀ t, ¬ ArgType s.mem a t := by
  simp only [exec, State.newList]
  constructor
  · intro h t ht
    obtain ⟨mem', c', h'⟩ := (asSliceValue_isSome s.mem a m t).mp ht
    rw [h'] at h
    cases h
  · intro h
    cases h' : asSliceValue s.mem a m with
    | none => rfl
    | some x => obtain ⟨mem', c', t⟩ := x; exact absurd ((asSliceValue_isSome s.mem a m t).mpr ⟨mem', c', h'⟩) (h t)

/-- **C38 (panic changes nothing)** -/
theorem C38_new_panic_silent (s : State) (a : SliceArg) (m : Bool) (ts : Time)
    (h : (exec w (.newList a m ts) s).2 = none) : (exec w (.newList a m ts) s).1 = s := by
  simp only [exec, State.newList] at h ⊢
  cases h' : asSliceValue s.mem a m with
  | none => rfl
  | some x => rw [h'] at h; cases h

/-- **C38 (element type is fixed)** `Change` panics exactly if the argument is not a slice whose elements are
reported with the type of the list. -/
theorem C38_change_panics {s : State} {i : ℕ} {l : ListObj} (hl : s.lists[i]? = some l) (a : SliceArg) (m : Bool)
    (ts : Time) : (exec w (.changeList i a m ts) s).2 = false ↔ ¬ ArgType s.mem a l.subType := by
  simp only [exec, State.changeList, hl]
  constructor
  · intro h ht
    obtain ⟨mem', c', h'⟩ := (asSliceValue_isSome s.mem a m _).mp ht
    rw [h'] at h
    simp at h
  · intro h
    cases h' : asSliceValue s.mem a m with
    | none => rfl
    | some x =>
      obtain ⟨mem', c', t⟩ := x
      have ht := (asSliceValue_isSome s.mem a m t).mpr ⟨mem', c', h'⟩
      have : t ≠ l.subType := by rintro rfl; exact h ht
      simp only [if_pos this]
      rfl

/-- **C38 (panic changes nothing)** After a `Change` that panics everything is as before, except that a copy nobody
refers to may have been allocated. -/
theorem C38_change_panic_silent (s : State) (i : ℕ) (a : SliceArg) (m : Bool) (ts : Time)
    (h : (exec w (.changeList i a m ts) s).2 = false) :
    ∃ copy, (exec w (.changeList i a m ts) s).1 = { s with mem := s.mem ++ copy } := by
  simp only [exec, State.changeList] at h ⊢
  cases hl : s.lists[i]? with
  | none => exact ⟨[], by simp⟩
  | some l =>
    cases h' : asSliceValue s.mem a m with
    | none => exact ⟨[], by simp⟩
    | some x =>
      obtain ⟨mem', c', t⟩ := x
      obtain ⟨copy, hcopy⟩ := asSliceValue_mem h'
      simp only [hl, h'] at h ⊢
      split at h
      · rename_i hne
        exact ⟨copy, by simp [hne, hcopy]⟩
      · cases h

/-- **C38 (new values)** After a `Change` that does not panic readers get the values of the slice, all of them in
order, with the new time stamp, and the same type and group as before. -/
theorem C38_change {s s' : State} {i c : ℕ} {cell : Cell} {m : Bool} {ts : Time} {l : ListObj}
    (h : exec w (.changeList i (.slice c) m ts) s = (s', true)) (hl : s.lists[i]? = some l)
    (hc : s.mem[c]? = some cell) (hok : CellOk cell) :
    ∃ lv, listView s' i = some lv ∧ Shows lv.val cell ∧ lv.timeStamp = ts ∧ lv.subType = l.subType ∧
      lv.groupId = l.groupId ∧ elemType cell.elem = some l.subType := by
  obtain ⟨l0, mem, c', h0, h1, h2⟩ := changeList_true h
  rw [hl] at h0
  cases h0
  obtain ⟨cell', h3, h4, -⟩ := asSliceValue_shows h1 hc hok
  obtain ⟨c0, cell0, e0, e1, e2, -⟩ := asSliceValue_some h1
  cases e0
  rw [hc] at e1
  cases e1
  have hlt : i < s.lists.length := by
    by_contra hn
    rw [List.getElem?_eq_none (by omega)] at hl
    cases hl
  subst h2
  exact ⟨⟨cell'.val, ts, l.groupId, l.subType⟩, by simp [listView, hlt, h3], h4, rfl, rfl, rfl, e2⟩

/-- **C38 (other lists)** `Change` of one list does not change what the others report. -/
theorem C38_change_others (s : State) {i j : ℕ} (hij : j ≠ i) (a : SliceArg) (m : Bool) (ts : Time) {lv : ListView}
    (hv : listView s j = some lv) :
    listView (exec w (.changeList i a m ts) s).1 j = some lv := by
  unfold listView at hv
  cases hl : s.lists[j]? with
  | none => simp [hl] at hv
  | some l =>
    simp only [hl] at hv
    cases hm : s.mem[l.slice]? with
    | none => simp [hm] at hv
    | some cell =>
      simp only [hm, Option.some.injEq] at hv
      have h1 : (exec w (.changeList i a m ts) s).1.lists[j]? = some l :=
        exec_list hl (by intro a' m' ts' he; cases he; exact absurd rfl hij)
      have h2 : (exec w (.changeList i a m ts) s).1.mem[l.slice]? = some cell := by
        simp only [exec, State.changeList]
        cases s.lists[i]? with
        | none => exact hm
        | some l' =>
          cases h' : asSliceValue s.mem a m with
          | none => exact hm
          | some x =>
            obtain ⟨mem, c, t⟩ := x
            simp only
            split <;> exact prefix_get (asSliceValue_mem h') hm
      rw [listView, h1]
      simp only [h2, hv]

/-- **C38 (type and group)** Whatever happens, the type and the group of a list stay the same. -/
theorem C38_type_fixed {p : Prog α} {s s' : State} {h : List Ev} {r : α} (hr : RunI w p s h s' r) {i : ℕ} {l : ListObj}
    (hl : s.lists[i]? = some l) :
    ∀ σ ∈ statesOf h s', ∃ l', σ.lists[i]? = some l' ∧ l'.subType = l.subType ∧ l'.groupId = l.groupId := by
  have := RunI_inv (P := fun σ => ∃ l', σ.lists[i]? = some l' ∧ l'.subType = l.subType ∧ l'.groupId = l.groupId) hr
    ⟨l, hl, rfl, rfl⟩ (by
      rintro e he ⟨l1, h1, h2, h3⟩
      obtain ⟨l2, h4, h5, h6⟩ := exec_listType (w := w) (c := e.cmd) h1
      exact ⟨l2, h4, h5.trans h2, h6.trans h3⟩)
  intro σ hσ
  rcases List.mem_append.mp hσ with h1 | h1
  · obtain ⟨e, he, rfl⟩ := List.mem_map.mp h1
    exact this.1 e he
  · cases List.mem_singleton.mp h1
    exact this.2

/-- **C38 (never a mixture)** A reader gets what the list reports at one moment: the value, the time stamp, the type
and the group of the message belong together. -/
theorem C38_reader {mv : MetricView} {s s' : State} {h : List Ev} {x : Metric} {i : ℕ} (hi : mv.value.alist = some i)
    (hr : RunI w (listMetric mv) s h s' (.ok x)) :
    ∃ σ ∈ statesOf h s', ∃ lv, listView σ i = some lv ∧ x.value = lv.val ∧ x.timeStamp = .time lv.timeStamp ∧
      x.subType = lv.subType ∧ x.groupId = lv.groupId := by
  simp only [listMetric, hi] at hr
  obtain ⟨h1, s1, h2, rfl, r1, r2⟩ := RunI_op hr
  refine ⟨s1, by simp [statesOf], ?_⟩
  cases hv : (exec w (.getList i) s1).2 with
  | none => rw [hv] at r2; exact absurd (RunI_ret r2).1 (by simp)
  | some lv =>
    rw [hv] at r2
    have := (RunI_ret r2).1
    cases this
    exact ⟨lv, hv, rfl, rfl, rfl, rfl⟩

/-- A reader of the list metric `l` of `exS` while another goroutine changes the list. -/
example : playsTo exW (listMetric ⟨[], [], ⟨none, none, none, some 0, .list, false, .none⟩⟩)
    [[.changeList 0 (.slice 0) true ⟨8, 0⟩]] exS (fun r => match r with
      | .ok x => decide (x.timeStamp = .time ⟨8, 0⟩)
      | .panic => false) = true := by decide +kernel

end Tricorder
