import Verif.Proof.Alias
import Verif.Props.Lists
/-!
# C100: slices that share arrays

`Alias.Run`: runs in which slices are references to arrays (Model/Alias); the other goroutines make slices of slices, append
to slices and write through any of them, between any two steps of the program.
-/

namespace Tricorder
open Go Spec

variable {w : World} {α : Type}

/-! ### the model without arrays does the same -/

theorem alias_execs {cs : List Cmd} (hc : ∀ d ∈ cs, SliceOp d = true) {s : State} (hs : Reachable w s) :
    Reachable w (Alias.execs w cs s) := by
  induction cs generalizing s with
  | nil => exact hs
  | cons c cs ih =>
    refine ih (fun d hd => hc d (List.mem_cons_of_mem _ hd)) (.step c hs ?_)
    have := hc c (List.mem_cons_self ..)
    cases c <;> first | trivial | cases this

/-- **C100 (states)** What is reachable with arrays looks, through the slices, like a reachable state without: the other
properties speak about it. -/
theorem C100_reachable {A : Alias.St} (h : Alias.Reachable w A) : Reachable w A.view := by
  induction h with
  | init => exact .init
  | @step A c hA hok ih =>
    cases c with
    | cmd c =>
      obtain ⟨-, -, cs, h1, h2⟩ := Alias.sim_step (w := w) hA.good c
      exact (show (Alias.act w A (.cmd c)).view = _ from h2) ▸ alias_execs h1 (.step c ih hok)
    | reslice c lo hi mx =>
      obtain ⟨-, cs, h1, h2⟩ := Alias.sim_reslice (w := w) hA.good c lo hi mx
      exact (show (Alias.act w A (.reslice c lo hi mx)).view = _ from h2) ▸ alias_execs h1 ih
    | append c b pad =>
      obtain ⟨-, cs, h1, h2⟩ := Alias.sim_append (w := w) hA.good c b pad
      exact (show (Alias.act w A (.append c b pad)).view = _ from h2) ▸ alias_execs h1 ih

/-- **C100 (runs)** Every run with arrays is a run without, of the same program with the same result: with the same steps
of the library in the same order and in the same states, as they look through the slices; all states of the run with arrays
occur in it, in the same order. -/
theorem C100_runs {p : Prog α} {A A' : Alias.St} {h : List Alias.Ev} {a : α} (hA : Alias.Reachable w A)
    (hr : Alias.Run w p A h A' a) :
    ∃ h', RunI w p A.view h' A'.view a ∧ h'.filter (fun e => !SliceOp e.cmd) = h.filterMap libStep ∧
      ((aliasStates h A').map Alias.St.view).Sublist (statesOf h' A'.view) := by
  obtain ⟨h', h1, h2, h3⟩ := Alias.run_sim hr hA.good
  exact ⟨h', h1, h2, h3⟩

/-! ### lists -/

/-- **C100 (isolation)** If a list is created from or changed to a slice that is declared mutable, or has `int` or `uint`
elements, then at all later moments up to the next successful `Change` of this list a reader gets the values that the slice
had at that step: whatever is written through this slice, through slices of the same array made before or after, or by
appending to any of them. -/
theorem C100_isolated {p : Prog α} {A A' : Alias.St} {before after : List Alias.Ev} {e : Alias.Ev} {r : α} {i : ℕ}
    {cell : Cell} {m : Bool} {ts : Time} (hA : Alias.Reachable w A) (hr : Alias.Run w p A (before ++ e :: after) A' r)
    (he : AliasSets i e cell m ts) (hok : CellOk cell) (hcopy : m = true ∨ Unsized cell)
    (hno : ∀ e' ∈ after, ¬ AliasChanges i e') :
    ∃ lv, Shows lv.val cell ∧ lv.timeStamp = ts ∧ elemType cell.elem = some lv.subType ∧
      ∀ B ∈ aliasStates after A', listView B.view i = some lv := by
  obtain ⟨p', hr', hg⟩ := Alias.Run_from hr hA.good
  obtain ⟨own, act, pre⟩ := e
  simp only at hr' hg
  have hcmd : ∃ c, act = .cmd c ∧ SliceOp c = false := by
    obtain ⟨c, h, -, -, ⟨h1, -⟩ | ⟨h1, -⟩⟩ := he
    · exact ⟨_, h1, rfl⟩
    · exact ⟨_, h1, rfl⟩
  obtain ⟨c, rfl, hc⟩ := hcmd
  have hsets : Sets i ⟨own, c, pre.view⟩ cell m ts := by
    obtain ⟨n, h, h1, rfl, ⟨h2, h3⟩ | ⟨h2, h3⟩⟩ := he
    · cases h2
      refine ⟨n, by simp only at h1; simp [Alias.St.view, h1], .inl ⟨rfl, ?_⟩⟩
      have := (Alias.sim_step (w := w) hg (.newList (.slice n) m ts)).resp
      exact this.symm.trans h3
    · cases h2
      refine ⟨n, by simp only at h1; simp [Alias.St.view, h1], .inr ⟨rfl, ?_⟩⟩
      have := (Alias.sim_step (w := w) hg (.changeList i (.slice n) m ts)).resp
      exact this.symm.trans h3
  obtain ⟨lv, s1, s2, s3, s4⟩ := sets_safe (w := w) hsets hok hcopy
  have hrest : ∃ p'', Alias.Run w p'' (Alias.exec w c pre).1 after A' r := by
    cases hr' with
    | env _ _ h => exact ⟨_, h⟩
    | op h => exact ⟨_, h⟩
  obtain ⟨p'', hrest⟩ := hrest
  obtain ⟨k1, -, cs, k2, k3⟩ := Alias.sim_step (w := w) hg c
  obtain ⟨h', j1, j2, j3⟩ := Alias.run_sim hrest k1
  rw [k3] at j1
  obtain ⟨g, m1, m2⟩ := Alias.RunI_ops cs k2 j1
  have hsafe := safe_run m1 s1 (by
    intro e' he' hch
    obtain ⟨a, m', ts', h1, h2⟩ := hch
    rcases List.mem_append.mp he' with h3 | h3
    · have : e' ∈ g.filter (fun e => !SliceOp e.cmd) := List.mem_filter.mpr ⟨h3, by simp [h1, SliceOp]⟩
      rw [m2] at this
      cases this
    · have : e' ∈ h'.filter (fun e => !SliceOp e.cmd) := List.mem_filter.mpr ⟨h3, by simp [h1, SliceOp]⟩
      rw [j2] at this
      obtain ⟨x, hx, hx'⟩ := List.mem_filterMap.mp this
      obtain ⟨l1, l2, hl⟩ := List.append_of_mem hx
      obtain ⟨-, -, hgx⟩ := Alias.Run_from (hl ▸ hrest) k1
      apply hno x hx
      obtain ⟨xo, xa, xp⟩ := x
      cases xa with
      | reslice => cases hx'
      | append => cases hx'
      | cmd d =>
        simp only [libStep] at hx'
        split at hx'
        · cases hx'
        · cases hx'
          simp only at h1 h2
          subst h1
          have := (Alias.sim_step (w := w) hgx (.changeList i a m' ts')).resp
          exact ⟨a, m', ts', rfl, this.trans h2⟩)
  refine ⟨lv, s2, s3, s4, fun B hB => (hsafe B.view ?_).view⟩
  rw [Alias.statesOf_append]
  exact List.mem_append_right _ (j3.subset (List.mem_map_of_mem hB))

/-- **C100 (the library does not write)** No step of the library changes an array or a slice that there is. -/
theorem C100_untouched (A : Alias.St) {c : Cmd} (hc : SliceOp c = false) :
    A.arrays <+: (Alias.exec w c A).1.arrays ∧ A.heads <+: (Alias.exec w c A).1.heads := by
  have key : ∀ {a m as hs n t}, Alias.asSliceValue A.arrays A.heads a m = some (as, hs, n, t) →
      A.arrays <+: as ∧ A.heads <+: hs := by
    intro a m as hs n t h
    unfold Alias.asSliceValue at h
    split at h
    · cases h
    · split at h
      · cases h
      · split at h
        · cases h
        · cases h
        · split at h
          · simp only [Alias.convertSlice_eq, Option.some.injEq, Prod.mk.injEq] at h
            obtain ⟨rfl, rfl, -⟩ := h
            exact ⟨List.prefix_append .., List.prefix_append ..⟩
          · simp only [Alias.convertSlice_eq, Option.some.injEq, Prod.mk.injEq] at h
            obtain ⟨rfl, rfl, -⟩ := h
            exact ⟨List.prefix_append .., List.prefix_append ..⟩
          · split at h
            · simp only [Alias.copySlice_eq, Option.some.injEq, Prod.mk.injEq] at h
              obtain ⟨rfl, rfl, -⟩ := h
              exact ⟨List.prefix_append .., List.prefix_append ..⟩
            · simp only [Option.some.injEq, Prod.mk.injEq] at h
              obtain ⟨rfl, rfl, -⟩ := h
              exact ⟨List.prefix_rfl, List.prefix_rfl⟩
  cases c
  case newSlice => cases hc
  case writeSlice => cases hc
  case newList a m ts =>
    show A.arrays <+: (A.newList a m ts).1.arrays ∧ A.heads <+: (A.newList a m ts).1.heads
    unfold Alias.St.newList
    split
    · exact ⟨List.prefix_rfl, List.prefix_rfl⟩
    · rename_i h; exact key h
  case changeList i a m ts =>
    show A.arrays <+: (A.changeList i a m ts).1.arrays ∧ A.heads <+: (A.changeList i a m ts).1.heads
    unfold Alias.St.changeList
    split
    · exact ⟨List.prefix_rfl, List.prefix_rfl⟩
    · split
      · exact ⟨List.prefix_rfl, List.prefix_rfl⟩
      · rename_i h
        split
        · exact key h
        · exact key h
  all_goals
    show A.arrays <+: A.arrays ∧ A.heads <+: A.heads
    exact ⟨List.prefix_rfl, List.prefix_rfl⟩

/-- the elements after a write to the array -/
theorem store_elem {as : List (List Base)} {r q : Alias.Ref} {j : ℕ} {b : Base} {n : ℕ} (hn : n < (Alias.elems as q).length) :
    (r.arr = q.arr ∧ r.off + j = q.off + n → (Alias.elems (Alias.store as r j b) q)[n]? = some b) ∧
    (¬ (r.arr = q.arr ∧ r.off + j = q.off + n) →
      (Alias.elems (Alias.store as r j b) q)[n]? = (Alias.elems as q)[n]?) := by
  rw [Alias.elems_store]
  constructor
  · rintro ⟨h1, h2⟩
    rw [if_pos ⟨h1, by omega⟩, List.getElem?_set, if_pos (by omega), if_pos (by omega)]
  · intro h
    split
    · rename_i hc
      rw [List.getElem?_set, if_neg]
      intro he
      exact h ⟨hc.1, by omega⟩
    · rfl

theorem reports_elems {A : Alias.St} {i : ℕ} {q : Alias.Ref} {xs : List Base} (h : AliasReports A i q xs) :
    xs = Alias.elems A.arrays q := by
  obtain ⟨l, n, t, b, h1, h2, h3⟩ := h
  have h4 : listView A.view i = some ⟨.slice n t (some (Alias.elems A.arrays q)), l.timeStamp, l.groupId, l.subType⟩ := by
    simp [listView, Alias.St.view, h1, h2, Cell.val, Alias.Head.cell]
  rw [h3] at h4
  simp only [Option.some.injEq, ListView.mk.injEq, Val.slice.injEq] at h4
  exact h4.1.2.2

/-- **C100 (sharing)** A write through any slice of the application shows in a list exactly at the places where the slice
of the list has the same element of the same array; and so does an append to a slice whose array has room. -/
theorem C100_shared {A : Alias.St} {i c j : ℕ} {q r : Alias.Ref} {xs : List Base} {nm : Option ℕ} {e : GoTy} {b : Base}
    (hx : AliasReports A i q xs) (hc : A.heads[c]? = some ⟨nm, e, false, some r⟩) :
    (j < r.len → ∃ ys, AliasReports (A.write c j b) i q ys ∧ ys.length = xs.length ∧
      ∀ n < xs.length, (SameElem r j q n → ys[n]? = some b) ∧ (¬ SameElem r j q n → ys[n]? = xs[n]?)) ∧
    (r.len < r.cap → ∀ pad, ∃ ys, AliasReports (A.append c b pad) i q ys ∧ ys.length = xs.length ∧
      ∀ n < xs.length, (SameElem r r.len q n → ys[n]? = some b) ∧ (¬ SameElem r r.len q n → ys[n]? = xs[n]?)) := by
  have hxe := reports_elems hx
  subst hxe
  obtain ⟨l, n, t, bb, h1, h2, -⟩ := hx
  have hlen : ∀ j, (Alias.elems (Alias.store A.arrays r j b) q).length = (Alias.elems A.arrays q).length := by
    intro j
    rw [Alias.elems_store]
    split <;> simp
  refine ⟨fun hj => ?_, fun hj pad => ?_⟩
  · have he : A.write c j b = { A with arrays := Alias.store A.arrays r j b } := by simp [Alias.St.write, hc, hj]
    refine ⟨Alias.elems (Alias.store A.arrays r j b) q, ⟨l, n, t, bb, ?_, ?_, ?_⟩, hlen j, fun k hk => store_elem hk⟩
    · rw [he]; exact h1
    · rw [he]; exact h2
    · rw [he]
      simp [listView, Alias.St.view, h1, h2, Cell.val, Alias.Head.cell]
  · have he : A.append c b pad = { A with
        arrays := Alias.store A.arrays r r.len b,
        heads := A.heads ++ [⟨nm, e, false, some { r with len := r.len + 1 }⟩] } := by simp [Alias.St.append, hc, hj]
    have h3 : (A.heads ++ [(⟨nm, e, false, some { r with len := r.len + 1 }⟩ : Alias.Head)])[l.slice]? =
        some ⟨n, .scalar t, bb, some q⟩ := by
      rw [List.getElem?_append_left (List.getElem?_eq_some_iff.mp h2).1]
      exact h2
    refine ⟨Alias.elems (Alias.store A.arrays r r.len b) q, ⟨l, n, t, bb, ?_, ?_, ?_⟩, hlen r.len, fun k hk => store_elem hk⟩
    · rw [he]; exact h1
    · rw [he]; exact h3
    · rw [he]
      simp only [listView, Alias.St.view, h1, List.getElem?_map, h3]
      simp [Cell.val, Alias.Head.cell]

/-- **C100 (ReadMyMetrics)** `ReadMyMetrics` hands out the very slice of the list, also if the list had made a copy: if the
application writes to the `Value` it got, every list with that slice reports what was written. -/
theorem C100_read_false {A : Alias.St} {i j : ℕ} {q : Alias.Ref} {xs : List Base} {b : Base} (hx : AliasReports A i q xs)
    (hj : j < q.len) (hn : j < xs.length) : ∃ ys, AliasReports ((A.obtain i).write A.heads.length j b) i q ys ∧ ys[j]? = some b := by
  have hx0 := hx
  obtain ⟨l, n, t, bb, h1, h2, h3⟩ := hx
  have he : A.obtain i = { A with heads := A.heads ++ [⟨n, .scalar t, false, some q⟩] } := by
    simp [Alias.St.obtain, h1, h2]
  have hr : AliasReports (A.obtain i) i q xs := by
    have h4 : (A.heads ++ [(⟨n, .scalar t, false, some q⟩ : Alias.Head)])[l.slice]? = some ⟨n, .scalar t, bb, some q⟩ := by
      rw [List.getElem?_append_left (List.getElem?_eq_some_iff.mp h2).1]
      exact h2
    refine ⟨l, n, t, bb, by rw [he]; exact h1, by rw [he]; exact h4, ?_⟩
    rw [he, reports_elems hx0]
    simp only [listView, Alias.St.view, h1, List.getElem?_map, h4]
    simp [Cell.val, Alias.Head.cell]
  have hc : (A.obtain i).heads[A.heads.length]? = some ⟨n, .scalar t, false, some q⟩ := by
    rw [he]; simp
  obtain ⟨ys, y1, -, y3⟩ := (C100_shared (j := j) (b := b) hr hc).1 hj
  exact ⟨ys, y1, (y3 j hn).1 ⟨rfl, rfl⟩⟩

/-! ### examples -/

/-- A slice with three numbers; a list made of it; a slice of its first element, to which a number is appended: this
overwrites the second number. -/
def exAliasActs (m : Bool) : List Alias.Act :=
  [.cmd (.newSlice ⟨none, .scalar ⟨none, .float64⟩, some [.float64 (.fin 1), .float64 (.fin 2), .float64 (.fin 3)], false⟩),
    .cmd (.newList (.slice 0) m ⟨7, 0⟩), .reslice 0 0 1 3, .append (if m then 2 else 1) (.float64 (.fin 9)) [],
    .cmd (.writeSlice 0 2 (.float64 (.fin 8)))]

/-- the state after the first `n` of these -/
def exAlias (m : Bool) (n : ℕ) : Alias.St := ((exAliasActs m).take n).foldl (Alias.act exW) Alias.St.init

theorem exAlias_reachable (m : Bool) (n : ℕ) : Alias.Reachable exW (exAlias m n) := by
  have : ∀ (l : List Alias.Act) (A : Alias.St), (∀ a ∈ l, ∀ A, a.Ok A) → Alias.Reachable exW A →
      Alias.Reachable exW (l.foldl (Alias.act exW) A) := by
    intro l
    induction l with
    | nil => intro A _ h; exact h
    | cons a l ih =>
      intro A h1 h2
      exact ih _ (fun a' ha' => h1 a' (List.mem_cons_of_mem _ ha')) (.step a h2 (h1 a (List.mem_cons_self ..) A))
  refine this _ _ (fun a ha A => ?_) .init
  have := List.mem_of_mem_take ha
  simp only [exAliasActs, List.mem_cons, List.not_mem_nil, or_false] at this
  rcases this with rfl | rfl | rfl | rfl | rfl <;> trivial

/-- **C100 (append)** Nobody writes to the slice of the list, and still an append to a part of it changes what the list
reports, if the slice was declared immutable; not if it was declared mutable. -/
theorem C100_append_shows :
    ((listView (exAlias false 4).view 0).map ListView.val =
      some (.slice none ⟨none, .float64⟩ (some [.float64 (.fin 1), .float64 (.fin 9), .float64 (.fin 3)]))) ∧
    ((listView (exAlias true 5).view 0).map ListView.val =
      some (.slice none ⟨none, .float64⟩ (some [.float64 (.fin 1), .float64 (.fin 2), .float64 (.fin 3)]))) := by
  constructor <;> decide +kernel

/-- C100_shared and C100_isolated apply: the list reports the slice 0, and slice 1 has room -/
example : AliasReports (exAlias false 3) 0 ⟨0, 0, 3, 3⟩ [.float64 (.fin 1), .float64 (.fin 2), .float64 (.fin 3)] ∧
    (exAlias false 3).heads[1]? = some ⟨none, .scalar ⟨none, .float64⟩, false, some ⟨0, 0, 1, 3⟩⟩ ∧
    SameElem ⟨0, 0, 1, 3⟩ 1 ⟨0, 0, 3, 3⟩ 1 := by
  refine ⟨⟨⟨1, .float64, 0, ⟨7, 0⟩⟩, none, ⟨none, .float64⟩, false, ?_, ?_, ?_⟩, ?_, rfl, rfl⟩ <;> decide +kernel

/-- a list made from a mutable slice; the application writes to what `ReadMyMetrics` gave -/
example : AliasReports (exAlias true 2) 0 ⟨1, 0, 3, 3⟩ [.float64 (.fin 1), .float64 (.fin 2), .float64 (.fin 3)] ∧
    (listView (((exAlias true 2).obtain 0).write 2 0 (.float64 (.fin 7))).view 0).map ListView.val =
      some (.slice none ⟨none, .float64⟩ (some [.float64 (.fin 7), .float64 (.fin 2), .float64 (.fin 3)])) := by
  refine ⟨⟨⟨1, .float64, 1, ⟨7, 0⟩⟩, none, ⟨none, .float64⟩, true, ?_, ?_, ?_⟩, ?_⟩ <;> decide +kernel

/-- the history of the last three steps -/
def exAliasAfter : List Alias.Ev :=
  [⟨false, .reslice 0 0 1 3, exAlias true 2⟩, ⟨false, .append 2 (.float64 (.fin 9)) [], exAlias true 3⟩,
    ⟨false, .cmd (.writeSlice 0 2 (.float64 (.fin 8))), exAlias true 4⟩]

example : Alias.Run exW (.ret ()) (exAlias true 1)
      ([] ++ ⟨false, .cmd (.newList (.slice 0) true ⟨7, 0⟩), exAlias true 1⟩ :: exAliasAfter) (exAlias true 5) () ∧
    AliasSets 0 ⟨false, .cmd (.newList (.slice 0) true ⟨7, 0⟩), exAlias true 1⟩
      ⟨none, .scalar ⟨none, .float64⟩, some [.float64 (.fin 1), .float64 (.fin 2), .float64 (.fin 3)], false⟩ true ⟨7, 0⟩ ∧
    ∀ e' ∈ exAliasAfter, ¬ AliasChanges 0 e' := by
  refine ⟨?_, ⟨0, ⟨none, .scalar ⟨none, .float64⟩, false, some ⟨0, 0, 3, 3⟩⟩, ?_, ?_, .inl ⟨rfl, ?_⟩⟩, ?_⟩
  · exact .env _ trivial (.env _ trivial (.env _ trivial (.env _ trivial (.ret _ _))))
  · decide +kernel
  · decide +kernel
  · decide +kernel
  · intro e' he'
    rintro ⟨a, m, ts, h, -⟩
    simp only [exAliasAfter, List.mem_cons, List.not_mem_nil, or_false] at he'
    rcases he' with rfl | rfl | rfl <;> cases h

/-! ### the application's slices are those of Go -/

/-- **C100 (reslicing)** `s[lo:hi:mx]` gives a slice of the same type with the elements from `lo` up to `hi` of `s`, and element `k` of
the one is element `lo + k` of the other; slices and elements that exist stay. -/
theorem C100_reslice {A : Alias.St} {c lo hi mx : ℕ} {n : Option ℕ} {e : GoTy} {r : Alias.Ref}
    (hc : A.heads[c]? = some ⟨n, e, false, some r⟩) (h1 : lo ≤ hi) (h2 : hi ≤ r.len) (h3 : hi ≤ mx) (h4 : mx ≤ r.cap) :
    ∃ q, A.reslice c lo hi mx = { A with heads := A.heads ++ [⟨n, e, false, some q⟩] } ∧ q.len = hi - lo ∧ q.cap = mx - lo ∧
      Alias.elems A.arrays q = ((Alias.elems A.arrays r).drop lo).take (hi - lo) ∧ ∀ k, SameElem q k r (lo + k) := by
  refine ⟨⟨r.arr, r.off + lo, hi - lo, mx - lo⟩, ?_, rfl, rfl, ?_, fun k => ⟨rfl, ?_⟩⟩
  · unfold Alias.St.reslice
    rw [hc]
    exact if_pos ⟨h1, h3, h4⟩
  · unfold Alias.elems
    simp only [List.drop_take, List.drop_drop, List.take_take]
    congr 1
    omega
  · show r.off + lo + k = r.off + (lo + k)
    omega

/-- **C100 (append)** `append(s, b)` gives a slice of the same type with the elements of `s`, and `b`.  If `s` has room, the new slice
shares its elements with `s`; otherwise it shares none with any slice there is. -/
theorem C100_append {A : Alias.St} (hA : Alias.Reachable w A) {c : ℕ} {n : Option ℕ} {e : GoTy} {r : Alias.Ref} (b : Base)
    (pad : List Base) (hc : A.heads[c]? = some ⟨n, e, false, some r⟩) :
    ∃ q, (A.append c b pad).heads = A.heads ++ [⟨n, e, false, some q⟩] ∧ (A.append c b pad).rest = A.rest ∧
      Alias.elems (A.append c b pad).arrays q = Alias.elems A.arrays r ++ [b] ∧
      (r.len < r.cap → ∀ k, SameElem q k r k) ∧
      (r.len = r.cap → ∀ h ∈ A.heads, ∀ p, h.ref = some p → ∀ j k, ¬ SameElem q j p k) := by
  have hg := hA.good
  have hb := hg.bounds _ (List.mem_of_getElem? hc) r rfl
  have hlen := Alias.elems_length hb
  obtain ⟨a, a1, a2, a3⟩ := hb
  unfold Alias.St.append
  rw [hc]
  by_cases hroom : r.len < r.cap
  · simp only [hroom, if_true]
    refine ⟨_, rfl, trivial, ?_, fun _ k => ⟨rfl, rfl⟩, fun h => by omega⟩
    unfold Alias.elems Alias.store
    simp only [List.getElem?_modify, a1, Option.map_eq_map, Option.map_some, if_true, Option.getD_some]
    apply List.ext_getElem?
    intro k
    rw [List.getElem?_take, List.getElem?_drop, List.getElem?_set]
    rcases Nat.lt_trichotomy k r.len with hk | hk | hk
    · rw [if_pos (by omega), if_neg (by omega), List.getElem?_append_left (by simp; omega), List.getElem?_take, if_pos hk,
        List.getElem?_drop]
    · subst hk
      rw [if_pos (by omega), if_pos rfl, if_pos (by omega), List.getElem?_append_right (by simp)]
      have : (List.take r.len (List.drop r.off a)).length = r.len := by simp; omega
      rw [this, Nat.sub_self]; rfl
    · rw [if_neg (by omega), eq_comm, List.getElem?_eq_none_iff]
      simp
      omega
  · simp only [hroom, if_false]
    refine ⟨_, rfl, trivial, ?_, fun h => h.elim, fun _ h hh p hp j k hs => ?_⟩
    · unfold Alias.elems at hlen ⊢
      simp only [List.getElem?_append_right (le_refl A.arrays.length), Nat.sub_self, List.getElem?_cons_zero, Option.getD_some,
        List.drop_zero]
      rw [List.append_cons, List.take_append_of_le_length (by simp at hlen ⊢; omega), List.take_of_length_le (by simp)]
    · exact absurd hs.1.symm (Nat.ne_of_lt (hg.bounds h hh p hp).lt)

/-- The hypotheses of both are met: a slice of three numbers without room, and a slice of its first one with room for two more. -/
example : Alias.Reachable exW (exAlias false 3) ∧
    (exAlias false 3).heads[0]? = some ⟨none, .scalar ⟨none, .float64⟩, false, some ⟨0, 0, 3, 3⟩⟩ ∧
    (exAlias false 3).heads[1]? = some ⟨none, .scalar ⟨none, .float64⟩, false, some ⟨0, 0, 1, 3⟩⟩ ∧
    Alias.elems ((exAlias false 3).append 1 (.float64 (.fin 9)) []).arrays ⟨0, 0, 2, 3⟩ = [.float64 (.fin 1), .float64 (.fin 9)] ∧
    Alias.elems ((exAlias false 3).reslice 0 1 3 3).arrays ⟨0, 1, 2, 2⟩ = [.float64 (.fin 2), .float64 (.fin 3)] :=
  ⟨exAlias_reachable _ _, by decide +kernel, by decide +kernel, by decide +kernel, by decide +kernel⟩

end Tricorder
