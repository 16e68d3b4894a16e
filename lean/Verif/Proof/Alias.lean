import Verif.Spec.Alias
import Verif.Proof.Lists
/-!
# Slices that share arrays: the model without arrays can do the same
-/

namespace Tricorder.Alias
open Go Spec

variable {w : World} {α : Type}

/-! ### copies -/

theorem store_last (as : List (List Base)) (a : List Base) (n c i : ℕ) (b : Base) :
    store (as ++ [a]) ⟨as.length, 0, n, c⟩ i b = as ++ [a.set i b] := by
  unfold store
  rw [List.modify_eq_set_getElem?]
  simp

theorem fill_loop (as : List (List Base)) (xs : List Base) (f : Base → Base) (z : Base) (n c : ℕ) :
    ∀ m, m ≤ xs.length →
      (List.range m).foldl (fun as' i => match xs[i]? with
        | some x => store as' ⟨as.length, 0, n, c⟩ i (f x)
        | none => as') (as ++ [List.replicate xs.length z]) =
      as ++ [(xs.take m).map f ++ List.replicate (xs.length - m) z]
  | 0, _ => by simp
  | m + 1, hm => by
    rw [List.range_succ, List.foldl_append, fill_loop as xs f z n c m (by omega)]
    have hx : xs[m]? = some (xs[m]'(by omega)) := List.getElem?_eq_getElem (by omega)
    simp only [List.foldl_cons, List.foldl_nil, hx]
    rw [store_last]
    congr 2
    have h1 : xs.length - m = (xs.length - (m + 1)) + 1 := by omega
    rw [h1, List.replicate_succ, List.set_append_right _ _ (by simp)]
    have h2 : m - ((xs.take m).map f).length = 0 := by simp; omega
    rw [h2, List.set_cons_zero, List.take_succ, hx]
    simp only [Option.toList_some, List.map_append, List.map_cons, List.map_nil, List.append_assoc, List.cons_append,
      List.nil_append]

theorem fill (as : List (List Base)) (xs : List Base) (f : Base → Base) (z : Base) (n c : ℕ) :
    (List.range xs.length).foldl (fun as' i => match xs[i]? with
        | some x => store as' ⟨as.length, 0, n, c⟩ i (f x)
        | none => as') (as ++ [List.replicate xs.length z]) = as ++ [xs.map f] := by
  rw [fill_loop as xs f z n c xs.length le_rfl]
  simp

theorem copySlice_eq (z : Base) (as : List (List Base)) (r : Option Ref) :
    copySlice z as r = (as ++ [(r.map (elems as)).getD []], fresh as ((r.map (elems as)).getD [])) := by
  unfold copySlice
  have := fill as ((r.map (elems as)).getD []) id z
  simp only [id, List.map_id] at this
  simp only [fresh, List.length_replicate]
  exact Prod.ext (this _ _) rfl

theorem convertSlice_eq (k : IntKind) (as : List (List Base)) (r : Option Ref) :
    convertSlice k as r = (as ++ [((r.map (elems as)).getD []).map (resize k)],
      fresh as (((r.map (elems as)).getD []).map (resize k))) := by
  unfold convertSlice
  have := fill as ((r.map (elems as)).getD []) (resize k) (.int k 0)
  simp only [fresh, List.length_replicate, List.length_map]
  exact Prod.ext (this _ _) rfl

/-! ### what holds in every reachable state -/

/-- the reference is to an existing part of an array -/
def InBounds (as : List (List Base)) (r : Ref) : Prop :=
  ∃ a, as[r.arr]? = some a ∧ r.len ≤ r.cap ∧ r.off + r.cap ≤ a.length

/-- references are to existing arrays; the array of a slice of the library belongs to no other slice -/
structure Good (as : List (List Base)) (hs : List Head) : Prop where
  bounds : ∀ h ∈ hs, ∀ r, h.ref = some r → InBounds as r
  apart : ∀ (i j : ℕ) (h g : Head) (r q : Ref), hs[i]? = some h → hs[j]? = some g → i ≠ j → h.internal = true → h.ref = some r →
    g.ref = some q → r.arr ≠ q.arr

theorem InBounds.lt {as : List (List Base)} {r : Ref} (h : InBounds as r) : r.arr < as.length := by
  obtain ⟨a, h, -⟩ := h
  exact (List.getElem?_eq_some_iff.mp h).1

theorem InBounds.append {as : List (List Base)} {r : Ref} (h : InBounds as r) (l : List (List Base)) :
    InBounds (as ++ l) r := by
  obtain ⟨a, h1, h2⟩ := h
  exact ⟨a, by rw [List.getElem?_append_left (List.getElem?_eq_some_iff.mp h1).1]; exact h1, h2⟩

theorem InBounds.store {as : List (List Base)} {r : Ref} (h : InBounds as r) (q : Ref) (j : ℕ) (b : Base) :
    InBounds (store as q j b) r := by
  obtain ⟨a, h1, h2⟩ := h
  unfold Alias.store InBounds
  rw [List.getElem?_modify, h1]
  by_cases he : q.arr = r.arr
  · exact ⟨a.set (q.off + j) b, by simp [he], by simpa using h2⟩
  · exact ⟨a, by simp [he], h2⟩

theorem elems_append {as : List (List Base)} {r : Ref} (h : InBounds as r) (l : List (List Base)) :
    elems (as ++ l) r = elems as r := by
  unfold elems
  rw [List.getElem?_append_left h.lt]

theorem elems_fresh (as : List (List Base)) (xs : List Base) : elems (as ++ [xs]) (fresh as xs) = xs := by
  simp [elems, fresh]

theorem InBounds.fresh (as : List (List Base)) (xs : List Base) : InBounds (as ++ [xs]) (fresh as xs) :=
  ⟨xs, by simp [Alias.fresh], by simp [Alias.fresh], by simp [Alias.fresh]⟩

theorem elems_length {as : List (List Base)} {r : Ref} (h : InBounds as r) : (elems as r).length = r.len := by
  obtain ⟨a, h1, h2, h3⟩ := h
  simp only [elems, h1, Option.getD_some, List.length_take, List.length_drop]
  omega

/-- what a write does to the elements of any slice -/
theorem elems_store {as : List (List Base)} (q r : Ref) (j : ℕ) (b : Base) :
    elems (store as q j b) r =
      if q.arr = r.arr ∧ r.off ≤ q.off + j then (elems as r).set (q.off + j - r.off) b else elems as r := by
  unfold elems store
  rw [List.getElem?_modify]
  by_cases he : q.arr = r.arr
  · cases ha : as[r.arr]? with
    | none => simp
    | some a =>
      simp only [he, if_true, Option.map_eq_map, Option.map_some, Option.getD_some, true_and]
      split
      · rename_i hle
        rw [List.drop_set, if_neg (by omega), List.take_set]
      · rename_i hle
        rw [List.drop_set, if_pos (by omega)]
  · simp [he]

theorem Good.snoc {as : List (List Base)} {hs : List Head} (g : Good as hs) (h : Head)
    (h1 : ∀ r, h.ref = some r → InBounds as r)
    (h2 : ∀ f ∈ hs, ∀ r q, f.ref = some r → h.ref = some q → (f.internal = true ∨ h.internal = true) → r.arr ≠ q.arr) :
    Good as (hs ++ [h]) := by
  constructor
  · intro f hf r hr
    rcases List.mem_append.mp hf with hf | hf
    · exact g.bounds f hf r hr
    · cases List.mem_singleton.mp hf
      exact h1 r hr
  · intro i j f f' r q hi hj hij hin hr hq
    rcases Nat.lt_trichotomy i hs.length with hl | hl | hl
    · rw [List.getElem?_append_left hl] at hi
      rcases Nat.lt_trichotomy j hs.length with hm | hm | hm
      · rw [List.getElem?_append_left hm] at hj
        exact g.apart i j f f' r q hi hj hij hin hr hq
      · subst hm
        simp at hj
        subst hj
        exact h2 f (List.mem_of_getElem? hi) r q hr hq (.inl hin)
      · rw [List.getElem?_eq_none (by simp; omega)] at hj
        cases hj
    · subst hl
      simp at hi
      subst hi
      rcases Nat.lt_trichotomy j hs.length with hm | hm | hm
      · rw [List.getElem?_append_left hm] at hj
        exact (h2 f' (List.mem_of_getElem? hj) q r hq hr (.inr hin)).symm
      · exact absurd hm.symm hij
      · rw [List.getElem?_eq_none (by simp; omega)] at hj
        cases hj
    · rw [List.getElem?_eq_none (by simp; omega)] at hi
      cases hi

theorem Good.grow {as : List (List Base)} {hs : List Head} (g : Good as hs) (l : List (List Base)) : Good (as ++ l) hs :=
  ⟨fun h hh r hr => (g.bounds h hh r hr).append l, g.apart⟩

theorem Good.write {as : List (List Base)} {hs : List Head} (g : Good as hs) (q : Ref) (j : ℕ) (b : Base) :
    Good (store as q j b) hs :=
  ⟨fun h hh r hr => (g.bounds h hh r hr).store q j b, g.apart⟩

/-- a slice of a new array -/
theorem Good.snoc_fresh {as : List (List Base)} {hs : List Head} (g : Good as hs) (h : Head) (xs : List Base) (r : Ref)
    (hr : h.ref = some r) (ha : r.arr = as.length) (hb : InBounds (as ++ [xs]) r) : Good (as ++ [xs]) (hs ++ [h]) := by
  refine (g.grow [xs]).snoc h ?_ ?_
  · intro r' hr'
    rw [hr] at hr'
    cases hr'
    exact hb
  · intro f hf r' q hr' hq _
    rw [hr] at hq
    cases hq
    have := (g.bounds f hf r' hr').lt
    omega

theorem cells_append {as : List (List Base)} {hs : List Head} (g : Good as hs) (l : List (List Base)) :
    hs.map (Head.cell (as ++ l)) = hs.map (Head.cell as) := by
  apply List.map_congr_left
  intro h hh
  unfold Head.cell
  cases hr : h.ref with
  | none => rfl
  | some r => simp [elems_append (g.bounds h hh r hr) l]

/-! ### `asSliceValue` -/

/-- the result as it looks through the slices -/
def seen (x : List (List Base) × List Head × ℕ × Ty) : List Cell × ℕ × Ty := (x.2.1.map (Head.cell x.1), x.2.2)

theorem asSliceValue_seen {as : List (List Base)} {hs : List Head} (g : Good as hs) (arg : SliceArg) (m : Bool) :
    Tricorder.asSliceValue (hs.map (Head.cell as)) arg m = (asSliceValue as hs arg m).map seen := by
  unfold Tricorder.asSliceValue asSliceValue
  cases arg with
  | notSlice => rfl
  | slice c =>
    simp only [List.getElem?_map]
    cases hc : hs[c]? with
    | none => rfl
    | some h =>
      simp only [Option.map_some]
      have he : (h.cell as).elem = h.elem := rfl
      rw [he]
      cases hp : getPrimitiveType h.elem with
      | none => rfl
      | some x =>
        obtain ⟨t, p⟩ := x
        cases p with
        | true => rfl
        | false =>
          obtain ⟨n, e, b, r⟩ := h
          simp only
          split
          · simp [seen, convertSlice_eq, cells_append g, Head.cell, elems_fresh]
          · simp [seen, convertSlice_eq, cells_append g, Head.cell, elems_fresh]
          · rename_i h1 h2
            cases m <;> simp [seen, copySlice_eq, cells_append g, Head.cell, elems_fresh]

theorem asSliceValue_good {as as' : List (List Base)} {hs hs' : List Head} (g : Good as hs) {arg : SliceArg} {m : Bool}
    {c : ℕ} {t : Ty} (h : asSliceValue as hs arg m = some (as', hs', c, t)) : Good as' hs' := by
  unfold asSliceValue at h
  split at h
  · cases h
  · split at h
    · cases h
    · rename_i hd hc
      split at h
      · cases h
      · cases h
      · split at h
        · simp only [convertSlice_eq, Option.some.injEq, Prod.mk.injEq] at h
          obtain ⟨rfl, rfl, rfl, rfl⟩ := h
          exact g.snoc_fresh _ _ _ rfl rfl (InBounds.fresh _ _)
        · simp only [convertSlice_eq, Option.some.injEq, Prod.mk.injEq] at h
          obtain ⟨rfl, rfl, rfl, rfl⟩ := h
          exact g.snoc_fresh _ _ _ rfl rfl (InBounds.fresh _ _)
        · split at h
          · simp only [copySlice_eq, Option.some.injEq, Prod.mk.injEq] at h
            obtain ⟨rfl, rfl, rfl, rfl⟩ := h
            exact g.snoc_fresh _ _ _ rfl rfl (InBounds.fresh _ _)
          · simp only [Option.some.injEq, Prod.mk.injEq] at h
            obtain ⟨rfl, rfl, rfl, rfl⟩ := h
            exact g

/-! ### writes through one slice show in others -/

/-- the write to slice `c` of the application, if it has the element -/
def writeOne (hs : List Head) (r : Ref) (j : ℕ) (b : Base) (c : ℕ) : Option Cmd :=
  match (hs[c]? : Option Head) with
  | some ⟨_, _, false, some q⟩ =>
    if r.arr = q.arr ∧ q.off ≤ r.off + j then some (.writeSlice c (r.off + j - q.off) b) else none
  | _ => none

/-- the steps one after another -/
def execs (w : World) (cs : List Cmd) (s : State) : State := cs.foldl (fun s c => (Tricorder.exec w c s).1) s

theorem execs_append (cs ds : List Cmd) (s : State) : execs w (cs ++ ds) s = execs w ds (execs w cs s) := by
  simp [execs]

/-- some slices show the write already, the first `k` of them certainly -/
structure Partly (as : List (List Base)) (hs : List Head) (r : Ref) (j : ℕ) (b : Base) (s σ : State) (k : ℕ) : Prop where
  rest : σ = { s with mem := σ.mem }
  len : σ.mem.length = hs.length
  done : ∀ (i : ℕ) (h : Head), hs[i]? = some h → i < k → σ.mem[i]? = some (h.cell (store as r j b))
  all : ∀ (i : ℕ) (h : Head), hs[i]? = some h →
    σ.mem[i]? = some (h.cell as) ∨ σ.mem[i]? = some (h.cell (store as r j b))

/-- what `writeOne` does to its slice -/
theorem writeOne_some {as : List (List Base)} {hs : List Head} {r : Ref} {j : ℕ} {b : Base} {k : ℕ} {h : Head} {c : Cmd}
    (hk : hs[k]? = some h) (hc : writeOne hs r j b k = some c) : ∃ n, c = .writeSlice k n b ∧
      writeCell (h.cell as) n b = h.cell (store as r j b) ∧
      writeCell (h.cell (store as r j b)) n b = h.cell (store as r j b) := by
  unfold writeOne at hc
  rw [hk] at hc
  obtain ⟨n, e, i, q⟩ := h
  cases i with
  | true => cases hc
  | false =>
    cases q with
    | none => cases hc
    | some q =>
      simp only at hc
      split at hc
      · rename_i hcond
        cases hc
        refine ⟨_, rfl, ?_, ?_⟩
        · simp [writeCell, Head.cell, elems_store, hcond]
        · simp [writeCell, Head.cell, elems_store, hcond]
      · cases hc

theorem writeOne_none {as : List (List Base)} {hs : List Head} {r : Ref} {j : ℕ} {b : Base} {k : ℕ} {h : Head}
    (hap : h.internal = true → ∀ q, h.ref = some q → q.arr ≠ r.arr) (hk : hs[k]? = some h)
    (hc : writeOne hs r j b k = none) : h.cell (store as r j b) = h.cell as := by
  unfold writeOne at hc
  rw [hk] at hc
  obtain ⟨n, e, i, q⟩ := h
  cases q with
  | none => rfl
  | some q =>
    cases i with
    | true => simp [Head.cell, elems_store, (hap rfl q rfl).symm]
    | false =>
      simp only at hc
      split at hc
      · cases hc
      · rename_i hcond
        simp [Head.cell, elems_store, hcond]

theorem partly_step {as : List (List Base)} {hs : List Head} {r : Ref} {j : ℕ} {b : Base} {s σ : State} {k : ℕ}
    (hap : ∀ h ∈ hs, h.internal = true → ∀ q, h.ref = some q → q.arr ≠ r.arr) (hk : k < hs.length)
    (hp : Partly as hs r j b s σ k) : Partly as hs r j b s (execs w (writeOne hs r j b k).toList σ) (k + 1) := by
  have hh : hs[k]? = some hs[k] := List.getElem?_eq_getElem hk
  cases hc : writeOne hs r j b k with
  | none =>
    have he := writeOne_none (as := as) (hap _ (List.mem_of_getElem? hh)) hh hc
    refine ⟨hp.rest, hp.len, fun i h hi hlt => ?_, hp.all⟩
    rcases Nat.lt_succ_iff_lt_or_eq.mp hlt with h1 | rfl
    · exact hp.done i h hi h1
    · rw [hh] at hi
      cases hi
      rcases hp.all i _ hh with h1 | h1
      · exact h1.trans (congrArg some he.symm)
      · exact h1
  | some c =>
    obtain ⟨n, rfl, h1, h2⟩ := writeOne_some (as := as) hh hc
    have hex : execs w (some (Cmd.writeSlice k n b)).toList σ = { σ with mem := σ.mem.modify k fun x => writeCell x n b } := rfl
    rw [hex]
    have hkk : (σ.mem.modify k fun x => writeCell x n b)[k]? = some (hs[k].cell (store as r j b)) := by
      rw [List.getElem?_modify]
      rcases hp.all k _ hh with h3 | h3
      · rw [h3]; simp [h1]
      · rw [h3]; simp [h2]
    refine ⟨?_, by simp [hp.len], fun i h hi hlt => ?_, fun i h hi => ?_⟩
    · conv_lhs => rw [hp.rest]
    · by_cases hik : i = k
      · subst hik
        rw [hh] at hi
        cases hi
        exact hkk
      · simp only
        rw [List.getElem?_modify]
        have := hp.done i h hi (by omega)
        simp [this, Ne.symm hik]
    · by_cases hik : i = k
      · subst hik
        rw [hh] at hi
        cases hi
        exact .inr hkk
      · simp only
        rw [List.getElem?_modify]
        rcases hp.all i h hi with h3 | h3
        · left; simp [h3, Ne.symm hik]
        · right; simp [h3, Ne.symm hik]

/-- the writes to all slices that have the element -/
def writes (hs : List Head) (r : Ref) (j : ℕ) (b : Base) : List Cmd := (List.range hs.length).filterMap (writeOne hs r j b)

theorem partly_all {as : List (List Base)} {hs : List Head} {r : Ref} {j : ℕ} {b : Base} {s σ : State}
    (hap : ∀ h ∈ hs, h.internal = true → ∀ q, h.ref = some q → q.arr ≠ r.arr) (hp : Partly as hs r j b s σ 0) :
    execs w (writes hs r j b) σ = { s with mem := hs.map (Head.cell (store as r j b)) } := by
  have key : ∀ k, k ≤ hs.length → Partly as hs r j b s (execs w ((List.range k).filterMap (writeOne hs r j b)) σ) k := by
    intro k
    induction k with
    | zero => intro _; exact hp
    | succ k ih =>
      intro hk
      have := partly_step (w := w) hap (by omega) (ih (by omega))
      rw [List.range_succ, List.filterMap_append, execs_append]
      have h1 : List.filterMap (writeOne hs r j b) [k] = (writeOne hs r j b k).toList := by
        cases h : writeOne hs r j b k <;> simp [h]
      rw [h1]
      exact this
  have hf := key hs.length le_rfl
  unfold writes
  rw [hf.rest]
  congr 1
  apply List.ext_getElem?
  intro i
  rw [List.getElem?_map]
  cases hi : hs[i]? with
  | none =>
    rw [List.getElem?_eq_none_iff] at hi
    simp [hf.len, hi]
  | some h => exact hf.done i h hi (List.getElem?_eq_some_iff.mp hi).1

/-- slices as they are -/
theorem partly_view (as : List (List Base)) (hs : List Head) (r : Ref) (j : ℕ) (b : Base) (s : State) :
    Partly as hs r j b s { s with mem := hs.map (Head.cell as) } 0 := by
  refine ⟨rfl, by simp, fun _ _ _ h => absurd h (by omega), fun i h hi => .inl ?_⟩
  simp [hi]

theorem Good.not_internal {as : List (List Base)} {hs : List Head} (g : Good as hs) {c : ℕ} {n : Option ℕ} {e : GoTy} {r : Ref}
    (hc : hs[c]? = some ⟨n, e, false, some r⟩) : ∀ h ∈ hs, h.internal = true → ∀ q, h.ref = some q → q.arr ≠ r.arr := by
  intro h hh hi q hq
  obtain ⟨i, hlt, rfl⟩ := List.getElem_of_mem hh
  have hi' := List.getElem?_eq_getElem hlt
  refine g.apart i c _ _ q r hi' hc ?_ hi hq rfl
  rintro rfl
  rw [hi'] at hc
  cases Option.some.inj hc ▸ hi

/-! ### steps -/

/-- the step `c` here and there: same result; and the states look the same after some steps of the application with
slices there -/
structure StepSim (w : World) (c : Cmd) (A : St) : Prop where
  good : Good (exec w c A).1.arrays (exec w c A).1.heads
  resp : (exec w c A).2 = (Tricorder.exec w c A.view).2
  view : ∃ cs, (∀ d ∈ cs, SliceOp d = true) ∧ (exec w c A).1.view = execs w cs (Tricorder.exec w c A.view).1

theorem writes_ops {hs : List Head} {r : Ref} {j : ℕ} {b : Base} : ∀ d ∈ writes hs r j b, SliceOp d = true := by
  intro d hd
  obtain ⟨c, -, hc⟩ := List.mem_filterMap.mp hd
  unfold writeOne at hc
  split at hc
  · split at hc
    · cases hc; rfl
    · cases hc
  · cases hc

theorem view_lists (A : St) : A.view.lists = A.rest.lists := rfl

theorem sim_newList {A : St} (g : Good A.arrays A.heads) (a : SliceArg) (m : Bool) (ts : Time) :
    StepSim w (.newList a m ts) A := by
  have hs := asSliceValue_seen g a m
  have e1 : exec w (.newList a m ts) A = A.newList a m ts := rfl
  have e2 : Tricorder.exec w (.newList a m ts) A.view = A.view.newList a m ts := rfl
  have e3 : A.view.mem = A.heads.map (Head.cell A.arrays) := rfl
  unfold State.newList at e2
  rw [e3, hs] at e2
  unfold St.newList at e1
  cases hx : asSliceValue A.arrays A.heads a m with
  | none =>
    rw [hx] at e1 e2
    simp only [Option.map_none] at e1 e2
    exact ⟨by rw [e1]; exact g, by rw [e1, e2], [], by simp, by rw [e1, e2]; rfl⟩
  | some x =>
    obtain ⟨as, hs', c, t⟩ := x
    rw [hx] at e1 e2
    simp only [Option.map_some, seen] at e1 e2
    exact ⟨by rw [e1]; exact asSliceValue_good g hx, by rw [e1, e2]; rfl, [], by simp, by rw [e1, e2]; rfl⟩

theorem sim_changeList {A : St} (g : Good A.arrays A.heads) (i : ℕ) (a : SliceArg) (m : Bool) (ts : Time) :
    StepSim w (.changeList i a m ts) A := by
  have hs := asSliceValue_seen g a m
  have e1 : exec w (.changeList i a m ts) A = A.changeList i a m ts := rfl
  have e2 : Tricorder.exec w (.changeList i a m ts) A.view = A.view.changeList i a m ts := rfl
  have e3 : A.view.mem = A.heads.map (Head.cell A.arrays) := rfl
  unfold State.changeList at e2
  rw [e3, hs, view_lists] at e2
  unfold St.changeList at e1
  cases hl : A.rest.lists[i]? with
  | none =>
    rw [hl] at e1 e2
    exact ⟨by rw [e1]; exact g, by rw [e1, e2], [], by simp, by rw [e1, e2]; rfl⟩
  | some l =>
    rw [hl] at e1 e2
    cases hx : asSliceValue A.arrays A.heads a m with
    | none =>
      rw [hx] at e1 e2
      simp only [Option.map_none] at e1 e2
      exact ⟨by rw [e1]; exact g, by rw [e1, e2], [], by simp, by rw [e1, e2]; rfl⟩
    | some x =>
      obtain ⟨as, hs', c, t⟩ := x
      rw [hx] at e1 e2
      simp only [Option.map_some, seen] at e1 e2
      split at e1
      · rename_i ht
        rw [if_pos ht] at e2
        exact ⟨by rw [e1]; exact asSliceValue_good g hx, by rw [e1, e2], [], by simp, by rw [e1, e2]; rfl⟩
      · rename_i ht
        rw [if_neg ht] at e2
        exact ⟨by rw [e1]; exact asSliceValue_good g hx, by rw [e1, e2], [], by simp, by rw [e1, e2]; rfl⟩

theorem sim_make {A : St} (g : Good A.arrays A.heads) (c : Cell) : StepSim w (.newSlice c) A := by
  have e1 : exec w (.newSlice c) A = A.make c := rfl
  have e2 : Tricorder.exec w (.newSlice c) A.view =
    ({ A.view with mem := A.view.mem ++ [{ c with internal := false }] }, A.view.mem.length) := rfl
  obtain ⟨n, e, d, i⟩ := c
  cases d with
  | none =>
    refine ⟨?_, by rw [e1, e2]; simp [St.make, St.view]; rfl, [], by simp, ?_⟩
    · rw [e1]
      exact g.snoc _ (fun r hr => by cases hr) (fun f _ r q _ hq => by cases hq)
    · rw [e1, e2]
      simp [St.make, St.view, execs, Head.cell]
  | some xs =>
    refine ⟨?_, by rw [e1, e2]; simp [St.make, St.view]; rfl, [], by simp, ?_⟩
    · rw [e1]
      exact g.snoc_fresh _ _ _ rfl rfl (InBounds.fresh _ _)
    · rw [e1, e2]
      simp [St.make, St.view, execs, cells_append g, Head.cell, elems_fresh]

theorem write_view {A : St} (g : Good A.arrays A.heads) (c j : ℕ) (b : Base) :
    ∃ cs, (∀ d ∈ cs, SliceOp d = true) ∧
      (A.write c j b).view = execs w cs { A.view with mem := A.view.mem.modify c fun x => writeCell x j b } := by
  have e3 : A.view.mem = A.heads.map (Head.cell A.arrays) := rfl
  have hsame : A.write c j b = A → (∀ x, A.view.mem[c]? = some x → writeCell x j b = x) → ∃ cs, (∀ d ∈ cs, SliceOp d = true) ∧
      (A.write c j b).view = execs w cs { A.view with mem := A.view.mem.modify c fun x => writeCell x j b } := by
    intro h1 h2
    refine ⟨[], by simp, ?_⟩
    rw [h1]
    have : A.view.mem.modify c (fun x => writeCell x j b) = A.view.mem := by
      apply List.ext_getElem?
      intro k
      rw [List.getElem?_modify]
      cases hk : A.view.mem[k]? with
      | none => rfl
      | some x =>
        by_cases hck : c = k
        · subst hck; simp [h2 x hk]
        · simp [hck]
    rw [this]
    rfl
  cases hc : A.heads[c]? with
  | none =>
    refine hsame (by simp [St.write, hc]) (fun x hx => ?_)
    rw [e3, List.getElem?_map, hc] at hx
    cases hx
  | some h =>
    obtain ⟨n, e, i, q⟩ := h
    have hm : A.view.mem[c]? = some ((⟨n, e, i, q⟩ : Head).cell A.arrays) := by rw [e3, List.getElem?_map, hc]; rfl
    cases i with
    | true =>
      refine hsame (by simp [St.write, hc]) (fun x hx => ?_)
      rw [hm] at hx
      cases hx
      simp [writeCell, Head.cell]
    | false =>
      cases q with
      | none =>
        refine hsame (by simp [St.write, hc]) (fun x hx => ?_)
        rw [hm] at hx
        cases hx
        simp [writeCell, Head.cell]
      | some r =>
        by_cases hj : j < r.len
        · refine ⟨writes A.heads r j b, writes_ops, ?_⟩
          have e4 : A.write c j b = { A with arrays := store A.arrays r j b } := by simp [St.write, hc, hj]
          rw [e4]
          refine (partly_all (as := A.arrays) (s := A.rest) (g.not_internal hc) ?_).symm
          have hone : writeOne A.heads r j b c = some (.writeSlice c j b) := by
            simp [writeOne, hc]
          obtain ⟨n', hn', h1, h2⟩ := writeOne_some (as := A.arrays) hc hone
          cases hn'
          refine ⟨rfl, by simp [e3], fun _ _ _ h => absurd h (by omega), fun k h hk => ?_⟩
          simp only [e3]
          rw [List.getElem?_modify, List.getElem?_map, hk]
          by_cases hck : c = k
          · subst hck
            rw [hc] at hk
            cases hk
            right
            simp only [Option.map_some, if_true]
            exact congrArg some h1
          · left; simp [hck]
        · refine hsame (by simp [St.write, hc, hj]) (fun x hx => ?_)
          rw [hm] at hx
          cases hx
          have hb := g.bounds _ (List.mem_of_getElem? hc) r rfl
          simp only [writeCell, Head.cell, Bool.false_eq_true, if_false, Option.map_some]
          rw [List.set_eq_of_length_le (by rw [elems_length hb]; omega)]

theorem write_good {A : St} (g : Good A.arrays A.heads) (c j : ℕ) (b : Base) :
    Good (A.write c j b).arrays (A.write c j b).heads := by
  unfold St.write
  split
  · split
    · exact g.write _ _ _
    · exact g
  · exact g

theorem sim_write {A : St} (g : Good A.arrays A.heads) (c j : ℕ) (b : Base) : StepSim w (.writeSlice c j b) A :=
  ⟨write_good g c j b, rfl, write_view g c j b⟩

/-- all other steps leave the slices alone -/
theorem sim_other {A : St} (g : Good A.arrays A.heads) {c : Cmd}
    (he : exec w c A = ({ A with rest := (Tricorder.exec w c A.view).1 }, (Tricorder.exec w c A.view).2))
    (hm : (Tricorder.exec w c A.view).1.mem = A.view.mem) : StepSim w c A := by
  refine ⟨by rw [he]; exact g, by rw [he], [], by simp, ?_⟩
  rw [he]
  show { (Tricorder.exec w c A.view).1 with mem := A.view.mem } = (Tricorder.exec w c A.view).1
  rw [← hm]

theorem sim_step {A : St} (g : Good A.arrays A.heads) (c : Cmd) : StepSim w c A := by
  cases c
  case newSlice c => exact sim_make g c
  case writeSlice c j b => exact sim_write g c j b
  case newList a m ts => exact sim_newList g a m ts
  case changeList i a m ts => exact sim_changeList g i a m ts
  case setUnit i u => exact sim_other g rfl (by simp only [Tricorder.exec]; split <;> rfl)
  case distCall i u => exact sim_other g rfl (by simp only [Tricorder.exec]; split <;> rfl)
  case writeVar v d => exact sim_other g rfl (by simp only [Tricorder.exec]; split <;> (try split) <;> rfl)
  all_goals exact sim_other g rfl rfl

theorem sim_reslice {A : St} (g : Good A.arrays A.heads) (c lo hi mx : ℕ) :
    Good (A.reslice c lo hi mx).arrays (A.reslice c lo hi mx).heads ∧
      ∃ cs, (∀ d ∈ cs, SliceOp d = true) ∧ (A.reslice c lo hi mx).view = execs w cs A.view := by
  unfold St.reslice
  split
  · rename_i n e r hc
    split
    · rename_i hb
      obtain ⟨a, h1, h2, h3⟩ := g.bounds _ (List.mem_of_getElem? hc) r rfl
      refine ⟨g.snoc _ ?_ ?_, [.newSlice ⟨n, e, some (elems A.arrays ⟨r.arr, r.off + lo, hi - lo, mx - lo⟩), false⟩], by simp [SliceOp], ?_⟩
      · intro r' hr'
        cases hr'
        exact ⟨a, h1, by simp only; omega, by simp only; omega⟩
      · intro f hf r' q hr' hq hi
        cases hq
        rcases hi with hi | hi
        · exact g.not_internal hc f hf hi r' hr'
        · cases hi
      · simp [St.view, execs, Tricorder.exec, Head.cell]
    · exact ⟨g, [], by simp, rfl⟩
  · exact ⟨g, [], by simp, rfl⟩

theorem sim_append {A : St} (g : Good A.arrays A.heads) (c : ℕ) (b : Base) (pad : List Base) :
    Good (A.append c b pad).arrays (A.append c b pad).heads ∧
      ∃ cs, (∀ d ∈ cs, SliceOp d = true) ∧ (A.append c b pad).view = execs w cs A.view := by
  unfold St.append
  split
  · rename_i n e r hc
    have hb := g.bounds _ (List.mem_of_getElem? hc) r rfl
    obtain ⟨a, h1, h2, h3⟩ := hb
    split
    · rename_i hlt
      refine ⟨(g.write r r.len b).snoc _ ?_ ?_, writes A.heads r r.len b ++
        [.newSlice ⟨n, e, some (elems (store A.arrays r r.len b) { r with len := r.len + 1 }), false⟩], ?_, ?_⟩
      · intro r' hr'
        cases hr'
        refine InBounds.store ?_ _ _ _
        exact ⟨a, h1, by simp only; omega, by simp only; omega⟩
      · intro f hf r' q hr' hq hi
        cases hq
        rcases hi with hi | hi
        · exact g.not_internal hc f hf hi r' hr'
        · cases hi
      · intro d hd
        rcases List.mem_append.mp hd with hd | hd
        · exact writes_ops d hd
        · cases List.mem_singleton.mp hd; rfl
      · rw [execs_append]
        have := partly_all (w := w) (as := A.arrays) (s := A.rest) (g.not_internal hc) (partly_view A.arrays A.heads r r.len b A.rest)
        have hv : A.view = { A.rest with mem := A.heads.map (Head.cell A.arrays) } := rfl
        rw [hv, this]
        simp [St.view, execs, Tricorder.exec, Head.cell]
    · refine ⟨g.snoc_fresh _ _ _ rfl rfl ?_,
        [.newSlice ⟨n, e, some (elems A.arrays r ++ [b]), false⟩], by simp [SliceOp], ?_⟩
      · have hl := elems_length (g.bounds _ (List.mem_of_getElem? hc) r rfl)
        exact ⟨elems A.arrays r ++ b :: pad, by simp, by simp, by simp [hl]; omega⟩
      · have hl := elems_length (g.bounds _ (List.mem_of_getElem? hc) r rfl)
        have h4 : elems (A.arrays ++ [elems A.arrays r ++ b :: pad]) ⟨A.arrays.length, 0, r.len + 1, r.len + 1 + pad.length⟩ =
            elems A.arrays r ++ [b] := by
          show (((A.arrays ++ [elems A.arrays r ++ b :: pad])[A.arrays.length]?).getD []).take (r.len + 1) = _
          simp only [List.getElem?_concat_length, Option.getD_some, List.drop_zero]
          rw [List.take_append, List.take_of_length_le (by omega), hl]
          simp
        simp [St.view, execs, Tricorder.exec, cells_append g, Head.cell, h4]
  · rename_i n e hc
    refine ⟨g.snoc_fresh _ _ _ rfl rfl ⟨b :: pad, by simp, by simp, by simp; omega⟩,
      [.newSlice ⟨n, e, some [b], false⟩], by simp [SliceOp], ?_⟩
    have h4 : elems (A.arrays ++ [b :: pad]) ⟨A.arrays.length, 0, 1, 1 + pad.length⟩ = [b] := by
      simp [elems]
    simp [St.view, execs, Tricorder.exec, cells_append g, Head.cell, h4]
  · exact ⟨g, [], by simp, rfl⟩

/-! ### runs -/

/-- steps of the application with slices, by other goroutines -/
theorem RunI_ops {p : Prog α} {a : α} {s' : State} : ∀ (cs : List Cmd) {s : State} {h : List Tricorder.Ev},
    (∀ d ∈ cs, SliceOp d = true) → RunI w p (execs w cs s) h s' a →
    ∃ g : List Tricorder.Ev, RunI w p s (g ++ h) s' a ∧ g.filter (fun e => !SliceOp e.cmd) = []
  | [], s, h, _, hr => ⟨[], hr, rfl⟩
  | c :: cs, s, h, hc, hr => by
    obtain ⟨g, h1, h2⟩ := RunI_ops cs (s := (Tricorder.exec w c s).1) (fun d hd => hc d (List.mem_cons_of_mem _ hd)) hr
    have hcc := hc c (List.mem_cons_self ..)
    refine ⟨⟨false, c, s⟩ :: g, .env c ?_ h1, by simp [hcc, h2]⟩
    cases c <;> first | trivial | cases hcc

theorem act_sim {A : St} (g : Good A.arrays A.heads) (c : Act) : Good (act w A c).arrays (act w A c).heads := by
  cases c with
  | cmd c => exact (sim_step (w := w) g c).good
  | reslice c lo hi mx => exact (sim_reslice (w := w) g c lo hi mx).1
  | append c b pad => exact (sim_append (w := w) g c b pad).1

theorem Reachable.good {A : St} (h : Reachable w A) : Good A.arrays A.heads := by
  induction h with
  | init => exact ⟨fun h hh => by simp [St.init] at hh, fun i j h g r q hi => by simp [St.init] at hi⟩
  | step c _ _ ih => exact act_sim ih c

/-- The same run without arrays: same result, same steps of the library in the same states, and the states are those here
as they look through the slices, with some more in between. -/
structure Sim (w : World) {α : Type} (p : Prog α) (A : St) (h : List Ev) (A' : St) (a : α) (h' : List Tricorder.Ev) : Prop where
  run : RunI w p A.view h' A'.view a
  same : h'.filter (fun e => !SliceOp e.cmd) = h.filterMap libStep
  states : ((aliasStates h A').map St.view).Sublist (statesOf h' A'.view)

theorem statesOf_append (g h : List Tricorder.Ev) (s' : State) : statesOf (g ++ h) s' = g.map Tricorder.Ev.pre ++ statesOf h s' := by
  simp [statesOf]

theorem run_sim {p : Prog α} {A A' : St} {h : List Ev} {a : α} (hr : Run w p A h A' a) (g : Good A.arrays A.heads) :
    ∃ h', Sim w p A h A' a h' := by
  induction hr with
  | ret a A => exact ⟨[], .ret _ _, rfl, List.Sublist.refl _⟩
  | @env p A h A' a c hok hr ih =>
    obtain ⟨h', i1, i2, i3⟩ := ih (act_sim g c)
    cases c with
    | cmd c =>
      obtain ⟨-, -, cs, k1, k2⟩ := sim_step (w := w) g c
      have hv : (act w A (.cmd c)).view = execs w cs (Tricorder.exec w c A.view).1 := k2
      rw [hv] at i1
      obtain ⟨e, m1, m2⟩ := RunI_ops cs k1 i1
      refine ⟨⟨false, c, A.view⟩ :: (e ++ h'), .env c hok m1, ?_, ?_⟩
      · rw [List.filter_cons, List.filter_append, m2, List.nil_append, i2, List.filterMap_cons]
        simp only [libStep]
        cases SliceOp c <;> simp
      · simp only [aliasStates, List.map_cons, List.cons_append]
        refine List.Sublist.cons_cons _ ?_
        show List.Sublist _ (statesOf (e ++ h') A'.view)
        rw [statesOf_append]
        exact i3.trans (List.sublist_append_right _ _)
    | reslice c lo hi mx =>
      obtain ⟨-, cs, k1, k2⟩ := sim_reslice (w := w) g c lo hi mx
      have hv : (act w A (.reslice c lo hi mx)).view = execs w cs A.view := k2
      exact sim_env hv k1 i1 i2 i3 rfl
    | append c b pad =>
      obtain ⟨-, cs, k1, k2⟩ := sim_append (w := w) g c b pad
      have hv : (act w A (.append c b pad)).view = execs w cs A.view := k2
      exact sim_env hv k1 i1 i2 i3 rfl
  | @op c k A h A' a hr ih =>
    obtain ⟨k0, k1, cs, k2, k3⟩ := sim_step (w := w) g c
    obtain ⟨h', i1, i2, i3⟩ := ih k0
    rw [k1, k3] at i1
    obtain ⟨e, m1, m2⟩ := RunI_ops cs k2 i1
    refine ⟨⟨true, c, A.view⟩ :: (e ++ h'), .op m1, ?_, ?_⟩
    · rw [List.filter_cons, List.filter_append, m2, List.nil_append, i2, List.filterMap_cons]
      simp only [libStep]
      cases SliceOp c <;> simp
    · simp only [aliasStates, List.map_cons, List.cons_append]
      refine List.Sublist.cons_cons _ ?_
      show List.Sublist _ (statesOf (e ++ h') A'.view)
      rw [statesOf_append]
      exact i3.trans (List.sublist_append_right _ _)
where
  sim_env {p : Prog α} {A A1 A' : St} {h : List Ev} {a : α} {cs : List Cmd} {h' : List Tricorder.Ev} {c : Act}
      (hv : A1.view = execs w cs A.view) (k1 : ∀ d ∈ cs, SliceOp d = true) (i1 : RunI w p A1.view h' A'.view a)
      (i2 : h'.filter (fun e => !SliceOp e.cmd) = h.filterMap libStep)
      (i3 : ((aliasStates h A').map St.view).Sublist (statesOf h' A'.view)) (hl : libStep ⟨false, c, A⟩ = none) :
      ∃ h', Sim w p A (⟨false, c, A⟩ :: h) A' a h' := by
    have hid : (Tricorder.exec w (.writeSlice A.view.mem.length 0 (.bool false)) A.view).1 = A.view := by
      simp only [Tricorder.exec]
      rw [List.modify_eq_self le_rfl]
    rw [hv] at i1
    obtain ⟨e, m1, m2⟩ := RunI_ops cs k1 i1
    refine ⟨⟨false, .writeSlice A.view.mem.length 0 (.bool false), A.view⟩ :: (e ++ h'), .env _ trivial ?_, ?_, ?_⟩
    · rw [hid]; exact m1
    · rw [List.filter_cons, List.filter_append, m2, List.nil_append, i2, List.filterMap_cons, hl]
      rfl
    · simp only [aliasStates, List.map_cons, List.cons_append]
      refine List.Sublist.cons_cons _ ?_
      show List.Sublist _ (statesOf (e ++ h') A'.view)
      rw [statesOf_append]
      exact i3.trans (List.sublist_append_right _ _)

/-- the rest of a run from one of its steps on -/
theorem Run_from {p : Prog α} {A A' : St} {before after : List Ev} {e : Ev} {a : α}
    (hr : Run w p A (before ++ e :: after) A' a) (g : Good A.arrays A.heads) :
    ∃ p' : Prog α, Run w p' e.pre (e :: after) A' a ∧ Good e.pre.arrays e.pre.heads := by
  induction before generalizing p A with
  | nil =>
    refine ⟨p, ?_, ?_⟩ <;> (rw [List.nil_append] at hr; cases hr)
    · rename_i c hok hr; exact .env c hok hr
    · rename_i c k hr; exact .op hr
    · exact g
    · exact g
  | cons x before ih =>
    rw [List.cons_append] at hr
    cases hr with
    | env c hok hr => exact ih hr (act_sim g c)
    | op hr => exact ih hr (sim_step (w := w) g _).good

end Tricorder.Alias
