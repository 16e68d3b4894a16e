import Verif.Spec.Record
import Verif.Proof.DistApi
import Verif.Proof.App
/-!
# Recording by many goroutines: proofs
-/

namespace Tricorder
open Go _root_.Spec

variable {w : World}

theorem after_append (a b : List Cmd) (s : State) : after w (a ++ b) s = after w b (after w a s) := by
  induction a generalizing s with
  | nil => rfl
  | cons c a ih => exact ih _

theorem exec_dist {s : State} {i : ℕ} {d : Dist Fl} (h : s.dists[i]? = some d) (c : Cmd) :
    (exec w c s).1.dists[i]? = some (d.calls (asks i c).toList) := by
  have hlt : i < s.dists.length := (List.getElem?_eq_some_iff.mp h).1
  cases c with
  | setUnit j u =>
    unfold exec asks; simp only
    by_cases hj : j = i
    · subst hj; rw [h]; simp [hlt, Dist.calls, Dist.call]
    · simp only [hj, if_false, Option.toList_none, Dist.calls]
      split
      · exact h
      · rw [List.getElem?_set_ne hj]; exact h
  | distCall j u =>
    unfold exec asks; simp only
    by_cases hj : j = i
    · subst hj; rw [h]; simp [hlt, Dist.calls]
    · simp only [hj, if_false, Option.toList_none, Dist.calls]
      split
      · exact h
      · rw [List.getElem?_set_ne hj]; exact h
  | newDist pieces nc ts =>
    show (s.dists ++ _)[i]? = _
    rw [List.getElem?_append_left hlt, h]; rfl
  | newList a m ts => unfold exec; simp only [asks, Option.toList_none, Dist.calls]; unfold State.newList; split <;> (try split) <;> exact h
  | changeList j a m ts =>
    unfold exec; simp only [asks, Option.toList_none, Dist.calls]; unfold State.changeList
    repeat' (first | exact h | split)
  | writeVar v x =>
    unfold exec; simp only [asks, Option.toList_none, Dist.calls]
    repeat' (first | exact h | split)
  | _ => exact h

theorem Dist.calls_append (d : Dist Fl) (a b : List DCall) : d.calls (a ++ b) = (d.calls a).calls b := by
  induction a generalizing d with
  | nil => rfl
  | cons c a ih => exact ih _

theorem after_dist (cs : List Cmd) {s : State} {i : ℕ} {d : Dist Fl} (h : s.dists[i]? = some d) :
    (after w cs s).dists[i]? = some (d.calls (asked i cs)) := by
  induction cs generalizing s d with
  | nil => exact h
  | cons c cs ih =>
    refine (ih (exec_dist h c)).trans ?_
    rw [← Dist.calls_append]
    unfold asked
    cases hc : asks i c with
    | none => simp [hc]
    | some x => simp [hc]

theorem exec_none {s : State} {i : ℕ} (h : s.dists[i]? = none) (c : Cmd) :
    (exec w c s).1.dists[i]? = none ∨
      ∃ pieces nc ts, c = .newDist pieces nc ts ∧ s.dists.length = i ∧
        (exec w c s).1.dists[i]? = some (newDist pieces nc ts s.nextId) := by
  cases c with
  | setUnit j u =>
    left; unfold exec; simp only
    split
    · exact h
    · rw [List.getElem?_eq_none_iff, List.length_set, ← List.getElem?_eq_none_iff]; exact h
  | distCall j u =>
    left; unfold exec; simp only
    split
    · exact h
    · rw [List.getElem?_eq_none_iff, List.length_set, ← List.getElem?_eq_none_iff]; exact h
  | newDist pieces nc ts =>
    by_cases hi : s.dists.length = i
    · exact .inr ⟨pieces, nc, ts, rfl, hi, by subst hi; show (s.dists ++ _)[_]? = _; simp⟩
    · left
      have := List.getElem?_eq_none_iff.mp h
      show (s.dists ++ _)[i]? = _
      rw [List.getElem?_eq_none_iff, List.length_append, List.length_singleton]; omega
  | newList a m ts => left; unfold exec; simp only; unfold State.newList; split <;> (try split) <;> exact h
  | changeList j a m ts =>
    left; unfold exec; simp only; unfold State.changeList
    repeat' (first | exact h | split)
  | writeVar v x =>
    left; unfold exec; simp only
    repeat' (first | exact h | split)
  | _ => exact .inl h

theorem after_made (cs : List Cmd) {s : State} {i : ℕ} {d : Dist Fl} (h : s.dists[i]? = none)
    (hd : (after w cs s).dists[i]? = some d) :
    ∃ A B pieces nc ts, cs = A ++ .newDist pieces nc ts :: B ∧ (after w A s).dists.length = i ∧
      d = (newDist pieces nc ts (after w A s).nextId).calls (asked i B) := by
  induction cs generalizing s with
  | nil => rw [show after w [] s = s from rfl, h] at hd; cases hd
  | cons c cs ih =>
    rcases exec_none (w := w) h c with h1 | ⟨pieces, nc, ts, rfl, h1, h2⟩
    · obtain ⟨A, B, pieces, nc, ts, rfl, e1, e2⟩ := ih h1 hd
      exact ⟨c :: A, B, pieces, nc, ts, rfl, e1, e2⟩
    · have := (after_dist cs h2).symm.trans hd
      exact ⟨[], cs, pieces, nc, ts, rfl, h1, (Option.some.inj this).symm⟩

namespace App

theorem Run.after {x y : St} {H : List Item} (h : Run w x H y) : y.mem = _root_.Spec.after w (H.map Item.cmd) x.mem := by
  induction h with
  | nil => rfl
  | start g _ _ ih => exact ih
  | gets i k d _ _ _ ih => exact ih
  | go i c k _ _ ih => exact ih

theorem Run.after_pre {x y : St} {H : List Item} (h : Run w x H y) {A B : List Item} {e : Item} (hH : H = A ++ e :: B) :
    e.pre = _root_.Spec.after w (A.map Item.cmd) x.mem := by
  induction h generalizing A with
  | nil => cases A <;> cases hH
  | start g _ _ ih => exact ih hH
  | gets i k d _ _ _ ih => exact ih hH
  | go i c k _ _ ih =>
    cases A with
    | nil => cases hH; rfl
    | cons a A => cases hH; exact ih rfl

theorem Run.gs_length {x y : St} {H : List Item} (h : Run w x H y) : x.gs.length ≤ y.gs.length ∧ ∀ e ∈ H, e.who < y.gs.length := by
  induction h with
  | nil => exact ⟨le_rfl, fun _ h => (nomatch h)⟩
  | start g _ _ ih => simp only [List.length_append, List.length_singleton] at ih; exact ⟨by omega, ih.2⟩
  | gets i k d _ _ _ ih => simp only [List.length_set] at ih; exact ih
  | go i c k hi _ ih =>
    simp only [List.length_set] at ih
    have := (List.getElem?_eq_some_iff.mp hi).1
    refine ⟨ih.1, fun e he => ?_⟩
    rcases List.mem_cons.mp he with rfl | he
    · exact lt_of_lt_of_le this ih.1
    · exact ih.2 e he

/-- the part of a run up to some step is a run -/
theorem Run.prefix {x y : St} {H : List Item} (h : Run w x H y) {A B : List Item} (hH : H = A ++ B) :
    ∃ z, Run w x A z ∧ Run w z B y := by
  induction h generalizing A with
  | nil x => cases A with
    | nil => cases hH; exact ⟨_, .nil _, .nil _⟩
    | cons a A => cases hH
  | start g hg _ ih => obtain ⟨z, h1, h2⟩ := ih hH; exact ⟨z, .start g hg h1, h2⟩
  | gets i k d hi hd _ ih => obtain ⟨z, h1, h2⟩ := ih hH; exact ⟨z, .gets i k d hi hd h1, h2⟩
  | go i c k hi hr ih =>
    cases A with
    | nil => cases hH; exact ⟨_, .nil _, .go i c k hi hr⟩
    | cons a A => cases hH; obtain ⟨z, h1, h2⟩ := ih rfl; exact ⟨z, .go i c k hi h1, h2⟩

end App

theorem Whole.Run.after {A : Type} {tr : List (Whole.Item A)} {s : Whole.St A} (h : Whole.Run w tr s) :
    s.mem = _root_.Spec.after w (tr.filterMap memStep) State.init := by
  induction h with
  | nil => rfl
  | snoc hr hs ih =>
    rw [List.filterMap_append, after_append, ← ih]
    cases hs <;> rfl

theorem Whole.Run.after_pre {A : Type} {tr : List (Whole.Item A)} {s : Whole.St A} (h : Whole.Run w tr s)
    {B C : List (Whole.Item A)} {e : Whole.Item A} (hH : tr = B ++ e :: C) :
    e.pre = _root_.Spec.after w (B.filterMap memStep) State.init := by
  induction h generalizing C with
  | nil => cases B <;> cases hH
  | snoc hr hs ih =>
    rcases List.eq_nil_or_concat C with rfl | ⟨C', c, rfl⟩
    · obtain ⟨h1, h2⟩ := List.append_inj' hH rfl
      cases h2; subst h1
      rw [← hr.after]; cases hs <;> rfl
    · rw [List.concat_eq_append, ← List.cons_append, ← List.append_assoc] at hH
      exact ih (List.append_inj' hH rfl).1

/-! ### the outcomes of calls -/

theorem trace_append (d : Dist Fl) (a b : List DCall) : trace d (a ++ b) = trace d a ++ trace (d.calls a) b := by
  induction a generalizing d with
  | nil => rfl
  | cons c a ih => simp only [List.cons_append, trace, Dist.calls, ih]

theorem number_zero (sort : DCall → Bool) (out : Option DPanic) (d : Dist Fl) (cs : List DCall) (h : ∀ c ∈ cs, sort c = false) :
    number sort out (trace d cs) = 0 := by
  induction cs generalizing d with
  | nil => rfl
  | cons c cs ih =>
    have := ih (d.call c).1 fun c hc => h c (List.mem_cons_of_mem _ hc)
    unfold number at this ⊢
    rw [trace, List.filter_cons, h c List.mem_cons_self]
    exact this

/-- counting the calls that returned in a run, or in the history of the distribution, is the same -/
theorem returned_number {s : State} {i : ℕ} {d : Dist Fl} (h : s.dists[i]? = some d) (sort : DCall → Bool)
    (hsort : ∀ u, sort (.setUnit u) = false) (B : List App.Item)
    (hB : ∀ A e C, B = A ++ e :: C → e.pre = after w (A.map App.Item.cmd) s) :
    (B.filter (Returned w i sort)).length = number sort none (trace d (asked i (B.map App.Item.cmd))) := by
  induction B generalizing s d with
  | nil => rfl
  | cons e B ih =>
    have hpre : e.pre = s := hB [] e B rfl
    have := ih (s := (exec w e.cmd s).1) (exec_dist h e.cmd) fun A f C hC => hB (e :: A) f C (by rw [hC]; rfl)
    have hcons : asked i ((e :: B).map App.Item.cmd) = (asks i e.cmd).toList ++ asked i (B.map App.Item.cmd) := by
      unfold asked
      cases hc : asks i e.cmd with
      | none => simp [hc]
      | some x => simp [hc]
    rw [hcons, trace_append]
    unfold number at this ⊢
    rw [List.filter_append, List.length_append, ← this, List.filter_cons]
    have key : (if Returned w i sort e = true then 1 else 0) =
        ((trace d (asks i e.cmd).toList).filter fun x => sort x.1 && decide (x.2 = none)).length := by
      obtain ⟨who, cmd, pre⟩ := e
      cases cmd with
      | distCall j c =>
        simp only [Returned, asks] at hpre ⊢
        subst hpre
        by_cases hj : j = i
        · subst hj
          have he : (exec w (.distCall j c) pre).2 = (d.call c).2 := by unfold exec; simp only; rw [h]
          simp only [he, if_true, Option.toList_some, trace]
          cases h1 : sort c <;> by_cases h2 : (d.call c).2 = none <;> simp [h1, h2]
        · simp [hj, trace]
      | setUnit j u =>
        simp only [Returned, asks]
        by_cases hj : j = i
        · simp [hj, trace, hsort]
        · simp [hj, trace]
      | _ => rfl
    rw [← key]
    split <;> simp <;> omega

theorem sum_one (n a : ℕ) (h : a < n) : ((List.range n).map fun g => if a = g then 1 else 0).sum = 1 := by
  induction n with
  | zero => omega
  | succ n ih =>
    rw [List.range_succ, List.map_append, List.sum_append, List.map_singleton, List.sum_singleton]
    by_cases ha : a = n
    · subst ha
      rw [if_pos rfl]
      have : ((List.range a).map fun g => if a = g then 1 else 0).sum = 0 := by
        rw [List.sum_eq_zero]
        intro x hx
        obtain ⟨g, h1, rfl⟩ := List.mem_map.mp hx
        rw [if_neg (by have := List.mem_range.mp h1; omega)]
      omega
    · rw [if_neg ha, ih (by omega)]

theorem split_by_who (B : List App.Item) (n : ℕ) (hn : ∀ e ∈ B, e.who < n) (p : App.Item → Bool) :
    (B.filter p).length = ((List.range n).map fun g => (B.filter fun e => p e && decide (e.who = g)).length).sum := by
  induction B with
  | nil => simp
  | cons e B ih =>
    rw [List.filter_cons]
    have hlt := hn e List.mem_cons_self
    have ih := ih fun e he => hn e (List.mem_cons_of_mem _ he)
    have : ∀ g, ((e :: B).filter fun e => p e && decide (e.who = g)).length =
        (if p e = true ∧ e.who = g then 1 else 0) + (B.filter fun e => p e && decide (e.who = g)).length := by
      intro g
      rw [List.filter_cons]
      by_cases h1 : p e = true <;> by_cases h2 : e.who = g <;> simp [h1, h2] <;> omega
    simp only [this]
    rw [List.sum_map_add, ← ih]
    have hone : ((List.range n).map fun g => if p e = true ∧ e.who = g then 1 else 0).sum = if p e = true then 1 else 0 := by
      by_cases h1 : p e = true
      · simp only [h1, true_and, if_true]
        exact sum_one n _ hlt
      · simp [h1]
    rw [hone]
    split <;> simp <;> omega

/-! ### the order of additions -/

theorem current_adds (ops : List (DOp Fl)) (h : ops.all isAddOp = true) (vs : List Fl) :
    ∃ r, current vs ops = some r ∧ r.Perm (mentioned ops ++ vs) := by
  induction ops generalizing vs with
  | nil => exact ⟨vs, rfl, .refl _⟩
  | cons o ops ih =>
    simp only [List.all_cons, Bool.and_eq_true] at h
    cases o with
    | add v t =>
      obtain ⟨r, h1, h2⟩ := ih h.2 (v :: vs)
      exact ⟨r, h1, h2.trans (by simp only [mentioned, List.cons_append]; exact List.perm_middle)⟩
    | remove => cases h.1
    | update => cases h.1

theorem mentioned_added (u : MUnit) (hist : List DCall) (h : ∀ c ∈ hist, isAdd c = true) :
    (hist.filterMap (toOp u)).all isAddOp = true ∧ mentioned (hist.filterMap (toOp u)) = added u hist := by
  induction hist with
  | nil => exact ⟨rfl, rfl⟩
  | cons c hist ih =>
    obtain ⟨h1, h2⟩ := ih fun c hc => h c (List.mem_cons_of_mem _ hc)
    have hc := h c List.mem_cons_self
    cases c with
    | add v t =>
      unfold added at h2 ⊢
      cases ha : amount u v with
      | none => simp only [List.filterMap_cons, toOp, ha, Option.map_none]; exact ⟨h1, h2⟩
      | some x =>
        simp only [List.filterMap_cons, toOp, ha, Option.map_some]
        exact ⟨by simp [isAddOp, h1], by simp [mentioned, h2]⟩
    | setUnit => cases hc
    | update => cases hc
    | remove => cases hc

theorem le_antisymm_fl {a b : Fl} (ha : a ≠ .nan ∧ a ≠ .negZero) (hb : b ≠ .nan ∧ b ≠ .negZero) (h1 : Fl.le a b = true)
    (h2 : Fl.le b a = true) : a = b := by
  have := le_antisymm ((Fl.le_iff ha.1 hb.1).1 h1) ((Fl.le_iff hb.1 ha.1).1 h2)
  have := (Fl.eq_iff ha.1 hb.1).2 this
  rcases a with _ | (_ | _) | _ | a <;> rcases b with _ | (_ | _) | _ | b <;>
    first
      | rfl
      | exact absurd rfl ha.1
      | exact absurd rfl ha.2
      | exact absurd rfl hb.1
      | exact absurd rfl hb.2
      | (simp [Fl.eq] at this; done)
      | (simp only [Fl.eq, beq_iff_eq, decide_eq_true_eq] at this; rw [this])

end Tricorder
