import Verif.Proof.Demo
import Verif.Proof.Lists
import Verif.Spec.Demo
import Verif.Spec.RegMany
/-!
# Lemmas about the demo program: the list of squares, and what is read
-/

namespace Tricorder
open Go Spec Tree

variable {α : Type} {w : World} {s s' : State}

/-- a slice that nobody writes stays -/
theorem exec_cell {c : Cmd} {s : State} {i : ℕ} {cell : Cell} (h : s.mem[i]? = some cell)
    (hno : ∀ j b, c ≠ .writeSlice i j b) : (exec w c s).1.mem[i]? = some cell := by
  cases c with
  | newList a m ts =>
    simp only [exec, State.newList]
    cases h' : asSliceValue s.mem a m with
    | none => exact h
    | some x => obtain ⟨mem, c, t⟩ := x; exact prefix_get (asSliceValue_mem h') h
  | changeList j a m ts =>
    simp only [exec, State.changeList]
    cases hl : s.lists[j]? with
    | none => exact h
    | some l =>
      cases h' : asSliceValue s.mem a m with
      | none => exact h
      | some x =>
        obtain ⟨mem, c, t⟩ := x
        simp only
        split <;> exact prefix_get (asSliceValue_mem h') h
  | newSlice c => exact prefix_get (List.prefix_append _ _) h
  | writeSlice c j b =>
    have : c ≠ i := by rintro rfl; exact hno j b rfl
    simp only [exec, List.getElem?_modify, h, Option.map_some, if_neg this]
    rfl
  | setUnit j u => simp only [exec]; cases s.dists[j]? <;> exact h
  | distCall j u => simp only [exec]; cases s.dists[j]? <;> exact h
  | writeVar v d =>
    simp only [exec]
    cases s.vars[v]? with
    | none => exact h
    | some d0 => simp only; split <;> exact h
  | _ => exact h

namespace Demo

theorem squares_val {k : ℕ} (hk : k ≤ 99) :
    ((List.range k).map fun j : ℕ => (Base.int .int (i64 (((j : ℤ) + 1) * ((j : ℤ) + 1))))).map (resize .int64) =
      (List.range k).map fun j => Base.int .int64 ((j + 1) ^ 2 : ℕ) := by
  rw [List.map_map]
  apply List.map_congr_left
  intro j hj
  have hj' : j < k := by simpa using hj
  have h2 : ((j : ℤ) + 1) * (j + 1) ≤ 100 * 100 := by
    apply mul_le_mul <;> omega
  have h3 : 0 ≤ ((j : ℤ) + 1) * (j + 1) := by positivity
  simp only [Function.comp_apply, resize, IntKind.signed, if_true]
  have h4 : i64 (((j : ℤ) + 1) * (j + 1)) = ((j : ℤ) + 1) * (j + 1) := by unfold i64; omega
  rw [h4, h4]
  push_cast
  ring_nf

/-- `Change` to the squares -/
theorem change_squares {l c k : ℕ} {ts : Time} {lo : ListObj} (hl : s.lists[l]? = some lo) (ht : lo.subType = .int64)
    (hc : s.mem[c]? = some (squares k)) (hk : k ≤ 99) :
    ∃ s1, s.changeList l (.slice c) false ts = (s1, true) ∧ Safe s1 l ⟨squaresVal k, ts, lo.groupId, .int64⟩ := by
  have hlt : l < s.lists.length := (List.getElem?_eq_some_iff.mp hl).1
  have ha : asSliceValue s.mem (.slice c) false = some (s.mem ++ [⟨none, .scalar ⟨none, .int .int64⟩,
      some ((List.range k).map fun j => Base.int .int64 ((j + 1) ^ 2 : ℕ)), true⟩], s.mem.length, .int64) := by
    unfold asSliceValue
    simp only [hc]
    rw [← squares_val hk]
    rfl
  refine ⟨{ s with
      mem := s.mem ++ [⟨none, .scalar ⟨none, .int .int64⟩,
        some ((List.range k).map fun j => Base.int .int64 ((j + 1) ^ 2 : ℕ)), true⟩]
      lists := s.lists.set l { lo with slice := s.mem.length, timeStamp := ts } }, ?_, ?_⟩
  · unfold State.changeList
    simp only [hl, ha, ht]
    rfl
  · refine ⟨{ lo with slice := s.mem.length, timeStamp := ts }, ⟨none, .scalar ⟨none, .int .int64⟩,
      some ((List.range k).map fun j => Base.int .int64 ((j + 1) ^ 2 : ℕ)), true⟩, List.getElem?_set_self hlt, ?_, rfl, ?_⟩
    · exact List.getElem?_concat_length ..
    · simp [ht, Cell.val, squaresVal]

/-- steps of others between -/
theorem others_list {h : List Ev} (hr : RunI w (.ret ()) s h s' ()) {l : ℕ} {lv : ListView} (hs : Safe s l lv)
    (ha : ∀ e ∈ h, ∀ a m ts, e.cmd ≠ .changeList l a m ts) : ∀ σ ∈ statesOf h s', Safe σ l lv :=
  safe_run hr hs (fun e he hc => by obtain ⟨a, m, ts, hc, -⟩ := hc; exact ha e he a m ts hc)

theorem others_own {h : List Ev} (hr : RunI w (.ret ()) s h s' ()) : ∀ e ∈ h, e.own = false := (RunI_ret hr).2

theorem forall₂_imp_mem {β γ : Type} {R R' : β → γ → Prop} {l : List β} {l' : List γ} (h : List.Forall₂ R l l')
    (hi : ∀ x y, y ∈ l' → R x y → R' x y) : List.Forall₂ R' l l' := by
  induction h with
  | nil => exact .nil
  | cons h1 _ ih => exact .cons (hi _ _ (by simp) h1) (ih fun x y hy => hi x y (by simp [hy]))

theorem forall₂_mem {β γ : Type} {R : β → γ → Prop} {l : List β} {l' : List γ} (h : List.Forall₂ R l l') :
    List.Forall₂ (fun x y => x ∈ l ∧ R x y) l l' := by
  induction h with
  | nil => exact .nil
  | cons h1 _ ih => exact .cons ⟨by simp, h1⟩ (ih.imp fun x y h => ⟨by simp [h.1], h.2⟩)

/-- the list when `k` rounds are done, round `i` being the first -/
def listAt (lv : ListView) (ts : ℕ → Time) (i k : ℕ) : ListView :=
  if k < i then lv else ⟨squaresVal k, ts k, lv.groupId, .int64⟩

theorem forall₂_const {β γ : Type} {R : β → γ → Prop} {c : γ} {l : List β} (h : ∀ x ∈ l, R x c) :
    List.Forall₂ R l (List.replicate l.length c) := by
  induction l with
  | nil => exact .nil
  | cons x l ih => exact .cons (h x (by simp)) (ih fun y hy => h y (by simp [hy]))

theorem statesOf_append {h1 h2 : List Ev} {e : Ev} {s' : State} :
    statesOf (h1 ++ e :: h2) s' = statesOf h1 e.pre ++ statesOf h2 s' := by
  simp [statesOf]

theorem rounds_run {l : ℕ} {ts : ℕ → Time} {n i : ℕ} {s s' : State} {h : List Ev} {b : Bool}
    (hr : RunI w (updateRounds l ts i n) s h s' b) {lv : ListView} (hs : Safe s l lv) (ht : lv.subType = .int64)
    (ha : Alone l h) (hi : 1 ≤ i) (hn : i + n ≤ 100) :
    b = true ∧ (∃ ks, List.Forall₂ (fun σ k => listView σ l = some (listAt lv ts i k)) (statesOf h s') ks ∧
      ks.Pairwise (· ≤ ·) ∧ ∀ k ∈ ks, i - 1 ≤ k ∧ k < i + n) ∧
    Safe s' l (listAt lv ts i (i + n - 1)) := by
  induction n generalizing i s h lv with
  | zero =>
    rw [updateRounds] at hr
    have hr' : RunI w (.ret ()) s h s' () := by
      clear ha hs
      generalize hq : (Prog.ret true : Prog Bool) = q at hr
      induction hr with
      | ret => exact .ret _ _
      | env c hc _ ih => subst hq; exact .env c hc (ih rfl)
      | op => cases hq
    have h1 := others_list hr' hs (fun e he => (ha e he (others_own hr' e he)).1)
    refine ⟨(RunI_ret hr).1.symm, ⟨List.replicate (statesOf h s').length (i - 1), forall₂_const fun σ hσ => ?_, ?_, ?_⟩, ?_⟩
    · rw [listAt, if_pos (by omega)]
      exact (h1 σ hσ).view
    · exact List.pairwise_replicate.mpr (Or.inr (le_refl _))
    · intro k hk
      have := (List.mem_replicate.mp hk).2
      omega
    · rw [listAt, if_pos (by omega)]
      exact h1 s' (by simp [statesOf])
  | succ n ih =>
    rw [updateRounds] at hr
    obtain ⟨h1, s1, h2, e1, r1, r2⟩ := RunI_op hr
    obtain ⟨h3, s2, h4, e2, r3, r4⟩ := RunI_op r2
    subst e2
    subst e1
    have o1 := others_own r1
    have o3 := others_own r3
    have m1 : ∀ e ∈ h1, e ∈ h1 ++ (⟨true, .newSlice (squares i), s1⟩ : Ev) ::
      (h3 ++ (⟨true, .changeList l (.slice (exec w (.newSlice (squares i)) s1).2) false (ts i), s2⟩ : Ev) :: h4) :=
      fun e he => by simp [he]
    have m3 : ∀ e ∈ h3, e ∈ h1 ++ (⟨true, .newSlice (squares i), s1⟩ : Ev) ::
      (h3 ++ (⟨true, .changeList l (.slice (exec w (.newSlice (squares i)) s1).2) false (ts i), s2⟩ : Ev) :: h4) :=
      fun e he => by simp [he]
    have a1 := others_list r1 hs (fun e he => (ha e (m1 e he) (o1 e he)).1)
    have s1safe := a1 s1 (by simp [statesOf])
    have s1safe' : Safe (exec w (.newSlice (squares i)) s1).1 l lv := by
      obtain ⟨lo, c, x1, x2, x3, x4⟩ := s1safe
      exact ⟨lo, c, x1, prefix_get (List.prefix_append _ _) x2, x3, x4⟩
    have a3 := others_list r3 s1safe' (fun e he => (ha e (m3 e he) (o3 e he)).1)
    have s2safe := a3 s2 (by simp [statesOf])
    -- the slice is still what it was
    have hc : s2.mem[s1.mem.length]? = some (squares i) := by
      refine (RunI_inv (P := fun σ => σ.mem[s1.mem.length]? = some (squares i)) r3 ?_ ?_).2
      · simp only [exec]
        rw [List.getElem?_concat_length]
        rfl
      · intro e he hp
        refine exec_cell hp fun j b hcmd => ?_
        exact (ha e (m3 e he) (o3 e he)).2 _ j b hcmd ⟨true, .newSlice (squares i), s1⟩ (by simp) rfl _ rfl rfl
    obtain ⟨lo, cc, x1, x2, x3, x4⟩ := s2safe
    have hsub : lo.subType = .int64 := by rw [x4] at ht; exact ht
    have hgid : lo.groupId = lv.groupId := by rw [x4]
    obtain ⟨s3, y1, y2⟩ := change_squares (ts := ts i) x1 hsub hc (k := i) (by omega)
    have y1' : exec w (.changeList l (.slice s1.mem.length) false (ts i)) s2 = (s3, true) := y1
    have hresp : (exec w (.newSlice (squares i)) s1).2 = s1.mem.length := rfl
    rw [hresp] at r4
    rw [y1'] at r4
    rw [hgid] at y2
    have hat : ∀ k, i ≤ k → listAt ⟨squaresVal i, ts i, lv.groupId, .int64⟩ ts (i + 1) k = listAt lv ts i k := by
      intro k hk
      unfold listAt
      rw [if_neg (show ¬ k < i by omega)]
      split
      · have : k = i := by omega
        rw [this]
      · rfl
    obtain ⟨b1, ⟨ks, b2, b3, b4⟩, b5⟩ := ih r4 y2 rfl (fun e he ho => by
      obtain ⟨q1, q2⟩ := ha e (by simp [he]) ho
      exact ⟨q1, fun c j b hcmd e' he' ho' x hx => q2 c j b hcmd e' (by simp [he']) ho' x hx⟩) (by omega) (by omega)
    refine ⟨b1, ⟨List.replicate (statesOf h1 s1).length (i - 1) ++ (List.replicate (statesOf h3 s2).length (i - 1) ++ ks),
      ?_, ?_, ?_⟩, ?_⟩
    · rw [statesOf_append, statesOf_append]
      refine List.rel_append (forall₂_const fun σ hσ => ?_) (List.rel_append (forall₂_const fun σ hσ => ?_) ?_)
      · rw [listAt, if_pos (by omega)]
        exact (a1 σ hσ).view
      · rw [listAt, if_pos (by omega)]
        exact (a3 σ hσ).view
      · refine forall₂_imp_mem b2 fun σ k hk hσ => ?_
        rw [hσ, hat k (by have := b4 k hk; omega)]
    · rw [List.pairwise_append, List.pairwise_append]
      have hle : ∀ k ∈ ks, i - 1 ≤ k := fun k hk => by have := b4 k hk; omega
      refine ⟨List.pairwise_replicate.mpr (Or.inr (le_refl _)), ⟨List.pairwise_replicate.mpr (Or.inr (le_refl _)), b3, ?_⟩, ?_⟩
      · intro x hx y hy
        rw [(List.mem_replicate.mp hx).2]
        exact hle y hy
      · intro x hx y hy
        rw [(List.mem_replicate.mp hx).2]
        rcases List.mem_append.mp hy with hy | hy
        · rw [(List.mem_replicate.mp hy).2]
        · exact hle y hy
    · intro k hk
      rcases List.mem_append.mp hk with hk | hk
      · have := (List.mem_replicate.mp hk).2; omega
      · rcases List.mem_append.mp hk with hk | hk
        · have := (List.mem_replicate.mp hk).2; omega
        · have := b4 k hk; omega
    · rw [hat _ (by omega)] at b5
      have : i + 1 + n - 1 = i + (n + 1) - 1 := by omega
      rw [this] at b5
      exact b5

theorem rounds_ok {l : ℕ} {ts : ℕ → Time} {n i : ℕ} {s s' : State} {h : List Ev} {b : Bool}
    (hr : RunI w (updateRounds l ts i n) s h s' b) : ∀ e ∈ h, e.own = true → e.cmd.Ok e.pre := by
  induction n generalizing i s h with
  | zero =>
    rw [updateRounds] at hr
    intro e he ho
    rw [(RunI_ret hr).2 e he] at ho
    cases ho
  | succ n ih =>
    rw [updateRounds] at hr
    obtain ⟨h1, s1, h2, e1, r1, r2⟩ := RunI_op hr
    obtain ⟨h3, s2, h4, e2, r3, r4⟩ := RunI_op r2
    subst e2
    subst e1
    intro e he ho
    simp only [List.mem_append, List.mem_cons] at he
    rcases he with he | rfl | he | rfl | he
    · rw [others_own r1 e he] at ho; cases ho
    · trivial
    · rw [others_own r3 e he] at ho; cases ho
    · trivial
    · generalize (exec w (.changeList l (.slice (exec w (.newSlice (squares i)) s1).2) false (ts i)) s2).2 = b' at r4
      cases b' with
      | true => exact ih r4 e he ho
      | false => rw [(RunI_ret r4).2 e he] at ho; cases ho

end Demo
end Tricorder
