import Verif.Model.Registry
import Verif.Proof.Tree
/-!
# Runs of programs; the tree invariant holds in every reachable state
-/

namespace Tricorder
open Go Spec

variable {α β : Type} {w : World}

theorem run_bind (p : Prog α) (f : α → Prog β) (s : State) :
    (p.bind f).run w s = (f (p.run w s).2).run w (p.run w s).1 := by
  induction p generalizing s with
  | ret a => rfl
  | op c k ih => exact ih _ _

theorem RunI_bind {p : Prog α} {f : α → Prog β} {s s' : State} {h : List Ev} {b : β}
    (hr : RunI w (p.bind f) s h s' b) :
    ∃ h1 s1 a h2, h = h1 ++ h2 ∧ RunI w p s h1 s1 a ∧ RunI w (f a) s1 h2 s' b := by
  generalize hq : p.bind f = q at hr
  induction hr generalizing p with
  | ret a s =>
    cases p with
    | ret x => exact ⟨[], s, x, [], rfl, .ret x s, by simp only [Prog.bind] at hq; rw [hq]; exact .ret a s⟩
    | op c k => simp [Prog.bind] at hq
  | env c hc _ ih =>
    obtain ⟨h1, s1, a, h2, e, r1, r2⟩ := ih hq
    exact ⟨_ :: h1, s1, a, h2, by rw [e]; rfl, .env c hc r1, r2⟩
  | @op c k s h s' a hr' ih =>
    cases p with
    | ret x =>
      simp only [Prog.bind] at hq
      exact ⟨[], s, x, _, rfl, .ret x s, by rw [hq]; exact .op hr'⟩
    | op c' k' =>
      simp only [Prog.bind, Prog.op.injEq] at hq
      obtain ⟨hc, hk⟩ := hq
      subst hc
      have hk := eq_of_heq hk
      obtain ⟨h1, s1, a', h2, e, r1, r2⟩ := ih (p := k' (exec w c' s).2) (by rw [← hk])
      exact ⟨_ :: h1, s1, a', h2, by rw [e]; rfl, .op r1, r2⟩

theorem RunI_ret {a b : α} {s s' : State} {h : List Ev} (hr : RunI w (.ret a) s h s' b) :
    a = b ∧ ∀ e ∈ h, e.own = false := by
  generalize hq : Prog.ret a = q at hr
  induction hr with
  | ret x s => cases hq; exact ⟨rfl, by simp⟩
  | env c hc _ ih =>
    obtain ⟨h1, h2⟩ := ih hq
    exact ⟨h1, by intro e he; rcases List.mem_cons.mp he with h | h; (· subst h; rfl); exact h2 e h⟩
  | op _ _ => cases hq

/-- a run alone is a run -/
theorem RunI_of_run (p : Prog α) (s : State) :
    ∃ h, RunI w p s h (p.run w s).1 (p.run w s).2 ∧ ∀ e ∈ h, e.own = true := by
  induction p generalizing s with
  | ret a => exact ⟨[], .ret a s, by simp⟩
  | op c k ih =>
    obtain ⟨h, h1, h2⟩ := ih (exec w c s).2 (exec w c s).1
    refine ⟨_ :: h, .op h1, ?_⟩
    intro e he
    rcases List.mem_cons.mp he with hh | hh
    · subst hh; rfl
    · exact h2 e hh

theorem RunI_head {p : Prog α} {s s' : State} {h : List Ev} {a : α} (hr : RunI w p s h s' a) :
    (statesOf h s').head? = some s := by
  cases hr <;> simp [statesOf]

/-- a property kept by every step holds in all states of a run -/
theorem RunI_inv {P : State → Prop} {p : Prog α} {s s' : State} {h : List Ev} {a : α}
    (hr : RunI w p s h s' a) (h0 : P s)
    (hs : ∀ e ∈ h, P e.pre → P (exec w e.cmd e.pre).1) :
    (∀ e ∈ h, P e.pre) ∧ P s' := by
  induction hr with
  | ret => exact ⟨by simp, h0⟩
  | env c hc _ ih =>
    have := ih (hs _ List.mem_cons_self h0) (fun e he => hs e (List.mem_cons_of_mem _ he))
    exact ⟨by
      intro e he
      rcases List.mem_cons.mp he with hh | hh
      · subst hh; exact h0
      · exact this.1 e hh, this.2⟩
  | op _ ih =>
    have := ih (hs _ List.mem_cons_self h0) (fun e he => hs e (List.mem_cons_of_mem _ he))
    exact ⟨by
      intro e he
      rcases List.mem_cons.mp he with hh | hh
      · subst hh; exact h0
      · exact this.1 e hh, this.2⟩

theorem okName {name : Str} : (47 : UInt8) ∉ name ∧ trimSpace name ≠ [] ↔ GoodName name := by
  unfold GoodName
  rw [Ne, trimSpace_nil_iff]

/-- commands that do not touch the tree -/
def Cmd.isTree : Cmd → Bool
  | .removeEntry _ _ | .unregisterDir _ | .createDir _ _ | .storeMetric _ _ _ _ => true
  | _ => false

theorem exec_tree_of_not {c : Cmd} (h : c.isTree = false) (s : State) :
    (exec w c s).1.tree = s.tree := by
  cases c <;> simp [Cmd.isTree] at h <;> simp only [exec]
  case setUnit i u => cases s.dists[i]? <;> rfl
  case distCall i c => cases s.dists[i]? <;> rfl
  case newList a m ts =>
    unfold State.newList
    cases asSliceValue s.mem a m <;> rfl
  case changeList i a m ts =>
    unfold State.changeList
    cases s.lists[i]? with
    | none => rfl
    | some l =>
      cases asSliceValue s.mem a m with
      | none => rfl
      | some x => obtain ⟨m', c, t⟩ := x; simp only; split <;> rfl
  case writeVar v d =>
    cases s.vars[v]? with
    | none => rfl
    | some d0 => simp only; split <;> rfl

/-- every step keeps the heap a tree -/
theorem exec_isTree {c : Cmd} {s : State} (ht : IsTree s.tree) (hc : c.Ok s) :
    IsTree (exec w c s).1.tree := by
  by_cases h : c.isTree = true
  · cases c <;> simp [Cmd.isTree] at h
    · exact Tree.isTree_removeEntry ht _ _
    · exact Tree.isTree_unregisterDir ht _
    · rename_i d name
      exact Tree.isTree_createDir ht hc.1 (okName.mp hc.2)
    · rename_i d name desc v
      exact Tree.isTree_storeMetric ht hc.1 (okName.mp hc.2)
  · rw [exec_tree_of_not (by simpa using h)]
    exact ht

theorem reachable_isTree {s : State} (h : Reachable w s) : IsTree s.tree := by
  induction h with
  | init => exact Tree.isTree_init
  | step c _ hc ih => exact exec_isTree ih hc

end Tricorder
