import Verif.Proof.Fine2
import Mathlib.Data.List.Induction
/-! Methods that are called return. -/

namespace Tricorder.Fine
open Go Locks

variable {A : Type} {w : World} {n : ℕ} {tr : List (Item A)} {f : St A} {tr' : List (Whole.Item A)} {s : Whole.St A}

/-- a step is determined by its label -/
theorem step_det {a b c : Locks.St} {l : Locks.Lab} (h : Locks.Step w a l b) (h' : Locks.Step w a l c) : c = b := by
  cases h with
  | call c cmd h1 h2 => cases h'; rfl
  | plain c cmd f h1 =>
    generalize e : Locks.Lab.effect c cmd (f a.shared).2.2 = l at h'
    cases h' with
    | plain c' cmd' f' h2 =>
      injection e with e1 e2; subst e1; subst e2; rw [h1] at h2; cases h2; rfl
    | last c' cmd' loc excl f' h2 =>
      injection e with e1 e2; subst e1; subst e2; rw [h1] at h2; cases h2
    | _ => cases e
  | acquire c cmd loc excl sec h1 h2 =>
    cases h' with
    | acquire _ _ _ _ _ h3 => rw [h1] at h3; cases h3; rfl
    | read _ _ _ _ _ _ _ h3 => rw [h1] at h3; cases h3
    | write _ _ _ _ _ _ h3 => rw [h1] at h3; cases h3
  | read c cmd loc excl X f k h1 =>
    cases h' with
    | acquire _ _ _ _ _ h3 => rw [h1] at h3; cases h3
    | read _ _ _ _ _ _ _ h3 => rw [h1] at h3; cases h3; rfl
    | write _ _ _ _ _ _ h3 => rw [h1] at h3; cases h3
  | write c cmd loc excl f k h1 =>
    cases h' with
    | acquire _ _ _ _ _ h3 => rw [h1] at h3; cases h3
    | read _ _ _ _ _ _ _ h3 => rw [h1] at h3; cases h3
    | write _ _ _ _ _ _ h3 => rw [h1] at h3; cases h3; rfl
  | last c cmd loc excl f h1 =>
    generalize e : Locks.Lab.effect c cmd (f (a.objs loc) a.shared).2.2.2 = l at h'
    cases h' with
    | plain c' cmd' f' h2 =>
      injection e with e1 e2; subst e1; subst e2; rw [h1] at h2; cases h2
    | last c' cmd' loc excl f' h2 =>
      injection e with e1 e2; subst e1; subst e2; rw [h1] at h2; cases h2; rfl
    | _ => cases e
  | ret c cmd lock r h1 => cases h'; rfl

theorem run_det {l : List Locks.Lab} {a b : Locks.St} (h : Locks.Run w n l a) (h' : Locks.Run w n l b) : b = a := by
  induction h generalizing b with
  | nil =>
    generalize e : ([] : List Locks.Lab) = l at h'
    cases h' with
    | nil => rfl
    | snoc => simp at e
  | @snoc l s x s' _ hs ih =>
    generalize e : l ++ [x] = l' at h'
    cases h' with
    | nil => simp at e
    | snoc h2 hs2 =>
      obtain ⟨rfl, e2⟩ := List.append_inj' e rfl
      cases e2
      rw [ih h2] at hs2
      exact step_det hs hs2

/-- without new calls the methods go on in the same way here -/
theorem lift (hw : Local w) (h : Run w n tr f) (ls : List Locks.Lab) :
    ∀ lk, Locks.Run w n (inner tr ++ ls) lk → (∀ l ∈ ls, l.NoCall) →
      ∃ tr2 f2, Run w n (tr ++ tr2) f2 ∧ f2.lk = lk ∧ ∀ it ∈ tr2, ∃ l, it.lab = .lk l ∧ l.NoCall := by
  induction ls using List.reverseRecOn with
  | nil =>
    intro lk h1 _
    obtain ⟨_, _, hj⟩ := follow hw h
    exact ⟨[], f, by simpa using h, (run_det hj.locks (by simpa using h1)).symm, by simp⟩
  | append_singleton ls l ih =>
    intro lk h1 hn
    rw [← List.append_assoc] at h1
    generalize e : inner tr ++ ls ++ [l] = l' at h1
    cases h1 with
    | nil => simp at e
    | snoc h2 hs =>
      obtain ⟨rfl, e2⟩ := List.append_inj' e rfl
      cases e2
      obtain ⟨tr2, f2, r2, rfl, h3⟩ := ih _ h2 fun x hx => hn x (by simp [hx])
      have hl : l.NoCall := hn l (by simp)
      have add : ∀ {it f3}, Step w f2 it f3 → f3.lk = lk → it.lab = .lk l →
          ∃ tr3 f3, Run w n (tr ++ tr3) f3 ∧ f3.lk = lk ∧ ∀ it ∈ tr3, ∃ l, it.lab = .lk l ∧ l.NoCall := by
        intro it f3 h4 h5 h6
        refine ⟨tr2 ++ [it], f3, by rw [← List.append_assoc]; exact r2.snoc h4, h5, ?_⟩
        intro x hx
        rcases List.mem_append.1 hx with e | e
        · exact h3 x e
        · cases List.mem_singleton.1 e
          exact ⟨l, h6, hl⟩
      obtain ⟨_, _, hj⟩ := follow hw r2
      obtain ⟨i, p, p', m1, m2, m3⟩ := moves hs
      cases m3 with
      | call => exact absurd rfl (hl _ _)
      | quiet => exact add (.quiet f2 _ lk hs) rfl rfl
      | effect q1 q2 =>
        rename_i cmd r lock
        have : Whole.MemOnly cmd ∨ cmd = .newRegion := by
          rcases even_cases i with ⟨c, rfl⟩ | ⟨c, rfl⟩
          · exact (hj.own c p cmd m1 q1).1
          · exact .inl (hj.upd c p cmd m1 q1).1
        rcases this with hm | rfl
        · exact add (.effect f2 i cmd r lk hm hs) rfl rfl
        · exact add (.newGroup f2 i r lk hs) rfl rfl
      | ret =>
        rename_i cmd r lock
        rcases even_cases i with ⟨c, rfl⟩ | ⟨c, rfl⟩
        · obtain ⟨_, k, held, h4⟩ := hj.own c _ cmd m1 rfl
          exact add (.ret f2 c held cmd k r lk h4 hs) rfl rfl
        · exact add (.updRet f2 c cmd r lk hs) rfl rfl

end Tricorder.Fine
