import Verif.Spec.Wait
import Verif.Proof.Joint2
import Verif.Proof.Whole4
/-!
# Calls that never wait
-/

namespace Tricorder.Whole
open Go Spec Tree

variable {A α β : Type} {w : World}

/-- neither takes nor gives back a group -/
def NoGroup : Cmd → Prop
  | .rlock _ | .runlock _ => False
  | _ => True

/-- at most `n` steps, which use no groups -/
def Short : ℕ → Prog α → Prop
  | _, .ret _ => True
  | 0, .op _ _ => False
  | n + 1, .op c k => NoGroup c ∧ ∀ r, Short n (k r)

theorem Short.mono {p : Prog α} : ∀ {n m : ℕ}, Short n p → n ≤ m → Short m p := by
  induction p with
  | ret => intro n m _ _; cases m <;> trivial
  | op c k ih =>
    intro n m h hm
    cases n with
    | zero => exact h.elim
    | succ n =>
      obtain ⟨m, rfl⟩ : ∃ m', m = m' + 1 := ⟨m - 1, by omega⟩
      exact ⟨h.1, fun r => ih r (h.2 r) (by omega)⟩

theorem Short_ret (n : ℕ) (a : α) : Short n (.ret a) := by cases n <;> trivial

theorem Short_bind {p : Prog α} {f : α → Prog β} {m : ℕ} (hf : ∀ a, Short m (f a)) :
    ∀ {n : ℕ}, Short n p → Short (n + m) (p.bind f) := by
  induction p with
  | ret a => intro n _; exact (hf a).mono (by omega)
  | op c k ih =>
    intro n h
    cases n with
    | zero => exact h.elim
    | succ n =>
      rw [show n + 1 + m = n + m + 1 by omega]
      exact ⟨h.1, fun r => ih r (h.2 r)⟩

/-- goroutine `c` is in a call that needs at most `n` more steps -/
def Going (n c : ℕ) (s : St A) : Prop :=
  ∃ q, s.procs[c]? = some ⟨.run q, []⟩ ∧ Short n q ∧ SafeP q s.mem.tree.dirs.length

theorem Run.tree {tr : List (Item A)} {s : St A} (h : Run w tr s) : IsTree s.mem.tree :=
  reachable_isTree (w := timed w fun _ => ⟨0, 0⟩) (s := code 0 s.mem) (h.reach _)

theorem Step.dirs {s s' : St A} {it : Item A} (hs : Step w s it s') : s.mem.tree.dirs.length ≤ s'.mem.tree.dirs.length := by
  cases hs with
  | own c held cmd k h1 h2 h3 => exact (exec_ext cmd s.mem).dirs
  | newGroup c held k h1 => exact (exec_ext (w := w) .newRegion s.mem).dirs
  | upd r g cmd h1 h2 h3 h4 => exact (exec_ext cmd s.mem).dirs
  | _ => exact le_rfl

theorem going_next {s : St A} {n c : ℕ} {cmd : Cmd} {k : cmd.Resp → Prog A} (ht : IsTree s.mem.tree)
    (h1 : Short (n + 1) (.op cmd k)) (h2 : SafeP (.op cmd k) s.mem.tree.dirs.length) :
    Short n (k (exec w cmd s.mem).2) ∧ SafeP (k (exec w cmd s.mem).2) (exec w cmd s.mem).1.tree.dirs.length :=
  ⟨h1.2 _, h2.2 _ _ (exec_ext cmd s.mem).dirs (newIn_exec ht)⟩

/-- a step of anybody -/
theorem Step.going {s s' : St A} {it : Item A} {n c : ℕ} (ht : IsTree s.mem.tree) (hg : Going n c s) (hs : Step w s it s') :
    ¬ Waits c it ∧ (¬ OwnStep c it → Going n c s') ∧ (OwnStep c it → ∃ m, n = m + 1 ∧ Going m c s') := by
  have hdirs := hs.dirs
  obtain ⟨q, h1, h2, h3⟩ := hg
  have hlt : c < s.procs.length := (List.getElem?_eq_some_iff.1 h1).1
  cases hs with
  | spawn p =>
    refine ⟨by simp [Waits], fun _ => ⟨q, ?_, h2, h3⟩, by simp [OwnStep]⟩
    show (s.procs ++ _)[c]? = _
    rw [List.getElem?_append_left hlt, h1]
  | own c' held cmd k h4 h5 h6 =>
    by_cases hc : c' = c
    · subst hc
      rw [h1] at h4
      cases h4
      refine ⟨by simp [Waits], fun h => absurd ⟨_, rfl⟩ h, fun _ => ?_⟩
      cases n with
      | zero => exact h2.elim
      | succ n => exact ⟨n, rfl, _, getElem?_set_same h1, going_next (s := s) (c := c') ht h2 h3⟩
    · refine ⟨by simp [Waits], fun _ => ⟨q, (getElem?_set_other hc).trans h1, h2, h3.mono hdirs⟩, ?_⟩
      rintro ⟨_, h⟩
      cases h
      exact absurd rfl hc
  | newGroup c' held k h4 =>
    by_cases hc : c' = c
    · subst hc
      rw [h1] at h4
      cases h4
      refine ⟨by simp [Waits], fun h => absurd ⟨_, rfl⟩ h, fun _ => ?_⟩
      cases n with
      | zero => exact h2.elim
      | succ n => exact ⟨n, rfl, _, getElem?_set_same h1, going_next (w := w) (s := s) (c := c') (cmd := .newRegion) ht h2 h3⟩
    · refine ⟨by simp [Waits], fun _ => ⟨q, (getElem?_set_other hc).trans h1, h2, h3.mono hdirs⟩, ?_⟩
      rintro ⟨_, h⟩
      cases h
      exact absurd rfl hc
  | upd r g cmd h4 h5 h6 h7 => exact ⟨by simp [Waits], fun _ => ⟨q, h1, h2, h3.mono hdirs⟩, by simp [OwnStep]⟩
  | asks c' r held k h4 h5 =>
    by_cases hc : c' = c
    · subst hc
      rw [h1] at h4
      cases h4
      cases n with
      | zero => exact h2.elim
      | succ n => exact h2.1.elim
    · exact ⟨by simp [Waits, hc], fun _ => ⟨q, (getElem?_set_other hc).trans h1, h2, h3⟩, by simp [OwnStep]⟩
  | took c' r cl t held k h4 h5 =>
    by_cases hc : c' = c
    · subst hc
      rw [h1] at h4
      cases h4
    · exact ⟨by simp [Waits, hc], fun _ => ⟨q, (getElem?_set_other hc).trans h1, h2, h3⟩, by simp [OwnStep]⟩
  | gives c' r cl client held k h4 h5 h6 h7 =>
    by_cases hc : c' = c
    · subst hc
      rw [h1] at h4
      cases h4
      cases n with
      | zero => exact h2.elim
      | succ n => exact h2.1.elim
    · exact ⟨by simp [Waits, hc], fun _ => ⟨q, (getElem?_set_other hc).trans h1, h2, h3⟩, by simp [OwnStep]⟩
  | gave c' r cl client held k h4 h5 h6 =>
    by_cases hc : c' = c
    · subst hc
      rw [h1] at h4
      cases h4
    · exact ⟨by simp [Waits, hc], fun _ => ⟨q, (getElem?_set_other hc).trans h1, h2, h3⟩, by simp [OwnStep]⟩
  | loop es g h4 h5 h6 => exact ⟨by simp [Waits], fun _ => ⟨q, h1, h2, h3⟩, by simp [OwnStep]⟩

/-- it can end by itself -/
theorem going_ends {n c : ℕ} : ∀ {tr : List (Item A)} {s : St A}, Run w tr s → Going n c s →
    ∃ tr' s' r, Run w (tr ++ tr') s' ∧ (∀ it ∈ tr', OwnStep c it) ∧ tr'.length ≤ n ∧
      s'.procs[c]? = some ⟨.run (.ret r), []⟩ ∧ ∀ c', c' ≠ c → s'.procs[c']? = s.procs[c']? := by
  induction n with
  | zero =>
    rintro tr s hr ⟨q, h1, h2, h3⟩
    cases q with
    | op => exact h2.elim
    | ret r => exact ⟨[], s, r, by simpa using hr, by simp, le_rfl, h1, fun _ _ => rfl⟩
  | succ n ih =>
    rintro tr s hr ⟨q, h1, h2, h3⟩
    cases q with
    | ret r => exact ⟨[], s, r, by simpa using hr, by simp, by simp, h1, fun _ _ => rfl⟩
    | op cmd k =>
      obtain ⟨it, s1, hs, ho, hp⟩ : ∃ it s1, Step w s it s1 ∧ OwnStep c it ∧ ∀ c', c' ≠ c → s1.procs[c']? = s.procs[c']? := by
        by_cases hn : cmd = .newRegion
        · subst hn
          exact ⟨_, _, .newGroup s c [] k h1, ⟨_, rfl⟩, fun c' hc => getElem?_set_other (fun h => hc h.symm)⟩
        · have hm : MemOnly cmd := by
            have := h2.1
            cases cmd <;> first | trivial | exact absurd rfl hn
          exact ⟨_, _, .own s c [] cmd k h1 hm (OkN_ok h3.1), ⟨_, rfl⟩, fun c' hc => getElem?_set_other (fun h => hc h.symm)⟩
      obtain ⟨m, hm, hg⟩ := (hs.going hr.tree ⟨_, h1, h2, h3⟩).2.2 ho
      cases hm
      obtain ⟨tr', s', r, g1, g2, g3, g4, g5⟩ := ih (hr.snoc hs) hg
      refine ⟨it :: tr', s', r, by simpa using g1, ?_, by simpa using g3, g4, fun c' hc => (g5 c' hc).trans (hp c' hc)⟩
      rintro x (_ | ⟨_, hx⟩)
      · exact ho
      · exact g2 x hx

theorem short_never_waits {p : Prog A} {n : ℕ} {ok : State → Prop} (h1 : Short n p)
    (h2 : ∀ s : State, ok s → 0 < s.tree.dirs.length → SafeP p s.tree.dirs.length) : NeverWaits w n ok p := by
  intro a x b s c hr hx hok
  have main : ∀ b s, Run w (a ++ x :: b) s → (∀ it ∈ b, ¬ Waits c it) ∧ ∃ m, ownSteps c b + m = n ∧ Going m c s := by
    intro b
    induction b using List.reverseRecOn with
    | nil =>
      intro s hr
      refine ⟨by simp, n, by simp [ownSteps], ?_⟩
      generalize hl : a ++ [x] = l at hr
      cases hr with
      | nil => simp at hl
      | snoc hr hs =>
        rename_i tr s0 it
        obtain ⟨-, e⟩ := List.append_inj' hl rfl
        cases e
        have ht := hr.tree.rootIn
        cases hs <;> cases hx
        refine ⟨p, by simp, h1, h2 _ hok ?_⟩
        exact ht
    | append_singleton b it ih =>
      intro s hr
      rw [← List.cons_append, ← List.append_assoc] at hr
      generalize hl : a ++ x :: b ++ [it] = l at hr
      cases hr with
      | nil => simp at hl
      | snoc hr hs =>
        obtain ⟨e1, e⟩ := List.append_inj' hl rfl
        cases e
        subst e1
        obtain ⟨i1, m, i2, i3⟩ := ih _ hr
        obtain ⟨g1, g2, g3⟩ := hs.going hr.tree i3
        refine ⟨?_, ?_⟩
        · intro y hy
          rcases List.mem_append.mp hy with hy | hy
          · exact i1 y hy
          · rw [List.mem_singleton.mp hy]; exact g1
        · by_cases ho : OwnStep c it
          · obtain ⟨k, rfl, hk⟩ := g3 ho
            exact ⟨k, by simp [ownSteps, ho] at i2 ⊢; omega, hk⟩
          · exact ⟨m, by simp [ownSteps, ho] at i2 ⊢; omega, g2 ho⟩
  obtain ⟨m1, m, m2, m3⟩ := main b s hr
  obtain ⟨tr, s', r, g1, g2, g3, g4, g5⟩ := going_ends hr m3
  exact ⟨m1, tr, s', r, g1, g2, by omega, g4, g5⟩

end Tricorder.Whole
