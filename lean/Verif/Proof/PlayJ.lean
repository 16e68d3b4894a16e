import Verif.Spec.Joint
/-!
# Several goroutines, scheduled

Used in examples only: execute programs by a list of who takes the next step.
-/

namespace Tricorder
open Go Spec

variable {w : World} {ι β : Type} [DecidableEq ι]

/-- the result, if the program has returned -/
def Prog.val? : Prog β → Option β
  | .ret a => some a
  | .op _ _ => none

theorem Prog.val?_eq {p : Prog β} {a : β} (h : p.val? = some a) : p = .ret a := by
  cases p with
  | ret b => cases h; rfl
  | op => cases h

/-- goroutines take steps in the order given; what was done, what is left and the state at the end -/
def playJ (w : World) : List ι → (ι → Prog β) → State → Option (List (JEv ι) × (ι → Prog β) × State)
  | [], ps, s => some ([], ps, s)
  | i :: is, ps, s => match ps i with
    | .ret _ => none
    | .op c k => (playJ w is (Function.update ps i (k (exec w c s).2)) (exec w c s).1).map
        fun r => (⟨some i, c, s⟩ :: r.1, r.2)

theorem playJ_joint {is : List ι} {ps ps' : ι → Prog β} {s s' : State} {H : List (JEv ι)}
    (h : playJ w is ps s = some (H, ps', s')) {rs : ι → β} (hr : ∀ i, ps' i = .ret (rs i)) :
    Joint w ps s H s' rs ∧ ∀ e ∈ H, e.who ≠ none := by
  induction is generalizing ps s H with
  | nil => cases h; exact ⟨.done hr, fun e he => nomatch he⟩
  | cons i is ih =>
    unfold playJ at h
    split at h
    · cases h
    · rename_i c k hc
      cases hp : playJ w is (Function.update ps i (k (exec w c s).2)) (exec w c s).1 with
      | none => rw [hp] at h; cases h
      | some x =>
        obtain ⟨H', ps2, s2⟩ := x
        rw [hp] at h
        cases h
        obtain ⟨h1, h2⟩ := ih hp
        refine ⟨.go i c k hc h1, fun e he => ?_⟩
        rcases List.mem_cons.mp he with rfl | he
        · simp
        · exact h2 e he

/-- all have returned at the end of the schedule, with the results `rs`, and `Q` holds of what happened -/
def playsJ (w : World) (all : List ι) (is : List ι) (ps : ι → Prog β) (s : State) [DecidableEq β] (rs : ι → β)
    (Q : List (JEv ι) → State → Bool) : Bool :=
  match playJ w is ps s with
  | none => false
  | some (H, ps', s') => (all.all fun i => decide ((ps' i).val? = some (rs i))) && Q H s'

theorem playsJ_joint [DecidableEq β] {all is : List ι} (hall : ∀ i, i ∈ all) {ps : ι → Prog β} {s : State} {rs : ι → β}
    {Q : List (JEv ι) → State → Bool} (h : playsJ w all is ps s rs Q = true) :
    ∃ H s', Joint w ps s H s' rs ∧ (∀ e ∈ H, e.who ≠ none) ∧ Q H s' = true := by
  unfold playsJ at h
  cases hp : playJ w is ps s with
  | none => rw [hp] at h; cases h
  | some x =>
    obtain ⟨H, ps', s'⟩ := x
    rw [hp] at h
    simp only [Bool.and_eq_true, List.all_eq_true, decide_eq_true_eq] at h
    obtain ⟨h1, h2⟩ := playJ_joint hp fun i => Prog.val?_eq (h.1 i (hall i))
    exact ⟨H, s', h1, h2, h.2⟩

end Tricorder
