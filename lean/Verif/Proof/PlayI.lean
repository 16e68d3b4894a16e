import Verif.Proof.Sys2
/-!
# Building concrete runs with interference
-/

namespace Tricorder
open Go Spec Tree

variable {α : Type} {w : World}

/-- steps of other goroutines -/
def playEnv (w : World) : List Cmd → State → Option (List Ev × State)
  | [], s => some ([], s)
  | c :: cs, s => if c.Ok s then (playEnv w cs (exec w c s).1).map fun r => (⟨false, c, s⟩ :: r.1, r.2)
    else none

/-- run a program; before each of its steps others take the steps of the next element of the schedule -/
def playI (w : World) : Prog α → List (List Cmd) → State → Option (List Ev × State × α)
  | .ret a, _, s => some ([], s, a)
  | .op c k, sched, s => match playEnv w (sched.headD []) s with
    | none => none
    | some (h, s1) => match playI w (k (exec w c s1).2) sched.tail (exec w c s1).1 with
      | none => none
      | some (h', s', a) => some (h ++ ⟨true, c, s1⟩ :: h', s', a)

theorem playEnv_run {p : Prog α} {cs : List Cmd} {s s1 s' : State} {h h' : List Ev} {a : α}
    (he : playEnv w cs s = some (h, s1)) (hr : RunI w p s1 h' s' a) : RunI w p s (h ++ h') s' a := by
  induction cs generalizing s h with
  | nil => simp only [playEnv, Option.some.injEq, Prod.mk.injEq] at he; obtain ⟨rfl, rfl⟩ := he; exact hr
  | cons c cs ih =>
    rw [playEnv] at he
    split at he
    · rename_i hc
      obtain ⟨⟨h1, s2⟩, h2, h3⟩ := Option.map_eq_some_iff.mp he
      cases h3
      exact .env c hc (ih h2)
    · cases he

theorem playI_run {p : Prog α} {sched : List (List Cmd)} {s s' : State} {h : List Ev} {a : α}
    (hp : playI w p sched s = some (h, s', a)) : RunI w p s h s' a := by
  induction p generalizing sched s h with
  | ret b =>
    simp only [playI, Option.some.injEq, Prod.mk.injEq] at hp
    obtain ⟨rfl, rfl, rfl⟩ := hp
    exact .ret _ _
  | op c k ih =>
    rw [playI] at hp
    cases h1 : playEnv w (sched.headD []) s with
    | none => rw [h1] at hp; cases hp
    | some x =>
      obtain ⟨h2, s1⟩ := x
      rw [h1] at hp
      simp only at hp
      cases h3 : playI w (k (exec w c s1).2) sched.tail (exec w c s1).1 with
      | none => rw [h3] at hp; cases hp
      | some y =>
        obtain ⟨h4, s4, a4⟩ := y
        rw [h3] at hp
        cases hp
        exact playEnv_run h1 (.op (ih _ h3))

/-- the result of a scheduled run satisfies `Q` -/
def playsTo (w : World) (p : Prog α) (sched : List (List Cmd)) (s : State) (Q : α → Bool) : Bool :=
  match playI w p sched s with
  | none => false
  | some (_, _, a) => Q a

theorem playsTo_run {p : Prog α} {sched : List (List Cmd)} {s : State} {Q : α → Bool}
    (h : playsTo w p sched s Q = true) : ∃ h s' a, RunI w p s h s' a ∧ Q a = true := by
  unfold playsTo at h
  cases hp : playI w p sched s with
  | none => rw [hp] at h; cases h
  | some x =>
    obtain ⟨h1, s', a⟩ := x
    rw [hp] at h
    exact ⟨h1, s', a, playI_run hp, h⟩

/-- the history, the last state and the result of a scheduled run satisfy `Q` -/
def playsWith (w : World) (p : Prog α) (sched : List (List Cmd)) (s : State) (Q : List Ev → State → α → Bool) : Bool :=
  match playI w p sched s with
  | none => false
  | some (h, s', a) => Q h s' a

theorem playsWith_run {p : Prog α} {sched : List (List Cmd)} {s : State} {Q : List Ev → State → α → Bool}
    (h : playsWith w p sched s Q = true) : ∃ h s' a, RunI w p s h s' a ∧ Q h s' a = true := by
  unfold playsWith at h
  cases hp : playI w p sched s with
  | none => rw [hp] at h; cases h
  | some x =>
    obtain ⟨h1, s', a⟩ := x
    rw [hp] at h
    exact ⟨h1, s', a, playI_run hp, h⟩

end Tricorder
