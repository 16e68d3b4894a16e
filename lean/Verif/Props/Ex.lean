import Verif.Proof.Sys2
import Mathlib.Data.List.Perm.Basic
/-!
# A world and a state for the examples

The tree: `a/b/m` is variable 0, `a/f` is callback 0, `d` is a distribution, `l` a list; directory `old`
(number 3) was unregistered and replaced by another (number 4).
-/

namespace Tricorder
open Go

/-- maps are iterated backwards; callback `f` returns `f`, except callback 9, which panics; flag 7 panics -/
def exW : World where
  ord := fun _ l => l.reverse
  ord_perm := fun _ l => List.reverse_perm l
  fnTy := fun f => if f = 8 then .other 0 else .scalar ⟨none, .int .int64⟩
  fn := fun _ f => if f = 9 then none else if f = 8 then some (.other 0) else some (.scalar none (.int .int64 (f % 1000 : ℕ)))
  fn_ty := by
    intro s f d h
    split at h
    · cases h
    · split at h <;> cases h
      · rename_i h1 h2; simp [Dyn.ty, h2]
      · rename_i h1 h2; simp [Dyn.ty, h2, Base.ty]
  flagGet := fun _ g => if g = 7 then none else some (.scalar none (.bool true))
  flagString := fun _ _ => some [120]
  lockTime := fun s r => ⟨s.noise + r, 0⟩

def exUnit : MUnit := .none

def exVarValue : MValue := ⟨some (.var 0), some 0, none, none, .int64, false, .none⟩
def exFnValue : MValue := ⟨some (.fn 0), some 0, none, none, .int64, false, .second⟩

/-- names -/
def nA : Str := [97]
def nB : Str := [98]
def nD : Str := [100]
def nF : Str := [102]
def nL : Str := [108]
def nM : Str := [109]
def nOld : Str := [111, 108, 100]

def exCmds : List Cmd :=
  [.newVar (.scalar none (.int .int64 5)), .newSlice ⟨none, .scalar ⟨none, .int .int64⟩, some [.int .int64 1], false⟩,
   .newDist [] false Time.zero, .newList (.slice 0) true Time.zero,
   .createDir 0 nA, .createDir 1 nB, .storeMetric 2 nM [] exVarValue, .storeMetric 1 nF [] exFnValue,
   .setUnit 0 .second, .storeMetric 0 nD [] ⟨none, none, some 0, none, .dist, false, .second⟩,
   .storeMetric 0 nL [] ⟨none, none, none, some 0, .list, false, .none⟩,
   .createDir 0 nOld, .unregisterDir 3, .createDir 0 nOld]

/-- the state -/
def exS : State := exCmds.foldl (fun s c => (exec exW c s).1) State.init

theorem exS_play : play exW exCmds State.init = some exS := by
  have h : ∀ (cs : List Cmd) (s : State), (play exW cs s).isSome →
      play exW cs s = some (cs.foldl (fun s c => (exec exW c s).1) s) := by
    intro cs
    induction cs with
    | nil => intro s _; rfl
    | cons c cs ih =>
      intro s hs
      rw [play] at hs ⊢
      split at hs
      · rename_i hc; rw [if_pos hc]; exact ih _ hs
      · cases hs
  exact h _ _ (by decide +kernel)

theorem exS_reachable : Reachable exW exS := play_reachable exS_play .init

end Tricorder
