import Verif.Model.Locks
/-!
# What it means that the methods are atomic
-/

namespace Tricorder.Locks

/-- what the outside world does can depend on everything but the fields behind the locks -/
structure Local (w : World) : Prop where
  ord : ∀ s s', Shared.of s = Shared.of s' → w.ord s = w.ord s'
  fn : ∀ s s', Shared.of s = Shared.of s' → w.fn s = w.fn s'
  flagGet : ∀ s s', Shared.of s = Shared.of s' → w.flagGet s = w.flagGet s'
  flagString : ∀ s s', Shared.of s = Shared.of s' → w.flagString s = w.flagString s'
  lockTime : ∀ s s', Shared.of s = Shared.of s' → w.lockTime s = w.lockTime s'

/-- goroutine `c` called the method `cmd` with the result `r` -/
structure Done where
  c : ℕ
  cmd : Cmd
  r : cmd.Resp

/-- the methods in the order in which they take effect -/
def effects : List Lab → List Done
  | [] => []
  | .effect c cmd r :: l => ⟨c, cmd, r⟩ :: effects l
  | _ :: l => effects l

/-- The methods executed one after the other, each in one step, with these results. -/
inductive Replays (w : World) : State → List Done → State → Prop where
  | nil (s : State) : Replays w s [] s
  | cons {s l s'} (c : ℕ) (cmd : Cmd) : cmd.Ok s → Replays w (exec w cmd s).1 l s' →
      Replays w s (⟨c, cmd, (exec w cmd s).2⟩ :: l) s'

/-- calls, effects and returns of goroutine `c` -/
def mine (c : ℕ) : List Lab → List Lab
  | [] => []
  | .quiet _ :: l => mine c l
  | .call c' cmd :: l => if c' = c then .call c' cmd :: mine c l else mine c l
  | .effect c' cmd r :: l => if c' = c then .effect c' cmd r :: mine c l else mine c l
  | .ret c' cmd r :: l => if c' = c then .ret c' cmd r :: mine c l else mine c l

/-- calls that have returned: each took effect once, between call and return, and returned what it found then -/
inductive Calls (c : ℕ) : List Lab → Prop where
  | nil : Calls c []
  | snoc {l} (cmd : Cmd) (r : cmd.Resp) : Calls c l → Calls c (l ++ [.call c cmd, .effect c cmd r, .ret c cmd r])

/-- calls that have returned, and perhaps one that has not -/
def Orderly (c : ℕ) (l : List Lab) : Prop :=
  Calls c l ∨ ∃ l' cmd, Calls c l' ∧ (l = l' ++ [.call c cmd] ∨ ∃ r, l = l' ++ [.call c cmd, .effect c cmd r])

/-- the program takes these steps and ends with `a` -/
inductive Path {α : Type} : Prog α → List Done → α → Prop where
  | ret (a : α) : Path (.ret a) [] a
  | op {cmd k r l a} (c : ℕ) : Path (k r) l a → Path (.op cmd k) (⟨c, cmd, r⟩ :: l) a

/-- nobody is inside a critical section -/
def Quiet (s : St) : Prop := ∀ (c : ℕ) cmd loc excl rest, s.phases[c]? ≠ some (.inside cmd loc excl rest)

end Tricorder.Locks
