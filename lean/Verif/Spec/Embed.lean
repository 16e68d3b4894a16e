import Verif.Spec.Whole
import Mathlib.Data.Nat.Pairing
/-!
# Calls of the whole library as runs of `Model/Sys`

`RunI` takes the answers of the groups from the `World`, as a function of the state.  To have the answers of a given run of the
whole library there, the number of answers so far is kept in the component `noise` of the state, which stands for everything
that the library does not see.
-/

namespace Tricorder.Whole
open Go Spec

variable {A : Type}

/-- the state with a number in it -/
def code (k : ℕ) (σ : State) : State := { σ with noise := Nat.pair k σ.noise }

/-- the state without it -/
def uncode (σ : State) : State := { σ with noise := (Nat.unpair σ.noise).2 }

/-- the same world, with given answers of the groups -/
def timed (w : World) (T : ℕ → Time) : World where
  ord σ := w.ord (uncode σ)
  ord_perm σ := w.ord_perm (uncode σ)
  fnTy := w.fnTy
  fn σ := w.fn (uncode σ)
  fn_ty σ := w.fn_ty (uncode σ)
  flagGet σ := w.flagGet (uncode σ)
  flagString σ := w.flagString (uncode σ)
  lockTime σ _ := T (Nat.unpair σ.noise).1

/-- a step, done to the coded state -/
def codeCmd (k : ℕ) : Cmd → Cmd
  | .tick n => .tick (Nat.pair k n)
  | cmd => cmd

/-- the program does not itself change what the callbacks depend on; no call of the library does -/
def NotTick (cmd : Cmd) : Prop := ∀ n, cmd ≠ .tick n

/-- what the others do, and what `c` does, as steps of `Model/Sys`; `k` answers have been given to `c` before -/
def image (c : ℕ) : ℕ → List (Item A) → List Ev
  | _, [] => []
  | k, it :: l => match it.lab with
    | .own c' cmd => ⟨c' = c, codeCmd k cmd, code k it.pre⟩ :: image c k l
    | .upd _ cmd => ⟨false, codeCmd k cmd, code k it.pre⟩ :: image c k l
    | .took c' r _ _ =>
      if c' = c then
        ⟨false, .tick (Nat.pair (k + 1) it.pre.noise), code k it.pre⟩ :: ⟨true, .rlock r, code (k + 1) it.pre⟩ :: image c (k + 1) l
      else image c k l
    | .gave c' r _ => if c' = c then ⟨true, .runlock r, code k it.pre⟩ :: image c k l else image c k l
    | _ => image c k l

/-- the answers that `c` got -/
def answers (c : ℕ) (l : List (Item A)) : List Time :=
  l.filterMap fun it => match it.lab with
    | .took c' _ _ t => if c' = c then some t else none
    | _ => none

/-- the states of the shared memory during the steps `l`, up to the state `σ'` -/
def During (l : List (Item A)) (σ' : State) (σ : State) : Prop := (∃ it ∈ l, σ = it.pre) ∨ σ = σ'

/-- `x` is what metric `mv` reports (in RPC form) to goroutine `c` in the steps `l`, at whose end the memory is `σ'`: for a
distribution a snapshot at one moment, for a list the slice at one moment, otherwise the value of the source at one moment,
converted, with the time that the group gave to `c` in one of the steps. -/
inductive Tells {A : Type} (w : World) (c : ℕ) (l : List (Item A)) (σ' : State) (mv : MetricView) (x : Metric) : Prop where
  | dist {i d sn σ} : mv.value.valType = .dist → mv.value.dist = some i → During l σ' σ → σ.dists[i]? = some d →
      d.snapshot = some sn → x.value = .dist (some (shownDist sn)) → x.timeStamp = .time sn.timeStamp →
      x.groupId = d.groupId → Tells w c l σ' mv x
  | list {i lv σ} : mv.value.valType = .list → mv.value.alist = some i → During l σ' σ → listView σ i = some lv →
      x.value = lv.val → x.timeStamp = .time lv.timeStamp → x.groupId = lv.groupId → x.subType = lv.subType →
      Tells w c l σ' mv x
  | scalar {sc d r σ τ it cl t} : Scalar mv → mv.value.src = some sc → During l σ' σ →
      current w σ sc = some d → valueToInterface d mv.value.valType mv.value.isPtr = some x.value →
      mv.value.region = some r → During l σ' τ → τ.regions[r]? = some x.groupId → it ∈ l → it.lab = .took c r cl t →
      x.timeStamp = .time t → Tells w c l σ' mv x

end Tricorder.Whole
