import Verif.Model.Api
import Verif.Model.Read
/-!
# Applications: any number of goroutines that call the library

A goroutine is a tree of steps; it may decide what to do next from all results so far, and get handles of directories from other
goroutines.  Goroutines that never end are covered by cutting them off: a run is a finite sequence of steps.
-/

namespace Tricorder.App
open Go

/-- the rest of a goroutine -/
inductive G where
  | done
  | op (c : Cmd) (k : c.Resp → G)
  /-- gets a handle to a directory from another goroutine -/
  | gets (k : ℕ → G)

/-- a call, and what follows -/
def call {α : Type} : Prog α → (α → G) → G
  | .ret a, f => f a
  | .op c k, f => .op c fun r => call (k r) f

/-- the application's own steps and calls of one step: variables, slices, distributions, lists, groups -/
def Single : Cmd → Prop
  | .newVar _ | .readVar _ | .writeVar _ _ | .newSlice _ | .writeSlice _ _ _ | .newDist _ _ _ | .distCall _ _ | .newList _ _ _
  | .changeList _ _ _ _ | .newRegion | .tick _ => True
  | _ => False

/-- steps of requests: nothing is changed -/
def Looks : Cmd → Prop
  | .getEntry _ _ | .list _ | .metric _ | .dirAbsPath _ | .snapshot _ | .getList _ | .readVar _
  | .callFn _ | .callFlagGet _ | .callFlagString _ | .regionId _ | .rlock _ | .runlock _ => True
  | _ => False

/-- only looks -/
def OnlyLooks {α : Type} : Prog α → Prop
  | .ret _ => True
  | .op c k => Looks c ∧ ∀ r, OnlyLooks (k r)

/-- a goroutine that changes the registry by calls of the library only, and uses only handles that it has: those of the first `n`
directories to be created, in particular the root, those that the library returns to it and those that it gets from other goroutines -/
inductive Calls (fnTy : ℕ → GoTy) : ℕ → G → Prop where
  | done {n} : Calls fnTy n .done
  | gets {n k} : (∀ d m, n ≤ m → d < m → Calls fnTy m (k d)) → Calls fnTy n (.gets k)
  | registerMetric {n f} (d path spec group unit desc) : d < n → (∀ r m, n ≤ m → Calls fnTy m (f r)) →
      Calls fnTy n (call (Api.dirRegisterMetricInGroup fnTy d path spec group unit desc) f)
  | registerDirectory {n f} (d path) : d < n → (∀ r m, n ≤ m → (∀ d', r = .ok d' → d' < m) → Calls fnTy m (f r)) →
      Calls fnTy n (call (Api.dirRegisterDirectory d path) f)
  | unregisterPath {n f} (d path) : d < n → (∀ r m, n ≤ m → Calls fnTy m (f r)) → Calls fnTy n (call (Api.dirUnregisterPath d path) f)
  | unregisterDirectory {n f} (d) : d < n → (∀ r m, n ≤ m → Calls fnTy m (f r)) → Calls fnTy n (call (Api.unregisterDirectory d) f)
  | getDirectory {n f} (path) : (∀ r m, n ≤ m → (∀ d', r = .ok d' → d' < m) → Calls fnTy m (f r)) →
      Calls fnTy n (call (apiGetDirectory path) f)
  | single {n} (c : Cmd) {k} : Single c → (∀ r m, n ≤ m → Calls fnTy m (k r)) → Calls fnTy n (.op c k)
  /-- requests by HTTP, RPC and from within the application -/
  | request {n} {α : Type} {f : α → G} (p : Prog α) : OnlyLooks p → (∀ r m, n ≤ m → Calls fnTy m (f r)) → Calls fnTy n (call p f)

/-- the registry with everything it reads, and the goroutines -/
structure St where
  mem : State
  gs : List G

/-- who, what and when -/
structure Item where
  who : ℕ
  cmd : Cmd
  pre : State

/-- the step as seen by goroutine `i` -/
def Item.seen (i : ℕ) (e : Item) : Ev := ⟨decide (e.who = i), e.cmd, e.pre⟩

/-- Part of a run of an application: goroutines start, pass on handles of existing directories, and make their steps. -/
inductive Run (w : World) : St → List Item → St → Prop where
  | nil (x : St) : Run w x [] x
  | start {x : St} {H : List Item} {y : St} (g : G) : Calls w.fnTy 1 g → Run w ⟨x.mem, x.gs ++ [g]⟩ H y → Run w x H y
  | gets {x : St} {H : List Item} {y : St} (i : ℕ) (k : ℕ → G) (d : ℕ) : x.gs[i]? = some (.gets k) → d < x.mem.tree.dirs.length →
      Run w ⟨x.mem, x.gs.set i (k d)⟩ H y → Run w x H y
  | go {x : St} {H : List Item} {y : St} (i : ℕ) (c : Cmd) (k : c.Resp → G) : x.gs[i]? = some (.op c k) →
      Run w ⟨(exec w c x.mem).1, x.gs.set i (k (exec w c x.mem).2)⟩ H y → Run w x (⟨i, c, x.mem⟩ :: H) y

/-- a program begins -/
def start : St := ⟨State.init, []⟩

end Tricorder.App
