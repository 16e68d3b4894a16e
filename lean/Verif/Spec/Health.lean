import Verif.Model.Health
/-!
# What the health server promises

`/repo/go/healthserver/api.go:1-43`, as a claim about the order in which calls take effect.
-/

namespace Tricorder.Health.Spec
open Go

/-- the status of a subsystem: `none` is OK -/
abbrev Status := Option Str

/-- texts that cannot be set -/
def Rejected (s : Str) : Prop := s = [] ∨ s = lit "OK"

/-- does the call set the health status, and to what? -/
def setsHealth : Call → Option Status
  | .setHealthy => some none
  | .setNotHealthy s => if s = [] ∨ s = lit "OK" then none else some (some s)
  | _ => none

/-- does the call set the readiness, and to what? -/
def setsReady : Call → Option Status
  | .setReady => some none
  | .setNotReady s => if s = [] ∨ s = lit "OK" then none else some (some s)
  | _ => none

/-- the last value set by the calls, in order, or else the one at the start -/
def latest (sets : Call → Option Status) (start : Status) (cs : List Call) : Status :=
  ((cs.filterMap sets).getLast?).getD start

/-- the page for a status -/
def page : Status → Result
  | none => .page 200 (lit "OK")
  | some s => .page 503 (s ++ [10])

/-- the result of call `c` after the calls `before` -/
def result (before : List Call) (c : Call) : Result :=
  match c with
  | .healthz => page (latest setsHealth none before)
  | .readiness => page (latest setsReady (some (lit "not ready")) before)
  | .setNotHealthy s | .setNotReady s => if s = [] ∨ s = lit "OK" then .panicked else .returned
  | _ => .returned

/-- The list `L` of calls is an order in which the calls of the history `tr` take effect one by one: it has all calls
that returned, and maybe some that are still running, each once; a call that returned before another one started comes
first; each call returned the result that it has after the calls before it. -/
structure Explains (tr : List Ev) (L : List (ℕ × Call)) : Prop where
  once : (L.map Prod.fst).Nodup
  made : ∀ x ∈ L, Ev.inv x.1 x.2 ∈ tr
  all : ∀ i r, Ev.ret i r ∈ tr → ∃ c, (i, c) ∈ L
  order : ∀ i r j c, [Ev.ret i r, Ev.inv j c].Sublist tr → (j, c) ∈ L → ∃ ci, [(i, ci), (j, c)].Sublist L
  results : ∀ a i c b r, L = a ++ [(i, c)] ++ b → Ev.ret i r ∈ tr → r = result (a.map Prod.snd) c

end Tricorder.Health.Spec
