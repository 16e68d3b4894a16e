import Verif.Go.Str
import Mathlib.Data.Nat.Notation
import Mathlib.Tactic.Common
/-!
# The health server  (`/repo/go/healthserver/api.go`, `/repo/go/healthserver/impl.go`)

A small-step machine: any number of goroutines, each in one call of the package.  A string variable takes two machine
words, so an assignment takes two steps, and a read between them yields garbage; only the mutex prevents this.
Not modelled: the registration of the handlers in `init`, the transport of the page, response headers.
-/

namespace Tricorder.Health
open Go

/-- the two variables protected by the mutex, `/repo/go/healthserver/impl.go:11-12` -/
inductive Which where
  | health
  | ready
deriving DecidableEq, Repr

/-- calls: the four functions of `/repo/go/healthserver/api.go:16-43` and requests for the two paths,
`/repo/go/healthserver/impl.go:16-17` -/
inductive Call where
  | setHealthy
  | setNotHealthy (status : Str)
  | setReady
  | setNotReady (status : Str)
  | healthz
  | readiness
deriving DecidableEq, Repr

/-- how a call ends: it returns, it panics, or the page was sent; `garbage` is the effect of a data race;
`/repo/go/healthserver/impl.go:20-26` -/
inductive Result where
  | returned
  | panicked
  | page (code : ℕ) (body : Str)
  | garbage
deriving DecidableEq, Repr

/-- a string variable, or one whose assignment is not complete; `/repo/go/healthserver/impl.go:11-12` -/
inductive Word where
  | whole (s : Str)
  | torn
deriving DecidableEq, Repr

/-- the variables, `/repo/go/healthserver/impl.go:8-13` -/
structure Globals where
  locked : Bool
  healthStatus : Word
  readyStatus : Word
deriving DecidableEq, Repr

/-- `/repo/go/healthserver/impl.go:10-12` -/
def Globals.init : Globals := ⟨false, .whole [], .whole (lit "not ready")⟩

/-- value of a variable, `/repo/go/healthserver/impl.go:30,37` -/
def Globals.get (g : Globals) : Which → Word
  | .health => g.healthStatus
  | .ready => g.readyStatus

/-- assignment to a variable, `/repo/go/healthserver/impl.go:45,51` -/
def Globals.set (g : Globals) (x : Which) (v : Word) : Globals :=
  match x with
  | .health => { g with healthStatus := v }
  | .ready => { g with readyStatus := v }

/-- Where a goroutine is: at the start of the call; before `mutex.Lock()`; before the assignment or read; in the
middle of the assignment; before `mutex.Unlock()`; in `commonHandler` with the status read; at the end;
`/repo/go/healthserver/impl.go:28-52`. -/
inductive PC where
  | start
  | lock
  | access
  | half
  | unlock (read : Word)
  | answer (status : Word)
  | done (r : Result)
deriving DecidableEq, Repr

/-- `commonHandler`, `/repo/go/healthserver/impl.go:20-26`; `http.Error` sends the message and a line feed -/
def commonHandler (status : Str) : Result :=
  if status = [] then .page 200 (lit "OK") else .page 503 (status ++ [10])

/-- the variable that a call uses and, if it is assigned, the new value; `none` is the panic of
`/repo/go/healthserver/api.go:25-27` and `/repo/go/healthserver/api.go:35-37` -/
def Call.plan : Call → Option (Which × Option Str)
  | .setHealthy => some (.health, some [])
  | .setNotHealthy status => if status = [] ∨ status = lit "OK" then none else some (.health, some status)
  | .setReady => some (.ready, some [])
  | .setNotReady status => if status = [] ∨ status = lit "OK" then none else some (.ready, some status)
  | .healthz => some (.health, none)
  | .readiness => some (.ready, none)

/-- One step of a goroutine: `setHealth` and `setReady`, `/repo/go/healthserver/impl.go:42-52`, `healthzHandler` and
`readinessHandler`, `/repo/go/healthserver/impl.go:28-40`.  `none`: the goroutine has to wait for the mutex, or the call
has ended. -/
def step (c : Call) (pc : PC) (g : Globals) : Option (Globals × PC) :=
  match c.plan with
  | none => match pc with
    | .start => some (g, .done .panicked)
    | _ => none
  | some (x, new) => match pc with
    | .start => some (g, .lock)
    | .lock => if g.locked then none else some ({ g with locked := true }, .access)
    | .access => match new with
      | some _ => some (g.set x .torn, .half)
      | none => some (g, .unlock (g.get x))
    | .half => match new with
      | some v => some (g.set x (.whole v), .unlock (.whole v))
      | none => none
    | .unlock v => match new with
      | some _ => some ({ g with locked := false }, .done .returned)
      | none => some ({ g with locked := false }, .answer v)
    | .answer (.whole v) => some (g, .done (commonHandler v))
    | .answer .torn => some (g, .done .garbage)
    | .done _ => none

/-- the variables and all calls made so far; a call is named by its position; notation of the model -/
structure State where
  globals : Globals
  calls : List (Call × PC)
deriving DecidableEq, Repr

/-- before any call, `/repo/go/healthserver/impl.go:8-13` -/
def State.init : State := ⟨.init, []⟩

/-- what can be seen from outside; notation of the model -/
inductive Ev where
  | inv (i : ℕ) (c : Call)
  | ret (i : ℕ) (r : Result)
deriving DecidableEq, Repr

/-- the event at the end of a call; notation of the model -/
def retEv (i : ℕ) : PC → List Ev
  | .done r => [.ret i r]
  | _ => []

/-- Runs, with the events in order: at any moment a new call can start, or one of the goroutines takes a step;
`/repo/go/healthserver/impl.go:20-52`. -/
inductive Run : List Ev → State → Prop where
  | init : Run [] .init
  | inv {tr s} (c : Call) : Run tr s → Run (tr ++ [.inv s.calls.length c]) ⟨s.globals, s.calls ++ [(c, .start)]⟩
  | step {tr s g pc'} (i : ℕ) (c : Call) (pc : PC) : Run tr s → s.calls[i]? = some (c, pc) →
      Health.step c pc s.globals = some (g, pc') → Run (tr ++ retEv i pc') ⟨g, s.calls.set i (c, pc')⟩

end Tricorder.Health
