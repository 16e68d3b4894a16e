import Verif.Model.Group
/-!
# What the properties of groups say, over sequences of events

Only the events are used here, not the state of the machine, except in `NewCall` at the end.
-/

namespace Tricorder.Group

variable {τ : Type}

/-- increments accepted by group `r`, summed -/
def accepted (r : Rid) (tr : List (Ev τ)) : ℤ :=
  (tr.map fun e => match e with | .accept _ r' n => if r' = r then n else 0 | _ => 0).sum

/-- increments accepted by group `r` from request `c`, summed: 1 while `c` holds the group -/
def holds (c : Cid) (r : Rid) (tr : List (Ev τ)) : ℤ :=
  (tr.map fun e => match e with | .accept c' r' n => if c' = c ∧ r' = r then n else 0 | _ => 0).sum

/-- number of requests `c < n` that hold group `r` -/
def holders (n : ℕ) (r : Rid) (tr : List (Ev τ)) : ℕ :=
  ((List.range n).filter fun c => holds c r tr = 1).length

/-- what the update function of `r` returned last -/
def lastUpdate (r : Rid) (tr : List (Ev τ)) : Option τ :=
  tr.foldl (fun a e => match e with | .updEnd r' _ t => if r' = r then some t else a | _ => a) none

/-- the update function of `r` registered last -/
def currentFn (r : Rid) (tr : List (Ev τ)) : Option Fn :=
  tr.foldl (fun a e => match e with
    | .newGroup r' f _ => if r' = r then some f else a
    | .acceptFn _ r' f => if r' = r then some f else a
    | _ => a) none

/-- is the event the begin or end of an update of `r` -/
def isUpdate (r : Rid) : Ev τ → Bool
  | .updBegin r' _ => r' = r
  | .updEnd r' _ _ => r' = r
  | _ => false

/-- is the event a request accepted or answered by the event loop of `r` -/
def isTraffic (r : Rid) : Ev τ → Bool
  | .accept _ r' _ => r' = r
  | .answer _ r' _ => r' = r
  | .acceptFn _ r' _ => r' = r
  | .answerFn _ r' => r' = r
  | _ => false

/-- calls of the update function of `r` -/
def updateCalls (r : Rid) (tr : List (Ev τ)) : List Fn :=
  tr.filterMap fun e => match e with | .updBegin r' f => if r' = r then some f else none | _ => none

/-- how often `c` took, and released, group `r` -/
def takes (c : Cid) (r : Rid) (tr : List (Ev τ)) : ℕ :=
  tr.countP fun e => match e with | .accept c' r' n => c' = c ∧ r' = r ∧ n = 1 | _ => false
def releases (c : Cid) (r : Rid) (tr : List (Ev τ)) : ℕ :=
  tr.countP fun e => match e with | .accept c' r' n => c' = c ∧ r' = r ∧ n = -1 | _ => false

/-- ids handed out -/
def ids (tr : List (Ev τ)) : List ℤ :=
  tr.filterMap fun e => match e with | .newGroup _ _ i => some i | .newOther i => some i | _ => none

/-- a step that starts something new on behalf of user code: a creation, a visit, a registration, or a
use of a session already closed -/
def NewCall (s : State τ) (es : List (Ev τ)) (s' : State τ) : Prop :=
  s' = s ∨ (∃ r f i, es = [.newGroup r f i]) ∨ (∃ i, es = [.newOther i]) ∨ (∃ c, es = [.opened c]) ∨
  ∃ (c : Cid) (cl cl' : Client τ), s.clients[c]? = some cl ∧ s'.clients[c]? = some cl' ∧
    ((cl.pc = .user ∧ ((∃ r, cl'.pc = .lockSend r) ∨ ∃ r f, cl'.pc = .fnSend r f)) ∨ (cl.pc = .closed ∧ cl'.pc = .panicked))

end Tricorder.Group
