import Verif.Go.Num
import Mathlib.Tactic.Common
import Mathlib.Data.Int.Notation
import Mathlib.Data.Nat.Notation
/-!
# Groups: event loops, channels, sessions  (`/repo/go/tricorder/metric.go:32-203`)

A small-step machine.  Each group (`region`) has a goroutine running `handleRequests`; any number of
request goroutines, each with its own session, talk to it over the group's four shared unbuffered
channels.  One step of the machine is one rendezvous or one local action, so every schedule of the
goroutines is a run.  `τ` stands for `time.Time`.  An update function is a name `Fn`; what it does and
returns is arbitrary, but it returns and does not itself use the group machinery (an update function
that reads metrics of its own group blocks for ever, see `C20_update_reading_own_group_blocks`).
Each step emits events; properties are stated over the sequence of events.
Simplification: `lockCount` is an unbounded integer.
-/

namespace Tricorder.Group
open Go

/-- groups, requests and update functions are numbered -/
scoped macro "Rid" : term => `(Nat)
scoped macro "Cid" : term => `(Nat)
scoped macro "Fn" : term => `(Nat)

/-- where the goroutine of a group is in `handleRequests`
(`/repo/go/tricorder/metric.go:183-192`); a received request is being handled, the update function is
running, the reply is being sent, or the goroutine has panicked -/
inductive Loop (τ : Type) where
  | select
  | handle (n : ℤ)
  | calling
  | reply (t : τ)
  | handleFn (f : Fn)
  | replyFn
  | crashed
deriving DecidableEq

/-- `region` (`/repo/go/tricorder/metric.go:119-132`): the fields owned by the event loop, and the id -/
structure Region (τ : Type) where
  id : ℤ
  lockCount : ℤ
  updateFunc : Fn
  updateTime : τ
  loop : Loop τ
deriving DecidableEq

/-- where a request goroutine is: in code outside of the session; in `RLock`
(`/repo/go/tricorder/metric.go:194-197`) before the send, before the receive or
after it, before the time is recorded in the session; in `session.Close`
(`/repo/go/tricorder/metric.go:104-110`) with the groups of the `range` loop still to do; in `RUnlock`
(`/repo/go/tricorder/metric.go:199-202`); done; in `registerUpdateFunc`
(`/repo/go/tricorder/metric.go:160-163`); panicked because it used a closed session -/
inductive PC (τ : Type) where
  | user
  | lockSend (r : Rid)
  | lockRecv (r : Rid)
  | lockDone (r : Rid) (t : τ)
  | closing (todo : List Rid)
  | unlockSend (r : Rid) (todo : List Rid)
  | unlockRecv (r : Rid) (todo : List Rid)
  | closed
  | fnSend (r : Rid) (f : Fn)
  | fnRecv (r : Rid)
  | panicked
deriving DecidableEq

/-- `session` (`/repo/go/tricorder/metric.go:75-81`) and the goroutine using it -/
structure Client (τ : Type) where
  visited : List (Rid × τ)
  pc : PC τ
deriving DecidableEq

/-- all groups and requests; `nextId` belongs to the goroutine of `newIdSequence`
(`/repo/go/tricorder/metric.go:38-48`) -/
structure State (τ : Type) where
  regions : List (Region τ)
  clients : List (Client τ)
  nextId : ℤ
deriving DecidableEq

/-- nothing created yet; `/repo/go/tricorder/metric.go:32-36` -/
def init (τ : Type) : State τ := ⟨[], [], 0⟩

/-- events: creation of groups and of other owners of a group id; opening of a request; the loop of `r` accepted the
lock increment `n` from `c`; call and return of an update function; `c` received the reply `t` from `r`; `c` did
`Visit(r)` with result `t`; `c` begins and ends `Close`; the loop of `r` accepted a new update function; `c` received
the confirmation; notation of the model; the steps are those of `/repo/go/tricorder/metric.go:88-202` -/
inductive Ev (τ : Type) where
  | newGroup (r : Rid) (f : Fn) (id : ℤ)
  | newOther (id : ℤ)
  | opened (c : Cid)
  | accept (c : Cid) (r : Rid) (n : ℤ)
  | updBegin (r : Rid) (f : Fn)
  | updEnd (r : Rid) (f : Fn) (t : τ)
  | answer (c : Cid) (r : Rid) (t : τ)
  | visit (c : Cid) (r : Rid) (t : τ)
  | closeBegin (c : Cid)
  | closeEnd (c : Cid)
  | acceptFn (c : Cid) (r : Rid) (f : Fn)
  | answerFn (c : Cid) (r : Rid)
deriving DecidableEq

/-- `handleLockUnlock` up to the call of the update function
(`/repo/go/tricorder/metric.go:165-176`) -/
def Region.handleLockUnlock {τ : Type} (g : Region τ) (n : ℤ) : Region τ :=
  let g' := { g with lockCount := g.lockCount + n }
  if g'.lockCount < 0 then { g' with loop := .crashed }
  else if g.lockCount = 0 ∧ g'.lockCount > 0 then { g' with loop := .calling }
  else { g' with loop := .reply g.updateTime }

/-- the events of `handleLockUnlock` up to there; `/repo/go/tricorder/metric.go:165-176` -/
def Region.handleEvents {τ : Type} (g : Region τ) (r : Rid) (n : ℤ) : List (Ev τ) :=
  match (g.handleLockUnlock n).loop with
  | .calling => [.updBegin r g.updateFunc]
  | _ => []

/-- `newRegion` (`/repo/go/tricorder/metric.go:134-146`) -/
def newRegion {τ : Type} [Inhabited τ] (id : ℤ) (f : Fn) : Region τ := ⟨id, 0, f, default, .select⟩

/-- `session.Visit` up to the send in `RLock` (`/repo/go/tricorder/metric.go:88-99`).
The second component is the result if the group has been visited before. -/
def Client.visit {τ : Type} (c : Client τ) (r : Rid) : Client τ × Option τ :=
  match c.visited.lookup r with
  | some t => (c, some t)
  | none => ({ c with pc := .lockSend r }, none)

/-- is the client waiting for a lock/unlock reply of group `r`; what does it do on receipt of `t`;
`/repo/go/tricorder/metric.go:194-202` -/
def Client.receive {τ : Type} (cl : Client τ) (r : Rid) (t : τ) : Option (Client τ) :=
  match cl.pc with
  | .lockRecv r' =>
      if r' = r then some { cl with pc := .lockDone r t } else none
  | .unlockRecv r' todo =>
      if r' = r then some { cl with pc := .closing todo } else none
  | _ => none

/-- is the client offering a lock increment to group `r`; what does it do when it is taken;
`/repo/go/tricorder/metric.go:194-202` -/
def Client.send {τ : Type} (cl : Client τ) (r : Rid) : Option (Client τ × ℤ) :=
  match cl.pc with
  | .lockSend r' => if r' = r then some ({ cl with pc := .lockRecv r }, 1) else none
  | .unlockSend r' todo => if r' = r then some ({ cl with pc := .unlockRecv r todo }, -1) else none
  | _ => none

/-- replace region `r`, client `c`; notation of the model -/
def State.setR {τ : Type} (s : State τ) (r : Rid) (g : Region τ) : State τ :=
  { s with regions := s.regions.set r g }
/-- replace client `c`; notation of the model -/
def State.setC {τ : Type} (s : State τ) (c : Cid) (cl : Client τ) : State τ :=
  { s with clients := s.clients.set c cl }

/-- one step of some goroutine, with its events; `/repo/go/tricorder/metric.go:38-202` -/
inductive Step {τ : Type} [Inhabited τ] : State τ → List (Ev τ) → State τ → Prop where
  /-- `newRegion` -/
  | newGroup (s : State τ) (f : Fn) :
      Step s [.newGroup s.regions.length f s.nextId]
        ⟨s.regions ++ [newRegion s.nextId f], s.clients, i64 (s.nextId + 1)⟩
  /-- `newDistributionWithTimeStamp`, `newListWithTimeStamp` take an id
      (`/repo/go/tricorder/metric.go:349-360`, `/repo/go/tricorder/metric.go:668-678`) -/
  | newOther (s : State τ) : Step s [.newOther s.nextId] { s with nextId := i64 (s.nextId + 1) }
  /-- `newSession` -/
  | openSession (s : State τ) :
      Step s [.opened s.clients.length] { s with clients := s.clients ++ [⟨[], .user⟩] }
  /-- `Visit` of a group visited before -/
  | visitAgain (s : State τ) (c : Cid) (cl : Client τ) (r : Rid) (t : τ) :
      s.clients[c]? = some cl → cl.pc = .user → (cl.visit r).2 = some t → Step s [.visit c r t] s
  /-- `Visit` of a new group -/
  | visitNew (s : State τ) (c : Cid) (cl : Client τ) (r : Rid) :
      s.clients[c]? = some cl → cl.pc = .user → r < s.regions.length → (cl.visit r).2 = none →
      Step s [] (s.setC c (cl.visit r).1)
  /-- `Visit` after `Close` panics -/
  | visitClosed (s : State τ) (c : Cid) (cl : Client τ) :
      s.clients[c]? = some cl → cl.pc = .closed → Step s [] (s.setC c { cl with pc := .panicked })
  /-- rendezvous on `sendCh` -/
  | send (s : State τ) (c : Cid) (cl cl' : Client τ) (r : Rid) (g : Region τ) (n : ℤ) :
      s.clients[c]? = some cl → s.regions[r]? = some g → g.loop = .select → cl.send r = some (cl', n) →
      Step s [.accept c r n] ((s.setC c cl').setR r { g with loop := .handle n })
  /-- the event loop handles the request up to the update function -/
  | handle (s : State τ) (r : Rid) (g : Region τ) (n : ℤ) :
      s.regions[r]? = some g → g.loop = .handle n →
      Step s (g.handleEvents r n) (s.setR r (g.handleLockUnlock n))
  /-- the update function returns `t` -/
  | updated (s : State τ) (r : Rid) (g : Region τ) (t : τ) :
      s.regions[r]? = some g → g.loop = .calling →
      Step s [.updEnd r g.updateFunc t] (s.setR r { g with updateTime := t, loop := .reply t })
  /-- rendezvous on `receiveCh`: with any goroutine that is waiting there -/
  | receive (s : State τ) (c : Cid) (cl cl' : Client τ) (r : Rid) (g : Region τ) (t : τ) :
      s.clients[c]? = some cl → s.regions[r]? = some g → g.loop = .reply t → cl.receive r t = some cl' →
      Step s [.answer c r t] ((s.setC c cl').setR r { g with loop := .select })
  /-- the first `Visit` of a group returns -/
  | visitDone (s : State τ) (c : Cid) (cl : Client τ) (r : Rid) (t : τ) :
      s.clients[c]? = some cl → cl.pc = .lockDone r t →
      Step s [.visit c r t] (s.setC c ⟨(r, t) :: cl.visited, .user⟩)
  /-- `Close` begins; the groups are visited in any order -/
  | closeBegin (s : State τ) (c : Cid) (cl : Client τ) :
      s.clients[c]? = some cl → cl.pc = .user →
      Step s [.closeBegin c] (s.setC c { cl with pc := .closing (cl.visited.map Prod.fst) })
  | closeNext (s : State τ) (c : Cid) (cl : Client τ) (r : Rid) (todo : List Rid) :
      s.clients[c]? = some cl → cl.pc = .closing todo → r ∈ todo →
      Step s [] (s.setC c { cl with pc := .unlockSend r (todo.erase r) })
  | closeEnd (s : State τ) (c : Cid) (cl : Client τ) :
      s.clients[c]? = some cl → cl.pc = .closing [] →
      Step s [.closeEnd c] (s.setC c ⟨[], .closed⟩)
  /-- a second `Close` does nothing -/
  | closeAgain (s : State τ) (c : Cid) (cl : Client τ) :
      s.clients[c]? = some cl → cl.pc = .closed → Step s [] s
  /-- `registerUpdateFunc` by any goroutine -/
  | fnBegin (s : State τ) (c : Cid) (cl : Client τ) (r : Rid) (f : Fn) :
      s.clients[c]? = some cl → cl.pc = .user → r < s.regions.length →
      Step s [] (s.setC c { cl with pc := .fnSend r f })
  | fnSend (s : State τ) (c : Cid) (cl : Client τ) (r : Rid) (f : Fn) (g : Region τ) :
      s.clients[c]? = some cl → cl.pc = .fnSend r f → s.regions[r]? = some g → g.loop = .select →
      Step s [.acceptFn c r f] ((s.setC c { cl with pc := .fnRecv r }).setR r { g with loop := .handleFn f })
  /-- `handleUpdateFunc` (`/repo/go/tricorder/metric.go:178-181`) -/
  | fnHandle (s : State τ) (r : Rid) (f : Fn) (g : Region τ) :
      s.regions[r]? = some g → g.loop = .handleFn f →
      Step s [] (s.setR r { g with updateFunc := f, loop := .replyFn })
  | fnReceive (s : State τ) (c : Cid) (cl : Client τ) (r : Rid) (g : Region τ) :
      s.clients[c]? = some cl → cl.pc = .fnRecv r → s.regions[r]? = some g → g.loop = .replyFn →
      Step s [.answerFn c r] ((s.setC c { cl with pc := .user }).setR r { g with loop := .select })

/-- runs from a state, with the sequence of events; notation of the model: interleavings of the steps of
`/repo/go/tricorder/metric.go:38-202` -/
inductive Run {τ : Type} [Inhabited τ] (s0 : State τ) : List (Ev τ) → State τ → Prop where
  | nil : Run s0 [] s0
  | snoc {tr s es s'} : Run s0 tr s → Step s es s' → Run s0 (tr ++ es) s'

end Tricorder.Group
