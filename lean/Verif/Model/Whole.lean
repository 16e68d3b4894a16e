import Verif.Model.Group
import Verif.Model.Read
/-!
# The whole library: calls, shared memory and groups together

`Model/Sys` treats the taking of a group as one step with an arbitrary answer; `Model/Group` has the event loops, but no
metrics.  Here both run together.  Any number of goroutines call the library.  Each executes a program of `Model/Sys` step by
step on the shared memory; `RLock` and `RUnlock` in it go through the event loops of `Model/Group`, rendezvous by rendezvous.
While the update function of a group runs, it executes arbitrary steps on the shared memory.

Each `RLock` with the `RUnlock` that belongs to it is one request (`Client`) of `Model/Group`, which visits a single group;
the bookkeeping of a session with several groups (`/repo/go/tricorder/metric.go:88-110`) is in the programs.  A goroutine that
would release a group that it does not hold is stuck; no call of the library does this (C24).  `RegisterUpdateFunc` is called
by other requests of `Model/Group`, at any time.  Of the two numberings of ids the one of `Model/Sys` is used.
-/

namespace Tricorder

/-- `time.Time{}`, `/repo/go/tricorder/metric.go:131` -/
instance : Inhabited Go.Time := ⟨Go.Time.zero⟩

namespace Whole
open Go

/-- where a goroutine is: before the next step of its program, in `RLock` or in `RUnlock` of group `r` as client `cl`;
`/repo/go/tricorder/metric.go:194-202` -/
inductive PC (A : Type) where
  | run (p : Prog A)
  | lock (cl r : ℕ) (k : Time → Prog A)
  | unlock (cl r : ℕ) (k : Unit → Prog A)

/-- a goroutine, and the groups it holds with the clients as which it took them; `/repo/go/tricorder/metric.go:75-77` -/
structure Proc (A : Type) where
  pc : PC A
  held : List (ℕ × ℕ)

/-- the clients of a goroutine; notation of the model -/
def Proc.clients {A : Type} (p : Proc A) : List ℕ :=
  (match p.pc with
    | .lock cl _ _ => [cl]
    | _ => []) ++ p.held.map Prod.snd

/-- the shared memory, the groups and the goroutines; `/repo/go/tricorder/metric.go:32-36` -/
structure St (A : Type) where
  mem : State
  grp : Group.State Time
  procs : List (Proc A)

/-- the program starts: only `DefaultGroup` exists (`/repo/go/tricorder/api.go:62-66`); its update function is number 0,
`voidFunc` (`/repo/go/tricorder/metric.go:148-150`) -/
def start (A : Type) : St A := ⟨.init, ⟨[Group.newRegion 0 0], [], 1⟩, []⟩

/-- what happens: a goroutine calls the library; it executes a step; the update function of `r` executes a step; goroutine
`c` begins and ends `RLock` and `RUnlock`; anything else in the groups; notation of the model -/
inductive Lab (A : Type) where
  | spawn (c : ℕ) (p : Prog A)
  | own (c : ℕ) (cmd : Cmd)
  | upd (r : ℕ) (cmd : Cmd)
  | asks (c r cl : ℕ)
  | took (c r cl : ℕ) (t : Time)
  | gives (c r cl : ℕ)
  | gave (c r cl : ℕ)
  | loop

/-- a step of a run: what happened, the events in the groups, the shared memory before and after; notation of the model -/
structure Item (A : Type) where
  lab : Lab A
  evs : List (Group.Ev Time)
  pre : State
  post : State

/-- a step on the shared memory only; notation of the model -/
def MemOnly : Cmd → Prop
  | .rlock _ | .runlock _ | .newRegion => False
  | _ => True

/-- replace goroutine `c`; notation of the model -/
def St.setP {A : Type} (s : St A) (c : ℕ) (p : Proc A) : St A := { s with procs := s.procs.set c p }

/-- one step of anybody; `/repo/go/tricorder/metric.go:134-202` -/
inductive Step {A : Type} (w : World) : St A → Item A → St A → Prop where
  /-- a goroutine calls the library -/
  | spawn (s : St A) (p : Prog A) :
      Step w s ⟨.spawn s.procs.length p, [], s.mem, s.mem⟩ { s with procs := s.procs ++ [⟨.run p, []⟩] }
  /-- it executes a step -/
  | own (s : St A) (c : ℕ) (held : List (ℕ × ℕ)) (cmd : Cmd) (k : cmd.Resp → Prog A) :
      s.procs[c]? = some ⟨.run (.op cmd k), held⟩ → MemOnly cmd → cmd.Ok s.mem →
      Step w s ⟨.own c cmd, [], s.mem, (exec w cmd s.mem).1⟩
        { s.setP c ⟨.run (k (exec w cmd s.mem).2), held⟩ with mem := (exec w cmd s.mem).1 }
  /-- `NewGroup`, `/repo/go/tricorder/api.go:71-73` -/
  | newGroup (s : St A) (c : ℕ) (held : List (ℕ × ℕ)) (k : ℕ → Prog A) :
      s.procs[c]? = some ⟨.run (.op .newRegion k), held⟩ →
      Step w s ⟨.own c .newRegion, [.newGroup s.grp.regions.length 0 s.grp.nextId], s.mem, (exec w .newRegion s.mem).1⟩
        { s.setP c ⟨.run (k s.mem.regions.length), held⟩ with
          mem := (exec w .newRegion s.mem).1
          grp := ⟨s.grp.regions ++ [Group.newRegion s.grp.nextId 0], s.grp.clients, i64 (s.grp.nextId + 1)⟩ }
  /-- the update function of `r`, which is running, executes a step -/
  | upd (s : St A) (r : ℕ) (g : Group.Region Time) (cmd : Cmd) :
      s.grp.regions[r]? = some g → g.loop = .calling → MemOnly cmd → cmd.Ok s.mem →
      Step w s ⟨.upd r cmd, [], s.mem, (exec w cmd s.mem).1⟩ { s with mem := (exec w cmd s.mem).1 }
  /-- `RLock` begins -/
  | asks (s : St A) (c r : ℕ) (held : List (ℕ × ℕ)) (k : Time → Prog A) :
      s.procs[c]? = some ⟨.run (.op (.rlock r) k), held⟩ → r < s.grp.regions.length →
      Step w s ⟨.asks c r s.grp.clients.length, [.opened s.grp.clients.length], s.mem, s.mem⟩
        { s.setP c ⟨.lock s.grp.clients.length r k, held⟩ with
          grp := { s.grp with clients := s.grp.clients ++ [⟨[], .lockSend r⟩] } }
  /-- `RLock` has returned `t` -/
  | took (s : St A) (c r cl : ℕ) (t : Time) (held : List (ℕ × ℕ)) (k : Time → Prog A) :
      s.procs[c]? = some ⟨.lock cl r k, held⟩ → s.grp.clients[cl]? = some ⟨[(r, t)], .user⟩ →
      Step w s ⟨.took c r cl t, [], s.mem, s.mem⟩ (s.setP c ⟨.run (k t), (r, cl) :: held⟩)
  /-- `RUnlock` begins -/
  | gives (s : St A) (c r cl : ℕ) (client : Group.Client Time) (held : List (ℕ × ℕ)) (k : Unit → Prog A) :
      s.procs[c]? = some ⟨.run (.op (.runlock r) k), held⟩ → held.lookup r = some cl →
      s.grp.clients[cl]? = some client → client.pc = .user →
      Step w s ⟨.gives c r cl, [.closeBegin cl], s.mem, s.mem⟩
        { s.setP c ⟨.unlock cl r k, held⟩ with
          grp := s.grp.setC cl { client with pc := .closing (client.visited.map Prod.fst) } }
  /-- `RUnlock` has returned -/
  | gave (s : St A) (c r cl : ℕ) (client : Group.Client Time) (held : List (ℕ × ℕ)) (k : Unit → Prog A) :
      s.procs[c]? = some ⟨.unlock cl r k, held⟩ → s.grp.clients[cl]? = some client → client.pc = .closed →
      Step w s ⟨.gave c r cl, [], s.mem, s.mem⟩ (s.setP c ⟨.run (k ()), held.erase (r, cl)⟩)
  /-- anything else in the groups; a client of a goroutine neither begins a call nor closes by itself -/
  | loop (s : St A) (es : List (Group.Ev Time)) (g : Group.State Time) :
      Group.Step s.grp es g → g.regions.length = s.grp.regions.length →
      (∀ p ∈ s.procs, ∀ cl ∈ p.clients, ∀ client, s.grp.clients[cl]? = some client →
        (client.pc = .user ∨ client.pc = .closed) → g.clients[cl]? = some client) →
      Step w s ⟨.loop, es, s.mem, s.mem⟩ { s with grp := g }

/-- all runs of the library; notation of the model -/
inductive Run {A : Type} (w : World) : List (Item A) → St A → Prop where
  | nil : Run w [] (start A)
  | snoc {tr s it s'} : Run w tr s → Step w s it s' → Run w (tr ++ [it]) s'

/-- the answers to calls; `/repo/go/tricorder/rpc.go:23-35` -/
inductive Answer where
  | listing (ms : List Metric) (st : Status)
  | single (m : Option (Out Metric))
  | other

/-- a call of `ListMetrics`, `ReadMyMetrics`, or of the JSON listing; `/repo/go/tricorder/rpc.go:23-26` -/
def listCall (json : Bool) (fuel : ℕ) (path : Str) : Prog Answer :=
  (listMetrics json fuel path).bind fun r => .ret (.listing r.1 r.2)

/-- a call of `GetMetric`, or of the JSON singleton; `/repo/go/tricorder/rpc.go:28-35` -/
def getCall (json : Bool) (path : Str) : Prog Answer :=
  (getMetricMsg json path).bind fun r => .ret (.single r)

end Whole
end Tricorder
