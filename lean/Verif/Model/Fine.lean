import Verif.Model.Locks
import Verif.Model.Whole
/-!
# The whole library, field by field

`Model/Whole` executes each method on the shared memory in one step; `Model/Locks` executes the methods field by field under
their locks, but has no groups.  Here both run together: any number of goroutines execute programs of `Model/Sys`; each method in
them is called, waits for its lock, reads and writes field by field, releases the lock and returns, while the others do the same;
`RLock` and `RUnlock` go through the event loops of `Model/Group`; and the update functions, which run inside the event loops,
call methods in the same way.

Goroutine `c` of `Model/Whole` is goroutine `2 * c` of `Model/Locks`; the event loop of group `r` is goroutine `2 * r + 1`.
-/

namespace Tricorder.Fine
open Go

/-- memory with the locks, groups, goroutines; `/repo/go/tricorder/metric.go:32-36,326-339,595-601,1461-1466` -/
structure St (A : Type) where
  lk : Locks.St
  grp : Group.State Time
  procs : List (Whole.Proc A)

/-- the program starts, with at most `n` goroutines of `Model/Locks`; `/repo/go/tricorder/api.go:62-66` -/
def start (A : Type) (n : ℕ) : St A := ⟨Locks.start n, ⟨[Group.newRegion 0 0], [], 1⟩, []⟩

/-- what happens: as in `Model/Whole`, but instead of a step on the memory one of those of `Model/Locks`; notation of the model -/
inductive Lab (A : Type) where
  | spawn (c : ℕ) (p : Prog A)
  | lk (l : Locks.Lab)
  | asks (c r cl : ℕ)
  | took (c r cl : ℕ) (t : Time)
  | gives (c r cl : ℕ)
  | gave (c r cl : ℕ)
  | loop

/-- what happened, and the events in the groups; notation of the model -/
structure Item (A : Type) where
  lab : Lab A
  evs : List (Group.Ev Time)

/-- the update function of group `r` is running; `/repo/go/tricorder/metric.go:171-174` -/
def Calling (g : Group.State Time) (r : ℕ) : Prop := ∃ x, g.regions[r]? = some x ∧ x.loop = .calling

/-- one step of anybody; `/repo/go/tricorder/metric.go:134-202,362-429,563-593,680-698,1582-1613,1659-1695` -/
inductive Step {A : Type} (w : World) : St A → Item A → St A → Prop where
  /-- a goroutine calls the library -/
  | spawn (s : St A) (p : Prog A) :
      Step w s ⟨.spawn s.procs.length p, []⟩ { s with procs := s.procs ++ [⟨.run p, []⟩] }
  /-- it calls a method -/
  | call (s : St A) (c : ℕ) (held : List (ℕ × ℕ)) (cmd : Cmd) (k : cmd.Resp → Prog A) (lk : Locks.St) :
      s.procs[c]? = some ⟨.run (.op cmd k), held⟩ → Whole.MemOnly cmd ∨ cmd = .newRegion →
      Locks.Step w s.lk (.call (2 * c) cmd) lk → Step w s ⟨.lk (.call (2 * c) cmd), []⟩ { s with lk := lk }
  /-- the update function of `r`, which is running, calls a method -/
  | updCall (s : St A) (r : ℕ) (cmd : Cmd) (lk : Locks.St) :
      Calling s.grp r → Whole.MemOnly cmd → Locks.Step w s.lk (.call (2 * r + 1) cmd) lk →
      Step w s ⟨.lk (.call (2 * r + 1) cmd), []⟩ { s with lk := lk }
  /-- somebody gets a lock, or reads or writes a field -/
  | quiet (s : St A) (i : ℕ) (lk : Locks.St) :
      Locks.Step w s.lk (.quiet i) lk → Step w s ⟨.lk (.quiet i), []⟩ { s with lk := lk }
  /-- the last step in a method -/
  | effect (s : St A) (i : ℕ) (cmd : Cmd) (r : cmd.Resp) (lk : Locks.St) :
      Whole.MemOnly cmd → Locks.Step w s.lk (.effect i cmd r) lk → Step w s ⟨.lk (.effect i cmd r), []⟩ { s with lk := lk }
  /-- `NewGroup`, `/repo/go/tricorder/api.go:71-73` -/
  | newGroup (s : St A) (i : ℕ) (r : Cmd.newRegion.Resp) (lk : Locks.St) :
      Locks.Step w s.lk (.effect i .newRegion r) lk →
      Step w s ⟨.lk (.effect i .newRegion r), [.newGroup s.grp.regions.length 0 s.grp.nextId]⟩
        { s with
          lk := lk
          grp := ⟨s.grp.regions ++ [Group.newRegion s.grp.nextId 0], s.grp.clients, i64 (s.grp.nextId + 1)⟩ }
  /-- a method returns to a goroutine -/
  | ret (s : St A) (c : ℕ) (held : List (ℕ × ℕ)) (cmd : Cmd) (k : cmd.Resp → Prog A) (r : cmd.Resp) (lk : Locks.St) :
      s.procs[c]? = some ⟨.run (.op cmd k), held⟩ → Locks.Step w s.lk (.ret (2 * c) cmd r) lk →
      Step w s ⟨.lk (.ret (2 * c) cmd r), []⟩ { s with lk := lk, procs := s.procs.set c ⟨.run (k r), held⟩ }
  /-- a method returns to an update function -/
  | updRet (s : St A) (i : ℕ) (cmd : Cmd) (r : cmd.Resp) (lk : Locks.St) :
      Locks.Step w s.lk (.ret (2 * i + 1) cmd r) lk → Step w s ⟨.lk (.ret (2 * i + 1) cmd r), []⟩ { s with lk := lk }
  /-- `RLock` begins -/
  | asks (s : St A) (c r : ℕ) (held : List (ℕ × ℕ)) (k : Time → Prog A) :
      s.procs[c]? = some ⟨.run (.op (.rlock r) k), held⟩ → r < s.grp.regions.length →
      Step w s ⟨.asks c r s.grp.clients.length, [.opened s.grp.clients.length]⟩
        { s with
          procs := s.procs.set c ⟨.lock s.grp.clients.length r k, held⟩
          grp := { s.grp with clients := s.grp.clients ++ [⟨[], .lockSend r⟩] } }
  /-- `RLock` has returned `t` -/
  | took (s : St A) (c r cl : ℕ) (t : Time) (held : List (ℕ × ℕ)) (k : Time → Prog A) :
      s.procs[c]? = some ⟨.lock cl r k, held⟩ → s.grp.clients[cl]? = some ⟨[(r, t)], .user⟩ →
      Step w s ⟨.took c r cl t, []⟩ { s with procs := s.procs.set c ⟨.run (k t), (r, cl) :: held⟩ }
  /-- `RUnlock` begins -/
  | gives (s : St A) (c r cl : ℕ) (client : Group.Client Time) (held : List (ℕ × ℕ)) (k : Unit → Prog A) :
      s.procs[c]? = some ⟨.run (.op (.runlock r) k), held⟩ → held.lookup r = some cl →
      s.grp.clients[cl]? = some client → client.pc = .user →
      Step w s ⟨.gives c r cl, [.closeBegin cl]⟩
        { s with
          procs := s.procs.set c ⟨.unlock cl r k, held⟩
          grp := s.grp.setC cl { client with pc := .closing (client.visited.map Prod.fst) } }
  /-- `RUnlock` has returned -/
  | gave (s : St A) (c r cl : ℕ) (client : Group.Client Time) (held : List (ℕ × ℕ)) (k : Unit → Prog A) :
      s.procs[c]? = some ⟨.unlock cl r k, held⟩ → s.grp.clients[cl]? = some client → client.pc = .closed →
      Step w s ⟨.gave c r cl, []⟩ { s with procs := s.procs.set c ⟨.run (k ()), held.erase (r, cl)⟩ }
  /-- anything else in the groups; an update function does not return while a method that it called has not -/
  | loop (s : St A) (es : List (Group.Ev Time)) (g : Group.State Time) :
      Group.Step s.grp es g → g.regions.length = s.grp.regions.length →
      (∀ p ∈ s.procs, ∀ cl ∈ p.clients, ∀ client, s.grp.clients[cl]? = some client →
        (client.pc = .user ∨ client.pc = .closed) → g.clients[cl]? = some client) →
      (∀ r ph, s.lk.phases[2 * r + 1]? = some ph → ph ≠ .idle → Calling g r) →
      Step w s ⟨.loop, es⟩ { s with grp := g }

/-- all runs of the library; notation of the model -/
inductive Run {A : Type} (w : World) (n : ℕ) : List (Item A) → St A → Prop where
  | nil : Run w n [] (start A n)
  | snoc {tr s it s'} : Run w n tr s → Step w s it s' → Run w n (tr ++ [it]) s'

end Tricorder.Fine
