import Verif.Proof.PlayW
import Verif.Model.Api
/-!
# The project's test of groups, played in the model

`doGlobalsTest`, `/repo/go/tricorder/metric_test.go:139-328`: single reads, two listings at the same time, two listings one
after the other.  The runs are runs of `Model/Whole`; a scheduler picks the steps.  A test of the model, not a proof of a
property: no theorem depends on this file.
-/

namespace Tricorder.Tests
open Go Whole

private def day : ℤ := 86400
/-- 2016-04-20 -/
private def april20 : ℤ := 1461110400
private def at' (d h : ℤ) : Time := ⟨april20 + day * (d - 20) + 3600 * h, 0⟩

private def intVar (s : State) (v : ℕ) : ℤ := match s.vars[v]? with
  | some (.scalar _ (.int _ x)) => x
  | _ => 0
private def timeVar (s : State) (v : ℕ) : Time := match s.vars[v]? with
  | some (.scalar _ (.time t)) => t
  | _ => Time.zero

private def gint (x : ℤ) : Dyn := .scalar none (.int .int x)
private def gtime (t : Time) : Dyn := .scalar none (.time t)

/-- callback 1 is `firstGlobal * secondGlobal`; variables 0 to 7 are the numbers, 8 to 10 the times -/
private def globalsWorld : World where
  ord := fun _ l => l
  ord_perm := fun _ _ => .rfl
  fnTy := fun _ => .scalar ⟨none, .int .int⟩
  fn := fun s _ => some (gint (intVar s 0 * intVar s 1))
  fn_ty := by intro s f d h; cases h; rfl
  flagGet := fun _ _ => none
  flagString := fun _ _ => none
  lockTime := fun _ _ => Time.zero

/-- `incrementFirstAndSecondGlobal`, `incrementThirdToSixthGlobal`, `incrementSeventhAndEighthGlobal`,
`/repo/go/tricorder/metric_test.go:57-78`: the variables and the time of group `r` -/
private def varsOf : ℕ → List ℕ × ℕ
  | 1 => ([0, 1], 8)
  | 2 => ([2, 3, 4, 5], 9)
  | _ => ([6, 7], 10)

private def update (r : ℕ) (s : State) : List (Move Answer) :=
  let t := timeVar s (varsOf r).2
  let t' : Time := ⟨t.sec + day, t.nsec⟩
  (varsOf r).1.map (fun v => .upd r (.writeVar v (gint (intVar s v + 1)))) ++
    [.upd r (.writeVar (varsOf r).2 (gtime t')), .updated r t']

/-- `registerMetricsForGlobalsTest`, `/repo/go/tricorder/metric_test.go:86-114` -/
private def setup : Prog Answer := do
  let rec vars : List Dyn → Prog Unit
    | [] => return ()
    | d :: ds => do
      let _ ← Prog.step (.newVar d)
      vars ds
  vars ((List.range 8).map (fun i : ℕ => gint (100 * (i + 1))) ++ [gtime (at' 20 1), gtime (at' 20 3), gtime (at' 20 7)])
  let g1 ← Prog.step .newRegion
  let g3 ← Prog.step .newRegion
  let g7 ← Prog.step .newRegion
  let reg := fun (p : Str) (m : RegSpec) (g : ℕ) => Api.registerMetricInGroup globalsWorld.fnTy p m (some g) .none []
  let _ ← reg (lit "/firstGroup/first") (.ptr 0) g1
  let _ ← reg (lit "/firstGroup/second") (.ptr 1) g1
  let _ ← reg (lit "/firstGroup/firstTimesSecond") (.func 1 1) g1
  let _ ← reg (lit "/firstGroup/third") (.ptr 2) g3
  let _ ← reg (lit "/firstGroup/fourth") (.ptr 3) g3
  let _ ← reg (lit "/secondGroup/fifth") (.ptr 4) g3
  let _ ← reg (lit "/secondGroup/sixth") (.ptr 5) g3
  let _ ← reg (lit "/secondGroup/seventh") (.ptr 6) g7
  let _ ← reg (lit "/secondGroup/eighth") (.ptr 7) g7
  return .other

/-- what group `r` does next by itself -/
private def loopMoves (s : St Answer) (cl r : ℕ) : List (Move Answer) :=
  match s.grp.regions[r]? with
  | none => []
  | some g => match g.loop with
    | .handle _ => [.handle r]
    | .calling => update r s.mem
    | .reply _ => [.receive cl r]
    | _ => []

/-- the moves that bring goroutine `c` forward; none if it is done, or, if `hold`, before it releases a group -/
private def nextMoves (c : ℕ) (hold : Bool) (s : St Answer) : List (Move Answer) :=
  match s.procs[c]? with
  | none => []
  | some ⟨.run (.ret _), _⟩ => []
  | some ⟨.run (.op (.runlock _) _), _⟩ => if hold then [] else [.go c]
  | some ⟨.run _, _⟩ => [.go c]
  | some ⟨.lock cl r _, _⟩ | some ⟨.unlock cl r _, _⟩ => match s.grp.clients[cl]? with
    | none => []
    | some client => match client.pc with
      | .lockSend _ | .unlockSend _ _ => [.send cl r]
      | .lockRecv _ | .unlockRecv _ _ => loopMoves s cl r
      | .lockDone _ _ => [.visited cl]
      | .closing [] => [.closed cl]
      | .closing (r' :: _) => [.next cl r']
      | _ => [.go c]

private def drive (c : ℕ) (hold : Bool) : ℕ → St Answer → Option (St Answer)
  | 0, _ => none
  | n + 1, s => match nextMoves c hold s with
    | [] => some s
    | ms => match playW globalsWorld ms [] s with
      | none => none
      | some (_, s') => drive c hold n s'

/-- a goroutine is started -/
private def begin' (p : Prog Answer) (s : St Answer) : St Answer := { s with procs := s.procs ++ [⟨.run p, []⟩] }

private def call (p : Prog Answer) (s : St Answer) : Option (St Answer) :=
  drive s.procs.length false 500 (begin' p s)

private def calls : List (Prog Answer) → St Answer → Option (St Answer)
  | [], s => some s
  | p :: ps, s => (call p s).bind (calls ps)

private structure Row where
  path : Str
  value : ℤ
  time : TS
deriving DecidableEq

private def rowOf (m : Metric) : Row :=
  ⟨m.path, match m.value with
    | .scalar _ (.int _ x) => x
    | _ => 0, m.timeStamp⟩

private def answerOf (s : St Answer) (c : ℕ) : Option (List Row) :=
  match s.procs[c]? with
  | some ⟨.run (.ret (.listing ms .ok)), []⟩ => some (ms.map rowOf)
  | some ⟨.run (.ret (.single (some (.ok m)))), []⟩ => some [rowOf m]
  | _ => none

private def gidOf (s : St Answer) (c : ℕ) : Option ℕ :=
  match s.procs[c]? with
  | some ⟨.run (.ret (.single (some (.ok m)))), []⟩ => some m.groupId
  | _ => none

private def get (p : Str) : Prog Answer := getCall false p
private def list (p : Str) : Prog Answer := listCall false 5 p

/-- `/repo/go/tricorder/metric_test.go:143-174`: single reads; goroutine 0 is the setup -/
private def afterSingles : Option (St Answer) :=
  calls [setup, get (lit "/firstGroup/first"), get (lit "/firstGroup/firstTimesSecond"), get (lit "/firstGroup/third"),
    get (lit "/secondGroup/sixth"), get (lit "/secondGroup/seventh"), get (lit "/secondGroup/eighth")] (start Answer)

/-- `/repo/go/tricorder/metric_test.go:190-215`: listings 7 and 8 at the same time -/
private def afterBoth : Option (St Answer) := do
  let s ← afterSingles
  let s ← drive 7 true 500 (begin' (list (lit "/firstGroup")) s)
  let s ← drive 8 true 500 (begin' (list (lit "/secondGroup")) s)
  let s ← drive 7 false 500 s
  drive 8 false 500 s

/-- `/repo/go/tricorder/metric_test.go:248-328`: listings 9 and 10 one after the other, reads 11 and 12 -/
private def afterAll : Option (St Answer) := do
  let s ← afterBoth
  calls [list (lit "/firstGroup"), list (lit "/secondGroup"), get (lit "/firstGroup/first"), get (lit "/secondGroup/seventh")] s

private def firstRows (x1 x2 x12 x3 x4 : ℤ) (t1 t3 : Time) : Option (List Row) :=
  some [⟨lit "/firstGroup/first", x1, .time t1⟩, ⟨lit "/firstGroup/firstTimesSecond", x12, .time t1⟩,
    ⟨lit "/firstGroup/fourth", x4, .time t3⟩, ⟨lit "/firstGroup/second", x2, .time t1⟩,
    ⟨lit "/firstGroup/third", x3, .time t3⟩]

private def secondRows (x5 x6 x7 x8 : ℤ) (t3 t7 : Time) : Option (List Row) :=
  some [⟨lit "/secondGroup/eighth", x8, .time t7⟩, ⟨lit "/secondGroup/fifth", x5, .time t3⟩,
    ⟨lit "/secondGroup/seventh", x7, .time t7⟩, ⟨lit "/secondGroup/sixth", x6, .time t3⟩]

example : afterAll.map (fun s => (List.range 13).map fun c => (answerOf s c).map (List.map Row.value)) =
    some [none, some [101], some [20604], some [301], some [602], some [701], some [802],
      some [103, 20909, 403, 203, 303], some [803, 503, 703, 603], some [104, 21216, 404, 204, 304],
      some [804, 505, 704, 605], some [105], some [705]] := by decide +kernel

example : afterAll.map (fun s => (List.range' 7 4).map (answerOf s)) =
    some [firstRows 103 203 20909 303 403 (at' 23 1) (at' 23 3), secondRows 503 603 703 803 (at' 23 3) (at' 23 7),
      firstRows 104 204 21216 304 404 (at' 24 1) (at' 24 3), secondRows 505 605 704 804 (at' 25 3) (at' 24 7)] := by
  decide +kernel

example : (afterAll.bind fun s => gidOf s 12) = (afterAll.bind fun s => gidOf s 11).map (· + 2) ∧
    (afterAll.bind fun s => gidOf s 11).isSome := by decide +kernel

end Tricorder.Tests
