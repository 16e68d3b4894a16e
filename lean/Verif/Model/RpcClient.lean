import Verif.Model.Gob
import Verif.Model.Http
import Verif.Model.Read
/-!
# A client of the RPC interface

Models `/repo/go/tricorderclient/tricorderclient.go`, which calls the methods of `/repo/go/tricorder/rpc.go:23-35` and decodes
their answers into variables that it uses again.  Dialing, closing and waiting are not modelled.

Assumed of `encoding/gob`: a field that has the zero value of its type is not sent, and decoding leaves the fields that were
not sent as they are; an interface is decoded into a new value; decoding a slice of pointers uses the array of the old slice
if it is long enough, and the objects its elements point to; a slice without elements is decoded as nil or as an empty
slice, which is a parameter.  Of `net/rpc`: if the method returns an error, or the answer cannot be encoded, or the server
dies, then the call returns an error and the variable stays as it is.
-/

namespace Tricorder
open Go

/-- parts of `encoding/gob` that are parameters: whether a slice without elements is decoded as nil, and the capacity, beyond
the length, of the slices it makes; used by `/repo/go/tricorderclient/tricorderclient.go:33,39,46` -/
structure GobLib where
  emptyNil : Bool
  extra : ℕ → ℕ

/-- a slice without elements, as it arrives; used by `/repo/go/tricorderclient/tricorderclient.go:33,39,46` -/
def GobLib.empty (lib : GobLib) : Option (List Base) := if lib.emptyNil then none else some []

/-- a value of the field `Value`, `/repo/go/tricorder/messages/api.go:114`, as it arrives -/
def gobVal (lib : GobLib) : Val → Val
  | .slice n e l => .slice n e (match l with
    | none => lib.empty
    | some [] => lib.empty
    | some l => some l)
  | v => v

/-- the zero value of `messages.Metric`, `/repo/go/tricorder/messages/api.go:99-125` -/
def zeroMetric : Metric := ⟨[], [], .unknown, .unknown, .unknown, 0, .nil, .nil, 0⟩

/-- decoding the metric `new` into a variable that holds `old`; `/repo/go/tricorder/messages/api.go:99-125` has the fields -/
def gobInto (lib : GobLib) (old new : Metric) : Metric where
  path := if new.path = [] then old.path else new.path
  description := if new.description = [] then old.description else new.description
  unit := if new.unit.raw = [] then old.unit else new.unit
  kind := if new.kind.name = [] then old.kind else new.kind
  subType := if new.subType.name = [] then old.subType else new.subType
  bits := if new.bits = 0 then old.bits else new.bits
  value := if new.value = .nil then old.value else gobVal lib new.value
  timeStamp := if new.timeStamp = .nil then old.timeStamp else new.timeStamp
  groupId := if new.groupId = 0 then old.groupId else new.groupId

/-- a variable of type `messages.MetricList`: is it nil, its array (`none` is a nil pointer), its length; such as `metrics`,
`/repo/go/tricorderclient/tricorderclient.go:32` -/
structure ListVar where
  isNil : Bool
  cells : List (Option Metric)
  len : ℕ

/-- the variable `metrics` in the beginning, `/repo/go/tricorderclient/tricorderclient.go:32` -/
def ListVar.zero : ListVar := ⟨true, [], 0⟩

/-- the metrics in the list; used by `/repo/go/tricorderclient/tricorderclient.go:37,43` -/
def ListVar.metrics (v : ListVar) : List Metric := (v.cells.take v.len).filterMap id

/-- decoding metrics into the elements of an array; used by `/repo/go/tricorderclient/tricorderclient.go:33,39` -/
def gobCells (lib : GobLib) : List (Option Metric) → List Metric → List (Option Metric)
  | cs, [] => cs
  | [], new => new.map fun x => some (gobInto lib zeroMetric x)
  | c :: cs, x :: new => some (gobInto lib (c.getD zeroMetric) x) :: gobCells lib cs new

/-- decoding a list of metrics into a variable; used by `/repo/go/tricorderclient/tricorderclient.go:33,39` -/
def ListVar.into (lib : GobLib) (v : ListVar) (new : List Metric) : ListVar :=
  if v.cells.length < new.length then
    ⟨false, gobCells lib (List.replicate (new.length + lib.extra new.length) none) new, new.length⟩
  else ⟨v.isNil && lib.emptyNil, gobCells lib v.cells new, new.length⟩

namespace RpcClient

/-- `client.Call("MetricsServer.ListMetrics", path, &metrics)`, `/repo/go/tricorderclient/tricorderclient.go:33-36,39-42`; `none`
is an error -/
def callList (lib : GobLib) (fuel : ℕ) (path : Str) (v : ListVar) : Prog (Option ListVar) :=
  (listMetrics false fuel path).bind fun
    | (ms, .ok) => .ret ((rpcSend gobRegistry ms).map (v.into lib))
    | _ => .ret none

/-- what the client has after `GetMetric` answered; `/repo/go/tricorderclient/tricorderclient.go:46-49` -/
def received (lib : GobLib) (old : Metric) : Option (Out Metric) → Option Metric
  | some (.ok x) => if gobMetric gobRegistry x then some (gobInto lib old x) else none
  | _ => none

/-- `client.Call("MetricsServer.GetMetric", path, &single)`, `/repo/go/tricorderclient/tricorderclient.go:46-49,52-64`; `none` is
an error -/
def callGet (lib : GobLib) (path : Str) (old : Metric) : Prog (Option Metric) :=
  (getMetricMsg false path).bind fun r => .ret (received lib old r)

/-- what the program prints, and where: a line on standard output, the text of a JSON value on standard *input*, a line of the
log; `/repo/go/tricorderclient/tricorderclient.go:15,22,23,54` -/
inductive Printed where
  | stdout (s : Str)
  | stdin (j : Json)
  | log (s : Str)

/-- `printAsJson`, `/repo/go/tricorderclient/tricorderclient.go:14-24`, with the result of `json.Marshal`; `false`: the program
ends, since the value is not encodable.  The errors of `WriteTo` are ignored there. -/
def printAsJson (desc : Str) : Option Json → List Printed × Bool
  | none => ([.stdout desc, .log (lit "Marshalling:")], false)
  | some j => ([.stdout desc, .stdin j, .stdout []], true)

/-- `json.Marshal` of the variable `metrics`; used by `/repo/go/tricorderclient/tricorderclient.go:37,43` -/
def jsonListVar (lib : JsonLib) (v : ListVar) : Option Json := if v.isNil then some .null else jsonList lib v.metrics

/-- print, then go on if the program did not end; `/repo/go/tricorderclient/tricorderclient.go:37-65` -/
def andThen (p : List Printed × Bool) (k : Prog (List Printed × Bool)) : Prog (List Printed × Bool) :=
  if p.2 then k.bind fun r => .ret (p.1 ++ r.1, r.2) else .ret p

/-- a call of `GetMetric` whose error is only logged, `/repo/go/tricorderclient/tricorderclient.go:52-57,59-64`; `k` is the rest
of the program -/
def tryGet (gl : GobLib) (jl : JsonLib) (path desc err : Str) (single : Metric)
    (k : Metric → Prog (List Printed × Bool)) : Prog (List Printed × Bool) :=
  (callGet gl path single).bind fun
    | none => andThen ([.log err], true) (k single)
    | some x => andThen (printAsJson desc (jsonMetric jl x)) (k x)

/-- the part from `:59` on of `main`, `/repo/go/tricorderclient/tricorderclient.go:59-68` -/
def main5 (gl : GobLib) (jl : JsonLib) (single : Metric) : Prog (List Printed × Bool) :=
  tryGet gl jl (lit "/list/squares") (lit "/list/squares metric") (lit "Got error for /list/squares:") single
    fun _ => .ret ([], true)

/-- the part from `:52` on of `main`, `/repo/go/tricorderclient/tricorderclient.go:52-68` -/
def main4 (gl : GobLib) (jl : JsonLib) (single : Metric) : Prog (List Printed × Bool) :=
  tryGet gl jl (lit "/proc/foo/ddd") (lit "/proc/foo/ddd metric") (lit "Got error for /proc/foo/ddd:") single (main5 gl jl)

/-- `log.Fatal("Calling:", err)`, `/repo/go/tricorderclient/tricorderclient.go:34-36` -/
def fatal : List Printed × Bool := ([.log (lit "Calling:")], false)

/-- the part from `:45` on of `main`, `/repo/go/tricorderclient/tricorderclient.go:45-68` -/
def main3 (gl : GobLib) (jl : JsonLib) : Prog (List Printed × Bool) :=
  (callGet gl (lit "/proc/foo/bar/baz") zeroMetric).bind fun
    | none => .ret fatal
    | some x => andThen (printAsJson (lit "/proc/foo/bar/baz metric") (jsonMetric jl x)) (main4 gl jl x)

/-- the part from `:39` on of `main`, `/repo/go/tricorderclient/tricorderclient.go:39-68` -/
def main2 (gl : GobLib) (jl : JsonLib) (fuel : ℕ) (metrics : ListVar) : Prog (List Printed × Bool) :=
  (callList gl fuel (lit "/aaa/bbb") metrics).bind fun
    | none => .ret fatal
    | some v => andThen (printAsJson (lit "aaa/bbb metrics") (jsonListVar jl v)) (main3 gl jl)

/-- `main`, `/repo/go/tricorderclient/tricorderclient.go:26-68`, once it is connected: what it prints, and whether it gets to
the end -/
def main (gl : GobLib) (jl : JsonLib) (fuel : ℕ) : Prog (List Printed × Bool) :=
  (callList gl fuel [] ListVar.zero).bind fun
    | none => .ret fatal
    | some v => andThen (printAsJson (lit "All metrics") (jsonListVar jl v)) (main2 gl jl fuel v)

end RpcClient
end Tricorder
