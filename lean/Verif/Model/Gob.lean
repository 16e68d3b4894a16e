import Verif.Model.Messages
/-!
# What the RPC server can send

`net/rpc` encodes the answers of `/repo/go/tricorder/rpc.go:23-35` with `encoding/gob`.  The fields `Value` and
`TimeStamp` of a metric are interfaces; gob sends a value in an interface with the name of its concrete type, which must
have been registered.  If the encoding fails, `net/rpc` closes the connection.

Assumed of the library: gob registers the predeclared types and slices of them itself, it sends a nil interface, and
it refuses a nil pointer in an interface.  The bytes are not modelled.
-/

namespace Tricorder

/-- concrete types of the values in the field `Value`, `/repo/go/tricorder/messages/api.go:69-98` -/
inductive GobTy where
  | scalar (t : ScalarTy)
  | slice (sliceNamed : Option ℕ) (elem : ScalarTy)
  /-- `*messages.Distribution` -/
  | dist
deriving DecidableEq, Repr

/-- the predeclared types; what `registerBasics` of `encoding/gob` registers, so that `init`,
`/repo/go/tricorder/messages/api.go:165-176`, does not have to -/
def gobPredeclared : List BaseTy :=
  [.int .int, .int .int8, .int .int16, .int .int32, .int .int64,
   .int .uint, .int .uint8, .int .uint16, .int .uint32, .int .uint64, .float32, .float64, .bool, .string]

/-- the types that gob knows without being told: the predeclared types and slices of them; `registerBasics` of
`encoding/gob`, which `/repo/go/tricorder/messages/api.go:165-176` relies on -/
def gobBasics : List GobTy :=
  gobPredeclared.map (fun b => .scalar ⟨none, b⟩) ++ gobPredeclared.map (fun b => .slice none ⟨none, b⟩)

/-- the types that package `messages` registers, `init`, `/repo/go/tricorder/messages/api.go:165-176` -/
def messagesInit : List GobTy :=
  [.scalar ⟨none, .time⟩, .scalar ⟨none, .duration⟩, .slice none ⟨none, .time⟩, .slice none ⟨none, .duration⟩, .dist]

/-- the registered types after the `init` functions, `/repo/go/tricorder/messages/api.go:165-176` -/
def gobRegistry : List GobTy := gobBasics ++ messagesInit

/-- Gob can send this value of the field `Value interface{}`, `/repo/go/tricorder/messages/api.go:114`: it is nil, or its
type is registered and it is not a nil pointer. -/
def gobSends (reg : List GobTy) : Val → Bool
  | .nil => true
  | .scalar n b => reg.contains (.scalar ⟨n, b.ty⟩)
  | .slice n e _ => reg.contains (.slice n e)
  | .dist (some _) => reg.contains .dist
  | .dist none => false
  | .other _ => false

/-- the same for the field `TimeStamp interface{}`, `/repo/go/tricorder/messages/api.go:121` -/
def gobSendsTime (reg : List GobTy) : TS → Bool
  | .nil => true
  | .time _ => reg.contains (.scalar ⟨none, .time⟩)
  | .str _ => reg.contains (.scalar ⟨none, .string⟩)
  | .other _ => false

/-- gob can send this metric, `/repo/go/tricorder/messages/api.go:99-125`; the other fields are strings and integers -/
def gobMetric (reg : List GobTy) (x : Metric) : Bool := gobSends reg x.value && gobSendsTime reg x.timeStamp

/-- What the client gets of the answer of `ListMetrics`, `/repo/go/tricorder/rpc.go:23-26`; `none`: `net/rpc` closes the
connection since the answer cannot be encoded.  Gob sends the whole list as one value. -/
def rpcSend (reg : List GobTy) (ms : List Metric) : Option (List Metric) := if ms.all (gobMetric reg) then some ms else none

end Tricorder
