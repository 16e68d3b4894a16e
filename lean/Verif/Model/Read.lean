import Verif.Model.Registry
import Verif.Model.Render
/-!
# Reading metrics: sessions, evaluation, listings

Models the reading half of `/repo/go/tricorder/metric.go` and the four endpoints in
`/repo/go/tricorder/rpc.go`, `/repo/go/tricorder/json.go`, `/repo/go/tricorder/html.go`.

`defer s.Close()` runs on a normal return and on a panic; code that can panic therefore returns
its session together with an `Out`.
-/

namespace Tricorder
open Go

/-- `session`, `/repo/go/tricorder/metric.go:75-77`: the groups visited and their times -/
abbrev Session := List (ℕ × Time)

/-- `session.Visit`, `/repo/go/tricorder/metric.go:88-98`; the session is open -/
def visit (s : Session) (r : ℕ) : Prog (Session × Time) :=
  match s.lookup r with
  | some t => .ret (s, t)
  | none => .op (.rlock r) fun t => .ret ((r, t) :: s, t)

/-- `session.Close`, `/repo/go/tricorder/metric.go:104-110`.  The map order does not matter: every
group is released. -/
def close : Session → Prog Unit
  | [] => .ret ()
  | (r, _) :: rest => .op (.runlock r) fun _ => close rest

/-- a `reflect.Value`: still referring to the variable, or a value; `/repo/go/tricorder/metric.go:944-961` -/
inductive Handle where
  | var (v : ℕ)
  | val (d : Dyn)
deriving DecidableEq, Repr

/-- the result of a call as a handle; `/repo/go/tricorder/metric.go:952-960` -/
def called : Option Dyn → Out Handle
  | none => .panic
  | some d => .ok (.val d)

/-- the second half of `evaluate`, `/repo/go/tricorder/metric.go:952-960`.  For a variable the result
still refers to the variable, which is read later. -/
def evalSrc : Option Src → Prog (Out Handle)
  | none => .ret .panic
  | some (.var v) => .ret (.ok (.var v))
  | some (.fn f) => .op (.callFn f) fun r => .ret (called r)
  | some (.flagGet g) => .op (.callFlagGet g) fun r => .ret (called r)
  | some (.flagString g) => .op (.callFlagString g) fun r =>
      .ret (called (r.map fun s => .scalar none (.string s)))

/-- `evaluate`, `/repo/go/tricorder/metric.go:944-961`, with a session.  A metric that is in no group
(nil group) is not visited. -/
def evalIn (v : MValue) (s : Session) : Prog (Session × Out Handle) :=
  match v.region with
  | none => (evalSrc v.src).bind fun h => .ret (s, h)
  | some r => (visit s r).bind fun st => (evalSrc v.src).bind fun h => .ret (st.1, h)

/-- `evaluate` without a session: makes its own and closes it on return; `/repo/go/tricorder/metric.go:945-948` -/
def evalAlone (v : MValue) : Prog (Out Handle) :=
  (evalIn v []).bind fun sh => (close sh.1).bind fun _ => .ret sh.2

/-- `evaluate`, `/repo/go/tricorder/metric.go:944-961` -/
def evaluate (v : MValue) : Option Session → Prog (Option Session × Out Handle)
  | some s => (evalIn v s).bind fun sh => .ret (some sh.1, sh.2)
  | none => (evalAlone v).bind fun h => .ret (none, h)

/-- read what a handle refers to; a missing variable is impossible; `/repo/go/tricorder/metric.go:967-1005` -/
def deref : Handle → Prog (Option Dyn)
  | .val d => .ret (some d)
  | .var v => .op (.readVar v) fun d => .ret d

/-- evaluate and convert; `conv` gives `none` for a panic; `/repo/go/tricorder/metric.go:967-1093` -/
def readAs {α : Type} (v : MValue) (s : Option Session) (conv : Dyn → Option α) :
    Prog (Option Session × Out α) :=
  (evaluate v s).bind fun
    | (s', .panic) => .ret (s', .panic)
    | (s', .ok h) => (deref h).bind fun d => match d.bind conv with
      | none => .ret (s', .panic)
      | some a => .ret (s', .ok a)

/-- `IsInfNaN`, `/repo/go/tricorder/metric.go:988-994` -/
def isInfNaN (v : MValue) (s : Option Session) : Prog (Option Session × Out Bool) :=
  if v.valType.isFloat then readAs v s fun d => d.float.map fun x => x.isNaN || x.isInf
  else .ret (s, .ok false)

/-- `AsInterface`, `/repo/go/tricorder/metric.go:1088-1093` -/
def asInterface (v : MValue) (s : Option Session) : Prog (Option Session × Out Val) :=
  match v.src with
  | none => .ret (s, .panic)
  | some _ => readAs v s fun d => valueToInterface d v.valType v.isPtr

/-- `AsTextString`, `/repo/go/tricorder/metric.go:1243-1249` -/
def asTextString (fm : Fmts) (v : MValue) (s : Option Session) : Prog (Option Session × Out Str) :=
  match v.src with
  | none => .ret (s, .panic)
  | some _ => readAs v s fun d => valueToTextString fm d v.valType v.unit v.isPtr

/-- `AsHtmlString`, `/repo/go/tricorder/metric.go:1348-1354` -/
def asHtmlString (fm : Fmts) (v : MValue) (s : Option Session) : Prog (Option Session × Out Str) :=
  match v.src with
  | none => .ret (s, .panic)
  | some _ => readAs v s fun d => valueToHtmlString fm d v.valType v.unit v.isPtr

/-- `asRanges`, `/repo/go/tricorder/metric.go:1118-1127` -/
def asRanges (b : List (Piece Fl × ℕ)) : List RangeMsg :=
  b.map fun x => ⟨x.1.start, x.1.stop, x.2⟩

/-- the `messages.Distribution` made from a snapshot, `/repo/go/tricorder/metric.go:1140-1149` -/
def distMsg (x : Snapshot Fl) : DistMsg :=
  ⟨x.min, x.max, x.average, x.median, x.sum, x.count, x.generation, x.isNotCumulative,
    asRanges x.breakdown⟩

/-- the fields set before the value, `/repo/go/tricorder/metric.go:1131-1135` and
`/repo/go/tricorder/metric.go:1388-1389`.  The value and time of the result are still nil. -/
def blankMetric (mv : MetricView) (subType : Ty) : Metric :=
  { path := mv.path, description := mv.description, unit := mv.value.unit, kind := mv.value.valType,
    subType := subType,
    bits := if mv.value.valType = .list then subType.bits else mv.value.valType.bits,
    value := .nil, timeStamp := .nil, groupId := 0 }

/-- a distribution metric, `/repo/go/tricorder/metric.go:1137-1151` -/
def distMetric (mv : MetricView) : Prog (Out Metric) :=
  match mv.value.dist with
  | none => .ret .panic
  | some i => .op (.snapshot i) fun
    | none => .ret .panic
    | some x => .ret (.ok { blankMetric mv .unknown with
        value := .dist (some (distMsg x.snap)), timeStamp := .time x.snap.timeStamp,
        groupId := x.groupId })

/-- a list metric, `/repo/go/tricorder/metric.go:1152-1155` -/
def listMetric (mv : MetricView) : Prog (Out Metric) :=
  match mv.value.alist with
  | none => .ret .panic
  | some i => .op (.getList i) fun
    | none => .ret .panic
    | some x => .ret (.ok { blankMetric mv x.subType with
        value := x.val, timeStamp := .time x.timeStamp, groupId := x.groupId })

/-- a scalar metric with a session, `/repo/go/tricorder/metric.go:1161-1163`: the value, `RegionId`
and `TimeStamp`; the last two panic for a nil group -/
def scalarMetric (mv : MetricView) (s : Session) : Prog (Session × Out Metric) :=
  (asInterface mv.value (some s)).bind fun
    | (s', .panic) => .ret (s'.getD [], .panic)
    | (s', .ok val) => match mv.value.region with
      | none => .ret (s'.getD [], .panic)
      | some r => .op (.regionId r) fun
        | none => .ret (s'.getD [], .panic)
        | some gid => (visit (s'.getD []) r).bind fun st =>
          .ret (st.1, .ok { blankMetric mv .unknown with
            value := val, timeStamp := .time st.2, groupId := gid })

/-- JSON conversion at the end of `updateJsonOrRpcMetric`, `/repo/go/tricorder/metric.go:1165-1167` -/
def encodeMetric (json : Bool) (m : Metric) : Out Metric :=
  if json then match m.convertToJson with
    | none => .panic
    | some m' => .ok m'
  else .ok m

/-- apply the encoding to a result; `/repo/go/tricorder/metric.go:1165-1167` -/
def encodeOut (json : Bool) : Out Metric → Out Metric
  | .panic => .panic
  | .ok m => encodeMetric json m

/-- `InitRpcMetric`/`InitJsonMetric` with `updateJsonOrRpcMetric`,
`/repo/go/tricorder/metric.go:1129-1168`, with a session -/
def initMetricIn (json : Bool) (mv : MetricView) (s : Session) : Prog (Session × Out Metric) :=
  if mv.value.valType = .dist then
    (distMetric mv).bind fun r => .ret (s, encodeOut json r)
  else if mv.value.valType = .list then
    (listMetric mv).bind fun r => .ret (s, encodeOut json r)
  else (scalarMetric mv s).bind fun sr => .ret (sr.1, encodeOut json sr.2)

/-- the same without a session: scalars make their own, closed when the function returns, which is after the
conversion to JSON; `/repo/go/tricorder/metric.go:1129-1168` -/
def initMetricAlone (json : Bool) (mv : MetricView) : Prog (Out Metric) :=
  (initMetricIn json mv []).bind fun sr => (close sr.1).bind fun _ => .ret sr.2

/-! ### listings -/

/-- how a traversal ends; `timeout` is the end of the model's fuel, see `traverse_total`;
`/repo/go/tricorder/metric.go:1509-1580` -/
inductive Status where
  | ok
  | err (e : ℕ)
  | panic
  | timeout
deriving DecidableEq, Repr

/-- a `metricsCollector` with its own state `A`, `/repo/go/tricorder/metric.go:1454-1458`; gets the
metric and the session, returns the new state, and an error number, success or a panic -/
abbrev Coll (A : Type) := ℕ → Session → A → Prog (Session × A × Status)

variable {A : Type}

/-- `collect`, `/repo/go/tricorder/metric.go:1509-1514`: metrics that are infinite or NaN are
skipped -/
def collect (coll : Coll A) (m : ℕ) (s : Session) (a : A) : Prog (Session × A × Status) :=
  .op (.metric m) fun
    | none => .ret (s, a, .panic)
    | some mv => (isInfNaN mv.value (some s)).bind fun
      | (s', .panic) => .ret (s'.getD [], a, .panic)
      | (s', .ok true) => .ret (s'.getD [], a, .ok)
      | (s', .ok false) => coll m (s'.getD []) a

/-- the loop of `GetAllMetrics`, `/repo/go/tricorder/metric.go:1569-1578`; `sub` is the recursive call
for a directory -/
def forEntries (sub : ℕ → Session → A → Prog (Session × A × Status)) (coll : Coll A) :
    List (ℕ × Entry) → Session → A → Prog (Session × A × Status)
  | [], s, a => .ret (s, a, .ok)
  | (_, en) :: rest, s, a =>
    (match en.dir, en.metric with
      | some d, _ => sub d s a
      | none, some m => collect coll m s a
      | none, none => .ret (s, a, .panic)).bind fun
      | (s', a', .ok) => forEntries sub coll rest s' a'
      | (s', a', .err e) => .ret (s', a', .err e)
      | (s', a', .panic) => .ret (s', a', .panic)
      | (s', a', .timeout) => .ret (s', a', .timeout)

/-- `GetAllMetrics`, `/repo/go/tricorder/metric.go:1563-1580`, with a session; `fuel` bounds the
depth -/
def traverse (coll : Coll A) : ℕ → ℕ → Session → A → Prog (Session × A × Status)
  | 0, _, s, a => .ret (s, a, .timeout)
  | fuel + 1, d, s, a =>
    .op (.list d) fun l => forEntries (traverse coll fuel) coll (sortEntries l) s a

/-- run a body with a new session and `defer s.Close()`; `/repo/go/tricorder/metric.go:1532-1535,1565-1568` -/
def withSession (body : Session → Prog (Session × A × Status)) : Prog (A × Status) :=
  (body []).bind fun r => (close r.1).bind fun _ => .ret r.2

/-- `GetAllMetrics` without a session; `/repo/go/tricorder/metric.go:1563-1580` -/
def getAllMetrics (coll : Coll A) (fuel d : ℕ) (a : A) : Prog (A × Status) :=
  withSession fun s => traverse coll fuel d s a

/-- `GetAllMetricsByPath`, `/repo/go/tricorder/metric.go:1529-1542`, without a session -/
def getAllMetricsByPath (coll : Coll A) (fuel d : ℕ) (path : Str) (a : A) : Prog (A × Status) :=
  (lookupPath d path).bind fun
    | (_, some m) => withSession fun s => collect coll m s a
    | (some dir, none) => getAllMetrics coll fuel dir a
    | (none, none) => .ret (a, .ok)

/-- `rpcMetricsCollector.Collect`, `/repo/go/tricorder/rpc.go:16-19`, and the JSON collector,
`/repo/go/tricorder/json.go:22-25`: append, never an error -/
def msgColl (json : Bool) : Coll (List Metric) := fun m s a =>
  .op (.metric m) fun
    | none => .ret (s, a, .panic)
    | some mv => (initMetricIn json mv s).bind fun
      | (s', .panic) => .ret (s', a, .panic)
      | (s', .ok x) => .ret (s', a ++ [x], .ok)

/-! ### endpoints -/

/-- RPC `ListMetrics`, `/repo/go/tricorder/rpc.go:23-26`, `ReadMyMetrics`,
`/repo/go/tricorder/metric.go:1867-1873`, and the JSON listing, `/repo/go/tricorder/json.go:46-48` -/
def listMetrics (json : Bool) (fuel : ℕ) (path : Str) : Prog (List Metric × Status) :=
  getAllMetricsByPath (msgColl json) fuel 0 path []

/-- RPC `GetMetric`, `/repo/go/tricorder/rpc.go:28-35`, and the JSON singleton,
`/repo/go/tricorder/json.go:39-44`.  `none` is `ErrMetricNotFound`, status 404. -/
def getMetricMsg (json : Bool) (path : Str) : Prog (Option (Out Metric)) :=
  (getMetric 0 path).bind fun
    | none => .ret none
    | some m => .op (.metric m) fun
      | none => .ret (some .panic)
      | some mv => (initMetricAlone json mv).bind fun r => .ret (some r)

/-- an `io.Writer`: its state, and writing a string, which may fail with error `e`; the argument `w` of
`/repo/go/tricorder/html.go:194,245,260` -/
structure Writer (W : Type) where
  write : W → Str → W × Option ℕ

/-- write strings until one fails; `/repo/go/tricorder/html.go:194-243` -/
def Writer.all {W : Type} (wr : Writer W) : W → List Str → W × Status
  | w, [] => (w, .ok)
  | w, x :: xs => match wr.write w x with
    | (w', some e) => (w', .err e)
    | (w', none) => wr.all w' xs

/-- one line of `textEmitDistribution` per non-empty piece, `/repo/go/tricorder/html.go:207-240` -/
def pieceText (fm : Fmts) (x : Piece Fl × ℕ) : List Str :=
  if x.2 = 0 then []
  else if x.1.first then [lit ";[-inf," ++ fm.f32 x.1.stop ++ lit "):" ++ fmtNat x.2]
  else if x.1.last then [lit ";[" ++ fm.f32 x.1.start ++ lit ",inf):" ++ fmtNat x.2]
  else [lit ";[" ++ fm.f32 x.1.start ++ lit "," ++ fm.f32 x.1.stop ++ lit "):" ++ fmtNat x.2]

/-- the strings that `textEmitDistribution` writes, `/repo/go/tricorder/html.go:194-243` -/
def distText (fm : Fmts) (x : Snapshot Fl) : List Str :=
  (lit "{min:" ++ fm.f32 x.min ++ lit ";max:" ++ fm.f32 x.max ++ lit ";avg:" ++ fm.f32 x.average ++
    lit ";median:" ++ fm.f32 x.median ++ lit ";sum:" ++ fm.f32 x.sum ++ lit ";count:" ++
    fmtNat x.count) :: (x.breakdown.flatMap (pieceText fm) ++ [lit "}\n"])

/-- the elements of a slice as handles; `/repo/go/tricorder/metric.go:700-719` -/
def elemsOf : Val → List Dyn
  | .slice _ e es => (es.getD []).map fun b => .scalar e.named b
  | _ => []

/-- render all elements; `none` is a panic; `/repo/go/tricorder/metric.go:700-719` -/
def renderAll (f : Dyn → Option Str) : List Dyn → Option (List Str)
  | [] => some []
  | d :: ds => match f d with
    | none => none
    | some x => (renderAll f ds).map (x :: ·)

/-- `textEmitMetric`, `/repo/go/tricorder/html.go:245-258` -/
def textEmitMetric (fm : Fmts) {W : Type} (wr : Writer W) (mv : MetricView) (s : Option Session)
    (w : W) : Prog (Option Session × W × Status) :=
  if mv.value.valType = .dist then
    match mv.value.dist with
    | none => .ret (s, w, .panic)
    | some i => .op (.snapshot i) fun
      | none => .ret (s, w, .panic)
      | some x => .ret (s, wr.all w (distText fm x.snap))
  else if mv.value.valType = .list then
    match mv.value.alist with
    | none => .ret (s, w, .panic)
    | some i => .op (.getList i) fun
      | none => .ret (s, w, .panic)
      | some x =>
        match renderAll (fun d => valueToTextString fm d x.subType mv.value.unit false)
            (elemsOf x.val) with
        | none => .ret (s, w, .panic)
        | some xs => .ret (s, wr.all w [joinByte 124 xs ++ [10]])
  else (asTextString fm mv.value s).bind fun
    | (s', .panic) => .ret (s', w, .panic)
    | (s', .ok x) => .ret (s', wr.all w [x ++ [10]])

/-- `textCollector.Collect`, `/repo/go/tricorder/html.go:187-192` -/
def textColl (fm : Fmts) {W : Type} (wr : Writer W) : Coll W := fun m s w =>
  .op (.metric m) fun
    | none => .ret (s, w, .panic)
    | some mv => match wr.write w (mv.path ++ [32]) with
      | (w', some e) => .ret (s, w', .err e)
      | (w', none) => (textEmitMetric fm wr mv (some s) w').bind fun r =>
          .ret (r.1.getD [], r.2)

/-- `textEmitDirectoryOrMetric`, `/repo/go/tricorder/html.go:260-271` -/
def textEndpoint (fm : Fmts) {W : Type} (wr : Writer W) (fuel : ℕ) (path : Str) (w : W) :
    Prog (W × Status) :=
  (lookupPath 0 path).bind fun
    | (none, none) => .ret ((wr.write w (lit "*Path does not exist.*")).1, .ok)
    | (some d, none) => getAllMetrics (textColl fm wr) fuel d w
    | (_, some m) => .op (.metric m) fun
      | none => .ret (w, .panic)
      | some mv => (textEmitMetric fm wr mv none w).bind fun r => .ret r.2

end Tricorder
