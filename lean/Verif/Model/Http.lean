import Verif.Model.Html
/-!
# HTTP

Models `/repo/go/tricorder/http.go`, `/repo/go/tricorder/json.go` and the handlers of `/repo/go/tricorder/html.go:273-315`.

From the standard library: `net/http` as far as the handlers use it (`Resp`, `http.Error`, `StripPrefix`, the patterns of
`ServeMux`), `encoding/json.Marshal` up to JSON values (`Json`), `compress/gzip` as a parameter (`Compressor`).  Not modelled:
headers that `net/http` adds (dates, lengths, sniffed content types), the log, the static pages
(`/repo/go/tricorder/http.go:35-50`).
-/

namespace Tricorder
open Go

/-! ### JSON values -/

/-- a JSON value.  `bytes` is a string, the base64 coding of the bytes; a number of Go type `float32` (`small`) is
written with fewer digits; used by `/repo/go/tricorder/json.go:44,48`. -/
inductive Json where
  | null
  | bool (b : Bool)
  | int (x : ℤ)
  | num (small : Bool) (x : Fl)
  | str (s : Str)
  | bytes (l : List ℤ)
  | arr (l : List Json)
  | obj (l : List (Str × Json))

/-- parts of `encoding/json` that are parameters: the text of a value (`Marshal`, indented by `Indent`),
`time.Time.MarshalJSON` and values of types that are not modelled (`none` is an error); used by
`/repo/go/tricorder/json.go:44,48,55` -/
structure JsonLib where
  text : Json → Str
  time : Time → Option Json
  other : ℕ → Option Json

/-- `encoding/json` has no infinite numbers and no NaN; used by `/repo/go/tricorder/json.go:44,48` -/
def jsonNum (small : Bool) (x : Fl) : Option Json := if x.isInf || x.isNaN then none else some (.num small x)

/-- `json.Marshal` of a scalar; used by `/repo/go/tricorder/json.go:44,48` -/
def jsonBase (lib : JsonLib) : Base → Option Json
  | .bool b => some (.bool b)
  | .int _ x => some (.int x)
  | .float32 x => jsonNum true x
  | .float64 x => jsonNum false x
  | .string s => some (.str s)
  | .time t => lib.time t
  | .duration d => some (.int d)

/-- the integer in a scalar; used by `/repo/go/tricorder/json.go:44,48` -/
def intOf : Base → ℤ
  | .int _ x => x
  | _ => 0

/-- a range, with the tags of `RangeWithCount`, `/repo/go/tricorder/messages/api.go:21-30` -/
def jsonRange (r : RangeMsg) : Option Json :=
  match jsonNum false r.lower, jsonNum false r.upper with
  | some a, some b => some (.obj [(lit "lower", a), (lit "upper", b), (lit "count", .int r.count)])
  | _, _ => none

/-- a distribution, with the tags of `Distribution`, `/repo/go/tricorder/messages/api.go:33-52` -/
def jsonDist (d : DistMsg) : Option Json :=
  match jsonNum false d.min, jsonNum false d.max, jsonNum false d.average, jsonNum false d.median, jsonNum false d.sum,
    mapAll jsonRange d.ranges with
  | some a, some b, some c, some e, some f, some rs =>
    some (.obj ([(lit "min", a), (lit "max", b), (lit "average", c), (lit "median", e), (lit "sum", f),
      (lit "count", .int d.count), (lit "generation", .int d.generation)] ++
      (if d.isNotCumulative then [(lit "isNotCumulative", .bool true)] else []) ++
      (if d.ranges.isEmpty then [] else [(lit "ranges", .arr rs)])))
  | _, _, _, _, _, _ => none

/-- `json.Marshal` of a value; a slice of bytes becomes a base64 string; used by `/repo/go/tricorder/json.go:44,48` -/
def jsonVal (lib : JsonLib) : Val → Option Json
  | .nil => some .null
  | .scalar _ b => jsonBase lib b
  | .dist none => some .null
  | .dist (some d) => jsonDist d
  | .slice _ _ none => some .null
  | .slice _ e (some l) =>
    if e.base = .int .uint8 then some (.bytes (l.map intOf)) else (mapAll (jsonBase lib) l).map .arr
  | .other id => lib.other id

/-- `json.Marshal` of the field `TimeStamp`, `/repo/go/tricorder/messages/api.go:121` -/
def jsonStamp (lib : JsonLib) : TS → Option Json
  | .nil => some .null
  | .time t => lib.time t
  | .str s => some (.str s)
  | .other _ => none

/-- the string that `u` is, `/repo/go/tricorder/units/api.go:7-15` -/
def MUnit.raw : MUnit → Str
  | .unknown => []
  | u => u.string

/-- a string field with `omitempty`; `/repo/go/tricorder/messages/api.go:105,109` -/
def unlessEmpty (key s : Str) : List (Str × Json) := if s = [] then [] else [(key, .str s)]

/-- `json.Marshal` of a metric, with the tags of `Metric`, `/repo/go/tricorder/messages/api.go:99-125` -/
def jsonMetric (lib : JsonLib) (m : Metric) : Option Json :=
  match jsonVal lib m.value, jsonStamp lib m.timeStamp with
  | some v, some t => some (.obj ([(lit "path", .str m.path), (lit "description", .str m.description)] ++
      unlessEmpty (lit "unit") m.unit.raw ++ [(lit "kind", .str m.kind.name)] ++ unlessEmpty (lit "subType") m.subType.name ++
      (if m.bits = 0 then [] else [(lit "bits", .int m.bits)]) ++
      [(lit "value", v), (lit "timestamp", t), (lit "groupId", .int m.groupId)]))
  | _, _ => none

/-- `json.Marshal` of a list of metrics; used by `/repo/go/tricorder/json.go:48` -/
def jsonList (lib : JsonLib) (ms : List Metric) : Option Json := (mapAll (jsonMetric lib) ms).map .arr

/-! ### responses -/

/-- `http.Header`; at most one value per key is used; used by `/repo/go/tricorder/json.go:27-30` -/
abbrev Hdr := List (Str × Str)

/-- `Header.Set`; used by `/repo/go/tricorder/json.go:28-29` -/
def Hdr.set (h : Hdr) (k v : Str) : Hdr := h.filter (fun e => e.1 ≠ k) ++ [(k, v)]

/-- `Header.Get`; used by `/repo/go/tricorder/http.go:66` -/
def Hdr.get (h : Hdr) (k : Str) : Str := ((h.find? fun e => e.1 = k).map Prod.snd).getD []

/-- the state of an `http.ResponseWriter`: the headers; the status and the headers that went out with the first write
or `WriteHeader`; the connection; the argument `w` of `/repo/go/tricorder/json.go:32` -/
structure Resp (W : Type) where
  hdr : Hdr
  sent : Option (ℕ × Hdr)
  out : W

/-- an `http.ResponseWriter` with state `V`; the argument `w` of `/repo/go/tricorder/json.go:32` -/
structure RespWriter (V : Type) where
  set : V → Str → Str → V
  status : V → ℕ → V
  wr : Writer V

/-- `WriteHeader`: only the first call counts; used by `/repo/go/tricorder/http.go:26` -/
def Resp.writeHeader {W : Type} (r : Resp W) (code : ℕ) : Resp W :=
  match r.sent with
  | none => { r with sent := some (code, r.hdr) }
  | some _ => r

/-- the `http.ResponseWriter` of the server; the argument `w` of `/repo/go/tricorder/http.go:65` -/
def plainResp {W : Type} (wr : Writer W) : RespWriter (Resp W) where
  set r k v := { r with hdr := r.hdr.set k v }
  status r code := r.writeHeader code
  wr := ⟨fun r b => match wr.write r.out b with
    | (o, e) => ({ r.writeHeader 200 with out := o }, e)⟩

/-- a request, after `ParseForm`: path, first value of each form key (empty if there is none), `Accept-Encoding`; the
argument `r` of `/repo/go/tricorder/json.go:32-35` -/
structure Req where
  path : Str
  form : Str → Str
  accept : Str

/-- `handleError`, `/repo/go/tricorder/http.go:20-23`, without the log -/
def handleError {V : Type} (rw : RespWriter V) (v : V) : V := (rw.wr.write v (lit "Error in template.\n")).1

/-- `http.Error`; used by `/repo/go/tricorder/http.go:26-32` -/
def httpErrorMsg {V : Type} (rw : RespWriter V) (v : V) (msg : Str) (code : ℕ) : V :=
  (rw.wr.write (rw.status (rw.set (rw.set v (lit "Content-Type") (lit "text/plain; charset=utf-8"))
    (lit "X-Content-Type-Options") (lit "nosniff")) code) (msg ++ [10])).1

/-- `httpError`, `/repo/go/tricorder/http.go:25-33`, for `http.StatusNotFound` -/
def notFound {V : Type} (rw : RespWriter V) (v : V) : V := httpErrorMsg rw v (lit "404 Not Found") 404

/-- `jsonSetUpHeaders`, `/repo/go/tricorder/json.go:27-30` -/
def jsonHeaders {V : Type} (rw : RespWriter V) (v : V) : V :=
  rw.set (rw.set v (lit "Content-Type") (lit "application/json")) (lit "X-Tricorder-Media-Type") (lit "tricorder.v1")

/-- the end of `jsonHandlerFunc`, `/repo/go/tricorder/json.go:50-56` -/
def jsonAnswer (lib : JsonLib) {V : Type} (rw : RespWriter V) (v : V) : Option Json → V
  | none => handleError rw v
  | some j => (rw.wr.write v (lib.text j)).1

/-- the answer to a request for one metric, `/repo/go/tricorder/json.go:38-44` -/
def singleAnswer (lib : JsonLib) {V : Type} (rw : RespWriter V) (v : V) : Option (Out Metric) → V × Status
  | none => (notFound rw v, .ok)
  | some .panic => (v, .panic)
  | some (.ok m) => (jsonAnswer lib rw v (jsonMetric lib m), .ok)

/-- the answer to other requests, `/repo/go/tricorder/json.go:45-49`; the error of `GetAllMetricsByPath` is ignored there -/
def listAnswer (lib : JsonLib) {V : Type} (rw : RespWriter V) (v : V) : List Metric × Status → V × Status
  | (_, .panic) => (v, .panic)
  | (_, .timeout) => (v, .timeout)
  | (ms, _) => (jsonAnswer lib rw v (jsonList lib ms), .ok)

/-- `jsonHandlerFunc`, `/repo/go/tricorder/json.go:32-57` -/
def jsonHandler (lib : JsonLib) {V : Type} (rw : RespWriter V) (fuel : ℕ) (req : Req) (v : V) : Prog (V × Status) :=
  if req.form (lit "singleton") ≠ [] then
    (getMetricMsg true req.path).bind fun r => .ret (singleAnswer lib rw (jsonHeaders rw v) r)
  else (listMetrics true fuel req.path).bind fun r => .ret (listAnswer lib rw (jsonHeaders rw v) r)

/-- `setSecurityHeaders`, `/repo/go/tricorder/html.go:273-277` -/
def securityHeaders {V : Type} (rw : RespWriter V) (v : V) : V :=
  rw.set (rw.set (rw.set v (lit "X-Frame-Options") (lit "DENY")) (lit "X-XSS-Protection") (lit "1"))
    (lit "Content-Security-Policy") (lit "default-src 'self' ;style-src 'self' 'unsafe-inline'")

/-- the end of `htmlAndTextHandlerFunc`, `/repo/go/tricorder/html.go:290-292` -/
def pageEnd {V : Type} (rw : RespWriter V) : V × Status → V × Status
  | (v, .err _) => (handleError rw v, .ok)
  | r => r

/-- `htmlAndTextHandlerFunc`, `/repo/go/tricorder/html.go:279-293` -/
def pageHandler (fm : Fmts) {V : Type} (rw : RespWriter V) (fuel : ℕ) (req : Req) (v : V) : Prog (V × Status) :=
  let v := securityHeaders rw v
  (if req.form (lit "format") = lit "text" then
    textEndpoint fm rw.wr fuel req.path (rw.set v (lit "Content-Type") (lit "text/plain"))
  else htmlEndpoint fm rw.wr req.path v).bind fun r => .ret (pageEnd rw r)

/-- `hasTricorderHandler`, `/repo/go/tricorder/html.go:295-298`, with the body of `/repo/go/tricorder/html.go:100` -/
def hasTricorder {V : Type} (rw : RespWriter V) (v : V) : V := (rw.wr.write (securityHeaders rw v) (lit "true")).1

/-! ### compression -/

/-- `gzip.Writer`: the chunks that it passes on for each write and at the end; used by `/repo/go/tricorder/http.go:71`
-/
structure Compressor where
  St : Type
  new : St
  write : St → Str → St × List Str
  close : St → List Str

/-- what is passed on for a sequence of writes; used by `/repo/go/tricorder/http.go:57-59` -/
def Compressor.runs (z : Compressor) : z.St → List Str → z.St × List Str
  | g, [] => (g, [])
  | g, x :: xs => let r := z.write g x; let q := z.runs r.1 xs; (q.1, r.2 ++ q.2)

/-- the whole compressed stream for a sequence of writes; used by `/repo/go/tricorder/http.go:71-74` -/
def Compressor.stream (z : Compressor) (xs : List Str) : Str :=
  let r := z.runs z.new xs
  (r.2 ++ z.close r.1).flatten

/-- state of `gzipResponseWriter` and its `gzip.Writer`, which keeps the first error,
`/repo/go/tricorder/http.go:52-55` -/
structure GzipSt (z : Compressor) (V : Type) where
  z : z.St
  err : Option ℕ
  inner : V

/-- pass chunks on to the embedded writer, `/repo/go/tricorder/http.go:71` -/
def gzipEmit {V : Type} (rw : RespWriter V) (v : V) (cs : List Str) : V × Option ℕ :=
  match rw.wr.all v cs with
  | (v', .err e) => (v', some e)
  | (v', _) => (v', none)

/-- `gzipResponseWriter`, `/repo/go/tricorder/http.go:52-59`: headers and status are those of the embedded writer -/
def gzipResp (z : Compressor) {V : Type} (rw : RespWriter V) : RespWriter (GzipSt z V) where
  set g k x := { g with inner := rw.set g.inner k x }
  status g code := { g with inner := rw.status g.inner code }
  wr := ⟨fun g b => match g.err with
    | some e => (g, some e)
    | none => match z.write g.z b with
      | (z', cs) => match gzipEmit rw g.inner cs with
        | (v', e) => (⟨z', e, v'⟩, e)⟩

/-- the deferred `gz.Close()`; `/repo/go/tricorder/http.go:72` -/
def gzipClose (z : Compressor) {V : Type} (rw : RespWriter V) (g : GzipSt z V) : V :=
  match g.err with
  | some _ => g.inner
  | none => (gzipEmit rw g.inner (z.close g.z)).1

/-- `gzipHandler.ServeHTTP`, `/repo/go/tricorder/http.go:65-75`, around `jsonHandlerFunc`; `Close` also runs if the handler
panics -/
def gzipHandler (z : Compressor) (lib : JsonLib) {V : Type} (rw : RespWriter V) (fuel : ℕ) (req : Req) (v : V) :
    Prog (V × Status) :=
  if ¬ lit "gzip" <:+: req.accept then jsonHandler lib rw fuel req v
  else (jsonHandler lib (gzipResp z rw) fuel req ⟨z.new, none, rw.set v (lit "Content-Encoding") (lit "gzip")⟩).bind fun
    | (g, st) => .ret (gzipClose z rw g, st)

/-! ### routes -/

/-- the handlers of tricorder; `/repo/go/tricorder/html.go:306-315`, `/repo/go/tricorder/json.go:59-61` -/
inductive Route where
  | page (path : Str)
  | json (path : Str)
  | has
  | static (path : Str)
deriving DecidableEq

/-- `StripPrefix` under a pattern that ends with a slash; used by `/repo/go/tricorder/json.go:60` -/
def under (pre path : Str) : Option Str := if (pre ++ [47]).isPrefixOf path then some (path.drop pre.length) else none

/-- which handler of tricorder gets the request: the patterns of `initHtmlHandlers`, `/repo/go/tricorder/html.go:306-315`, and
`initJsonHandlers`, `/repo/go/tricorder/json.go:59-61`, with the constants of `/repo/go/tricorder/html.go:16`, `76` and
`/repo/go/tricorder/json.go:11`.  The path is clean (the server redirects others); `none` is everybody else's. -/
def route (path : Str) : Option Route :=
  match under (lit "/metrics") path with
  | some p => some (.page p)
  | none => match under (lit "/metricsapi") path with
    | some p => some (.json p)
    | none => match under (lit "/metricsstatic") path with
      | some p => some (.static p)
      | none => if path = lit "/has-tricorder-metrics" then some .has else none

end Tricorder
