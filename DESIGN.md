# Formal model of Symantec/tricorder in Lean 4

Contents: 1 method, 2 trusted base, 3 the model, 4 what is modelled and what is not, 5 the properties and their proofs,
6 where the code does not do what one would expect, 7 checks.  Appendix A: Go functions and the definitions that model them.
Appendix B: property theorems and their axioms.

## 1. Method

The model is a set of total, executable Lean functions that follow the Go functions one by one, and small-step machines
for the parts that communicate through channels.  Every definition cites the file and lines in `/repo` it models and names its
simplifications.  Theorems are stated about the model; the Lean kernel checks them.

Layout of `lean/Verif/`:

| directory | content |
|---|---|
| `Go/`    | the Go semantics used: byte strings, UTF-8 and white space, wrapping machine integers, truncated division, integer formatting and parsing, IEEE-754 arithmetic, instants |
| `Model/` | the code, function by function |
| `Spec/`  | small independent specifications that the property statements use |
| `Proof/` | helper lemmas |
| `Props/` | one file per property group: the theorems `Cnn_...` named in MANIFEST.json, and next to them `example`s showing that their hypotheses are met by non-trivial cases |
| `Axioms.lean` | prints the axioms of every property theorem during the build |

`properties.jsonl` has the English properties, `MANIFEST.json` the theorems for each, `seeded/LOG.jsonl` the wrong programs that
the theorems were tried on.

### Conventions

* Go `string` is `List UInt8` (arbitrary bytes, also invalid UTF-8).
* `int64/int32/uint64` are `ℤ`/`ℕ` with explicit wrap-around functions, applied wherever the Go code computes at that width.
  Go `/` and `%` are `Int.tdiv` and `Int.tmod`.
* A panic is a value (`Out.panic`, `Status.panic` or `none`).  State changes made before the panic are kept, as in Go; deferred
  calls run.
* Pointers are indices into append-only heaps; pointer equality is index equality.
* A critical section under a mutex is one atomic step, except in `Model/Locks`, where it is a sequence of single field accesses;
  C74 and C110 show that the two agree.  Channel communication is modelled at rendezvous granularity.  A read
  or write of an application variable is one atomic step (that is, data races on them are not modelled), except in the health
  server and in `Model/Words`, where the race is the point: there a string assignment takes two steps.
* User code (update functions, callbacks, writes to registered variables, map iteration order, the clock, `Get` of flags) is
  arbitrary: a `World` of functions that every theorem is universally quantified over, plus arbitrary interleaved steps.
* Recursion over the heap uses fuel; running out of fuel is a separate result (`timeout`), and theorems say that it does not
  occur for fuel above the number of entries.
* Floating point: code is written once over an abstract arithmetic `Arith F` and used at two instances: `Fl`, an executable
  model of IEEE-754 binary64/binary32 (round to nearest even, subnormals, infinities, NaN, signed zero), and exact rationals.
  Claims that only need comparisons are proved for `Fl`.  Where a claim is true only in exact arithmetic it is proved there,
  named `_partial`, together with an error bound or exactness condition for `Fl` and a concrete `Fl` counterexample.

### Names

`_partial`: the English property is not true of the code in full (or not proved in full); the note in MANIFEST.json says what is
missing.  `_false`: a concrete reachable state or run that violates the property.

## 2. Trusted base

* Lean 4.33.0's kernel.  Axioms: only `propext`, `Classical.choice` and `Quot.sound`, per theorem in appendix B.  No `sorry`,
  no `native_decide`, no `bv_decide`, no axioms of our own.  `decide +kernel` is used for closed facts about examples and for
  finite case distinctions; it is evaluated by the kernel.
* That the definitions in `Model/` and `Go/` say what the Go code and the Go library do.  They were written by reading
  `/repo` as text; nothing was executed.  The project's own tests were run in the model
  (`Verif/Tests*.lean`).
* That the statements say what the English properties say.  They use only the model's entry points (API calls, requests) and
  the definitions in `Spec/`.
* Of the Go standard library, as parameters with no assumptions, or with the assumption stated in the theorem: formatting of
  floating point numbers and of times (`Fmts`), text of JSON values (`JsonLib.text`; C94 takes for it
  the model of `encoding/json`, in which only the text of floats is a parameter, `JsonFmt`, with the law `NumLaw`), the compressor of gzip (`Compressor`,
  law: the stream decodes to what was written), `getrusage`, `runtime.ReadMemStats`, `/proc`, process arguments (`World`).

## 3. The model

**Values** (`Model/Value`, `Types`, `Units`, `Messages`, `Duration`, `Render`): Go values as far as they can be in a metric;
pure functions with wrap-around; text renderings, compact forms with the float arithmetic of the code.
Each float operation rounds on its own, as on amd64; Go may fuse a multiplication and an addition on arm64, ppc64 and s390x.

**Distributions** (`Model/Arith`, `Bucketer`, `Dist`): every method is one atomic step on the distribution.

**Tree** (`Model/Path`, `Tree`): heaps of directories, entries and metrics; each mutex section one operation.

**System** (`Model/Sys`): `State` is all shared memory: tree, distributions, lists, slices, application
variables, groups.  `Cmd` is the list of atomic steps, `exec` executes one.  An API call is a `Prog`: a tree of atomic steps
with continuations.  `Prog.run w p s` runs it alone; `RunI w p s h s' r` runs it with arbitrary allowed steps of anybody
else in between, `h` being the history; `Reachable w s` are the states that arbitrary interleavings of arbitrary steps reach;
`Grown w s` those in which metrics are stored as `RegisterMetric` does (the general `Reachable` even admits metrics whose
declared type does not fit); `Typed w s` those in which, in addition, all values are values of their Go types.

**Slices** (`Model/Alias`): in `Model/Sys` every slice has its own elements; here slices refer to parts of arrays, which they
can share, and the application reslices and appends.  C100 shows that the runs look the same through the slices.

**Registration and requests** (`Model/Registry`, `Read`, `Html`, `Http`, `Setup`): programs over `Cmd`.  In them, taking and
releasing a group is one atomic step each.

**JSON texts** (`Model/JsonText`, `Unmarshal`): `json.Marshal` and `json.Indent`, from JSON values to bytes; and
`json.Unmarshal` into a metric, from the value of a text.

**Client** (`Model/Client`): what a Go client does with a JSON answer: `json.Unmarshal` of a document into `messages.Metric`,
then `ConvertToGoRPC`.  How Unmarshal reads non-ASCII strings, byte slices and floating point numbers is a parameter (`JsonIn`).

**Groups** (`Model/Group`): a machine with one event loop per group, unbuffered channels, any number of clients with
sessions, update functions that start and end at arbitrary moments.

**Joint runs** (`Spec/Joint`): any number of registering calls interleaved, all of whose results are known (C76); `RunI` follows one
call and treats everybody else alike.

**Whole library** (`Model/Whole`): the programs of `Sys`, any number of them at once, with `Group` underneath: `RLock` and
`RUnlock` are rendezvous with the event loops, and a running update function executes arbitrary steps on the shared memory.
C70 is about these runs; C73 shows that a call can finish in all of their states; C79 that it does finish in every fair infinite run; C72 shows that every call in them is a run of `Sys` (`RunI`), so that what is proved about those holds
here as well.

**Public functions** (`Model/Api`): the functions and methods for registering, as they call the ones of `Model/Registry`; C80 compares
them, C82 is about sequences of registrations.

**Demo program** (`Model/Demo`): the registrations and the goroutine of `tricorderdemo`, as a client of `Model/Api` (C83).

**RPC clients** (`Model/RpcClient`): decoding the answers into the variables of a client, and the program `tricorderclient` with what
it prints, as a client whose calls run among any steps at the server (C84).

**Nested reads** (`Model/Nested`): the groups of `Model/Group` with update functions and functions registered as metrics that open
sessions of their own, and do not return before these are closed (C86).

**Applications** (`Spec/App`): any number of goroutines making calls of the library with results fed back; C88 shows that all their
states and calls are ones that the other theorems speak about.

**Words** (`Model/Words`): reading a registered variable word by word, while others store words (C87).

**Critical sections** (`Model/Locks`): the methods of directories, distributions and lists as sequences of field accesses under
`Lock` or `RLock`, executed by any number of goroutines.  C74 shows that `Sys`, with one step per method, loses nothing.

**The whole library field by field** (`Model/Fine`): `Model/Whole` with the critical sections of `Model/Locks` instead of one step per
method.  C110 shows that both have the same runs.

**Other machines** (`Model/Bits`): the functions that look at the size of `int`, with the size as a parameter (C102).

**Objects that were only declared** (`Model/Zero`): groups without event loop and channels, distributions without ranges, lists
without slice, directories without map (C104).

**Health server** (`Model/Health`): a machine with torn string assignments.

## 4. What is modelled and what is not

Appendix A lists every function of the library and the definitions that cite it.  Functions without a definition of their own
are one-line accessors, `reflect` plumbing or API wrappers that appear in the model as field accesses or as the function they
call; they are listed there as inlined.

Not modelled:

* network, TLS, `net/rpc` and `encoding/gob` (the RPC answer is the Go value handed to them; `Model/Gob` says which
  values gob accepts, `Model/RpcClient` what decoding does to variables that hold something); `net/http` beyond headers,
  status, body, `StripPrefix` and patterns; the parser of `encoding/json` (`Model/Unmarshal` decodes the value that a text has by
  the grammar); the inside of `compress/gzip`;
* `html/template` in general: the model is the program that this one template amounts to, with the contextual escapers it
  gets (HTML text, quoted attribute with URL); a panic of a method that the template calls ends the request, as in the Go versions of
  the code's time (later ones make it an error of `Execute`, after which the handler writes the error into the page); browsers beyond the tokens of a page (`Spec/Markup`, C96);
* the Go memory model and scheduler fairness: a step happens if somebody takes it; liveness is claimed as
  "is able to proceed" (C20, C21) and, in runs that are assumed fair, "finishes" (C79);
* time zones and monotonic clock readings: a `time.Time` is an instant;
* resource exhaustion; stack overflow; `int` has 64 bits, except in `Model/Bits` (C102), so group ids and lock counts wrap around at
  2^63 (C22) and not at 2^31;
* `main` of `tricorderdemo`; dialing in `tricorderclient`;
* doc comments as such; but properties are derived from them.

## 5. Properties: model and proof

| | property | status | file | model and proof |
|---|---|---|---|---|
| C01 | Path spelling does not matter | proved | `Props/Path` | Splitting on '/', dropping blank pieces; stated against an independent notion of components; Unicode white space as in strings.TrimSpace. |
| C02 | AbsPath re-resolves to the same object | proved | `Props/Registry` | For every reachable state; directories and metrics. |
| C03 | RegisterMetric result is decided exactly by the tree and the value | proved | `Props/Registry` | Result of RegisterMetric run alone, every handle, path, value, unit; flags are examined after the missing parents exist (C03_value_examined_before covers the rest). |
| C04 | Successful registration makes exactly that metric visible | proved | `Props/Registry` | Success of RegisterMetric: new metric, nothing else changed, new parents only. |
| C05 | Failed registration leaves no trace | partial | `Props/Registry` | False as claimed (two counterexamples): ancestor directories are left behind after a value error, and a distribution keeps the unit of a failed registration. The partial theorem says what does hold. |
| C06 | UnregisterPath removes exactly one subtree | proved | `Props/Registry` | Exact effect of UnregisterPath seen from any directory at or above the handle; detached handles leave the root view alone. |
| C07 | A stale directory handle cannot unregister its replacement | proved | `Props/Registry` | Exact effect of UnregisterDirectory seen from any directory; stale handle, root handle and second call are no-ops, also with other goroutines in between. |
| C08 | Metrics registered through an unregistered directory are never reported | proved | `Props/Registry` | Detached directories stay detached under every interleaving; no step of any call through such a handle changes the root view. |
| C09 | RegisterDirectory is idempotent and GetDirectory agrees with it | proved | `Props/Registry` | RegisterDirectory / GetDirectory results, idempotence, exact new nodes. |
| C10 | Listing is complete, duplicate free and in canonical order | proved | `Props/Listing` | Run alone: result equals the GetMetric answers over the canonical list; panics characterised exactly; missing path. |
| C11 | Listing under concurrent registration is never wrong about stable metrics | proved | `Props/Listing` | Arbitrary interleavings: order, no duplicates, provenance of every reported item, completeness for metrics present throughout. |
| C12 | Collector errors stop the traversal at once | proved | `Props/Listing` | Any collector: call sequence stops at the first failure; visits in canonical order, one directly after the other (Calls is indexed by the history, with only look-ups of entries in between); alone a prefix of the canonical list. |
| C13 | The tree stays a tree under every interleaving | proved | `Props/App`, `Props/Listing`, `Props/Registry` | IsTree is an invariant of every atomic step; parent links; absolute paths end; API calls only take allowed steps. C13_application: in every run of every application (Spec/App). |
| C14 | Every group request receives its own reply | proved | `Props/Group` | For every run of the small-step machine (any number of groups and requests, every interleaving of rendezvous): a reply or confirmation always follows the taker's own acceptance with nothing else accepted or answered by that group in between, and carries the group's current timestamp; between an acceptance and its answer the loop serves nobody else. |
| C15 | No update while a request is reading the group | proved | `Props/Group` | Neither begin nor end of an update of the group occurs between a visit's return and the request's closeBegin, in every run. |
| C16 | A request sees one timestamp per group, the one returned by the update | proved | `Props/Group` | A visit's result equals the latest updEnd of the group; two visits of one request to one group agree. time.Time is an arbitrary type. |
| C17 | Overlapping requests share one update | proved | `Props/Group` | C17_overlap: both reading at one moment. C17_join: accepted while another reads, even if that one closes before the join returns. |
| C18 | A fresh request triggers exactly one update before reading | proved | `Props/Group` | The acceptance is unique (takes = 1), the calls since are exactly [registered function] or [] according to whether anybody held the group, and the returned value is the visit's timestamp. |
| C19 | Group lock accounting never goes wrong | proved | `Props/Group` | lockCount is an unbounded integer in the model; it equals the number of holders, which is at most the number of goroutines. Between taking an increment and adding it the loop lags by that increment, stated exactly. |
| C20 | Group event loops never deadlock | proved | `Props/Group` | No deadlock, a decreasing work measure for every step that starts nothing new, and completion. Update functions are assumed to return; the finding C20_update_reading_own_group_blocks shows the one way user code can block a group for ever. |
| C21 | Replacing an update function never disturbs readers | proved | `Props/Group` | Every update call is of the function registered last; while the registration is served no update, no other traffic, same lock count and timestamp. |
| C22 | Group ids are unique | proved | `Props/Group` | Unique for the first 2^64 creations; C22_ids_wrap proves the int64 counter repeats after that. |
| C23 | Same group id implies same timestamp within one response | partial | `Props/Request` | All interleavings while no distribution or list of that group id changes its time; alone in full; C23_false shows the rest is false (same distribution at two paths). C70_same_id: for single values it holds in full, with the event loops and everything else running. |
| C24 | A request releases every group it took, even when user code panics | proved | `Props/Group`, `Props/Request` | Every request releases every group it takes, however it ends (panic, writer or collector failure, interference); on the level of groups: C24_close_releases. |
| C25 | Values land in the one bucket whose range contains them | proved | `Props/Dist` | All endpoint lists accepted by the constructor and all float64 values, including infinities, -0 and NaN. |
| C26 | Range counts add up to Count | partial | `Props/Dist` | C26_sum_of_ranges accounts exactly for every history, panicking ones included: ranges add up to Count plus the number of Updates that panicked over an empty range. So the claim holds when there was no such panic and is false otherwise (C26_violated_after_panic). Histories shorter than 2^64 calls. |
| C27 | Count and generation track history | partial | `Props/Dist` | Count proved for all histories. Generation proved while the distribution is not empty; an emptied one reports 0 (C27_empty_generation). The time stamp is characterised exactly; it also moves on a panic over an empty range (C27_panic_moves_timestamp). |
| C28 | Sum is the sum of the current values | partial | `Props/DistStats` | Exact arithmetic: all histories. float64: exact for multiples of a power of two; error bound for all finite values; false in general (C28_cancellation). |
| C29 | Min and Max bound all current values | proved | `Props/DistStats` | All histories with non-NaN values (infinities allowed); Update/Remove clause in every reachable state including after misuse. Remove leaves Min and Max as they are while a value remains; when the last one goes, they start over. |
| C30 | Average and median lie between Min and Max | partial | `Props/DistStats` | Exact arithmetic: all histories. float64 average: proved for multiples of a power of two, error bound for all finite values; float64 median: error bound. False in general: C30_average_out_of_bounds, C30_median_out_of_bounds. |
| C31 | Taking a snapshot never panics | proved | `Props/Dist` | Every history of calls whatever their arguments, including ones that panicked and were recovered from. |
| C32 | Misuse of a distribution is rejected without corrupting it | partial | `Props/Dist` | All rejections before the first write leave the snapshot alone. False for removing from an empty range (time stamp moves) and for Update whose old range is empty (C32_update_empty_range_corrupts). |
| C33 | A distribution's unit is fixed by its first registration | proved | `Props/Dist` | Every sequence of registrations mixed with changes; setUnit is one critical section so every interleaving is a sequence. |
| C34 | Durations added to a distribution are converted to its unit | partial | `Props/Dist`, `Props/Misc` | Correctly rounded up to 2^53 ns (104 days); longer durations are rounded twice (C34_long_durations_rounded_twice), with relative error at most 2^-51 for all (C34_close). units.FromSeconds: C34_from_seconds. |
| C35 | Bucketer constructors build contiguous ascending ranges | partial | `Props/Bucketer` | Guards, counts and ranges in both arithmetics; endpoint values and strict order in exact arithmetic; in float64 ascending order, and exact values for integers up to 2^53. Strict order is false in float64 (C35_equal_endpoints) and NaN passes the guards (C35_nan_accepted). |
| C36 | Geometric bucketer yields the 1-2-5 ladder | partial | `Props/Bucketer` | Full in exact arithmetic. In float64: relative error 2^-40 and termination for 2^-800 <= lower <= upper <= 2^900; ascending always. False outside: never ends for +Inf and for the least positive float; first endpoint can exceed lower by an ulp; NaN accepted. |
| C37 | A list metric is isolated from later writes to a mutable slice | proved | `Props/Lists` | Slices that share only part of an array are not modelled: a slice is one object. The copy is made in one step; a slice written by another goroutine while NewList or Change copies it is a data race of the application. C37_immutable_shared shows that without the copy the writes do show. |
| C38 | List element type is fixed and conversion preserves values | proved | `Props/Lists` | The element type that is fixed is the metric type of the elements: []float64 may be changed to a slice of a user-declared float64 type. C38_change_panic_silent: a failed Change may leave an unreferenced copy. |
| C39 | Go durations survive conversion | proved | `Props/Duration` | All 2^64 time.Duration values, by integer arithmetic with explicit wrap-around. |
| C40 | Times survive conversion | proved | `Props/Duration` | All instants with int64 seconds and nanoseconds in [0,1e9). |
| C41 | Decimal text of a duration is exact and parses back | proved | `Props/Duration` | All Go durations and all units; also all coherent duration.Duration values whose seconds leave room for the unit factor. C41_min_seconds_text shows the one excluded point (Seconds = -2^63) is really wrong. |
| C42 | Parsing accepts exactly decimal numbers | partial | `Props/Duration` | Accepting half proved for every plain decimal. The converse is false: Parse accepts more (inner sign, leading plus), proved in C42_accepts_more; the accepted language is characterised exactly in C42_exact_language. |
| C43 | JSON conversion of a metric is lossless | partial | `Props/Loss`, `Props/Messages` | C43_exact: every well-formed metric with times within 292 million years of 1970 comes back with the same kind, sub-type, unit, time stamp and value, except that the zero time comes back as 1970 and a nil slice as an empty one; so it is lossless exactly if no time in the value is the zero time (C43_json_roundtrip_partial, C43_zero_time_lost). |
| C44 | Metric conversions are idempotent and total on the wire side | proved | `Props/Messages` | All metrics including malformed ones. ConvertToJson can panic on a malformed metric; idempotence is stated for calls that return. |
| C45 | JSON metrics contain only JSON kinds | proved | `Props/Messages` | All well-formed metrics whose times lie within 292 million years of 1970. |
| C46 | PrettyFormat is total and truncates correctly | proved | `Props/Duration` | All durations. |
| C47 | Float conversion round trip | partial | `Props/Types` | Integers: every representable value except the odd ones with 2^52 <= \|x\| < 2^53, for which the claim is false (C47_odd_integers_move). Floats: all values. Durations: exact for 0 <= d < 2^50 ns, negative ones come back 1 ns high; general error bound up to 2^62 ns. Times: error bound of 3 ns + 2^-53 relative; not exact (C47_time_inexact). Conversions out of range, which Go leaves to the implementation, are a separate outcome. |
| C48 | Kind field always describes the value | partial | `Props/Kinds` | False in two cases, both proved with witnesses: values of types declared by the program with kind bool, string, float or 8/16 bit integer are reported with their declared type (C48_named_false), and a flag whose Get method changes its result type (C48_flag_false). Otherwise proved for listings and GetMetric under any interference, from all states in which metrics were stored by RegisterMetric (C48_register, C48_register_grown). Concerns the messages before JSON encoding. |
| C49 | Thousands separators only separate | proved | `Props/Render` | Proved for addSeparators with any separator, group size and string (C49_separators), when it panics (C49_panics), and for the HTML rendering of every integer value of unit None (C49_html). |
| C50 | Compact rendering never panics | proved | `Props/Render` | C50_html covers all integer kinds incl. named types, every unit; the float64 loop is modelled with exact IEEE rounding and shown to end after at most 6 divisions; Compact bounds the shown numeral by half a unit of its last digit plus the relative rounding error 2^-48 of the loop. Sprintf(%.nf) is modelled as exact round-half-even. |
| C51 | Integer text is canonical and parses back | proved | `Props/Render` | Text is the canonical decimal numeral, parses back with the modelled strconv.ParseInt/ParseUint, and is injective. |
| C52 | Listings never contain infinite or NaN scalars | partial | `Props/Finite`, `Props/Request` | All interleavings for sources that are steady or, once the listing has taken their group, changed only by the group's update function (C52_group, with everything running); alone in full; the rest is false: C52_false (value re-read after the test), C52_not_encodable (lists are not tested). |
| C53 | Health endpoints report the latest setting | proved | `Props/Health` | Small-step model with explicit mutex and two-step assignments. The two subsystems are independent because Spec.result for /healthz looks only at health settings and for /readiness only at readiness settings (C53_healthy etc.). |
| C54 | CPU time metrics equal the kernel's accounting | partial | `Props/Setup` | CPU times are wrong by a factor of 1000 in the microseconds (C54_cpu_false; C54_cpu_partial says what is reported) and /proc/memory/unshared-stack always reports 0 (C54_stack_false); every other metric reports its field after every update and until the next one (C54_usage_partial), for fields that fit int64. A failing system call changes nothing (C54_error). Linux and other systems; the kernel and unsafe casts are outside the model. |
| C55 | REST, RPC and text endpoints agree about existence | proved | `Props/Exist`, `Props/Listing` | GetMetric, singleton JSON with its status (C55_status), listings of missing paths with RPC and JSON (C55_missing, C10_missing_path), text page: exactly that text (C55_text_exact, writer that accepts everything), and what it is otherwise (C55_text); calls run alone. |
| C56 | Flags are registered with the right unit and type | partial | `Props/Setup` | Every flag set in which no flag is skipped or nil: a flag whose path meets that of an earlier one is silently not registered (C56_conflict_false), a nil Get value or a metric at /proc/flags makes RegisterFlags panic (C56_nil_false, C56_panic). RegisterFlags runs alone; what flags report later is with interference. |
| C57 | Zero values and nil slices are consistent with their type | proved | `Props/Misc`, `Props/Types` | All type names (the constants and every other string). ZeroValue and NilSlice panic for exactly these types (C57_panics). |
| C58 | Requests change nothing | proved | `Props/Request` | Every own step of every request leaves the whole state unchanged, under any interleaving. |
| C59 | A metric's source is read only while its group is held | partial | `Props/Request` | Listings, GetMetric, JSON, HTML and text directories in full; false for a single metric in the text endpoint (C59_text_false). |
| C60 | Type predicates describe the Go values | proved | `Props/Types` | Stated about values whose type FromGoValueWithSubType knows; Bits of a time or duration is 0, as in the code. |
| C61 | Start-up registers exactly the documented default metrics | proved | `Props/Setup` | Initialization runs alone, as Go's package initialization does. Later steps of other goroutines are arbitrary as long as the metric stays registered and the variable is not written by others. C61_design compares with the table of the design document: three paths differ. C61_sys_description: /proc/cpu/sys has the description of /proc/cpu/user. |
| C62 | JSON answers are the RPC answers, converted | partial | `Props/Json` | JSON to RPC proved in full for listings (C62_list) and single metrics (C62_get, C62_get_converse), with interference. The converse for listings assumes that no list of times or durations has a declared slice type: such a list makes the JSON endpoints panic (C62_named_false), C62_list_alone gives the exact condition. |
| C63 | The text page shows what the RPC listing reports | proved | `Props/Text` | C63_directory and C63_metric for requests that run alone, in every state satisfying Typed: metrics registered through the API, values in the ranges of their Go types, distributions with the ranges of a Bucketer, flags whose Get keeps its type. C63_history proves Typed from a condition on single steps (every history of steps that obey Go's typing rules), C63_history_register that registrations are such steps, C63_history_bucketer that all Bucketers give such ranges. Formatting of floating point numbers (strconv.FormatFloat) is a parameter. A path that denotes nothing is C55_text. |
| C64 | The HTML page shows what RPC reports, escaped | proved | `Props/Html` | C64_directory, C64_metric, C64_missing for requests that run alone, in every state satisfying Typed (as for C63); C64_escaped about all escaped text. Formatting of floating point numbers and times (strconv, time.Format) is a parameter; html/template's escapers and URL normaliser are modelled from their documentation in Model/Html.lean, and template execution writes chunk by chunk. |
| C65 | Links of the HTML page lead to the directories they name | partial | `Props/Html` | Exact: C65_links_exact, the link leads to its directory exactly if no component of the path contains ? or #, or % before two hexadecimal digits, or is . or .. (PlainName); C65_links_partial adds that the path resolves to the directory. False otherwise: C65_links_false gives registrations a?b, a#b, %41, '.', '..' and where their links lead. |
| C66 | What a JSON request is answered with | proved | `Props/Http` | encoding/json is modelled up to JSON values; their text is a parameter. C66_list and C66_get with interference; C66_alone for registries as in Typed. C66_nan and C66_bytes show that the two exceptions occur (a listing is lost as a whole if one list contains NaN; []uint8 becomes a string). |
| C67 | Compression does not change JSON answers | proved | `Props/Http` | The compressor is a parameter with the law that the stream decodes to what was written; the connection takes everything. Nothing is claimed about requests that panic (the server drops the connection). C67_q0: gzip;q=0 is compressed too. |
| C68 | Pages: headers, content type, errors and routes | proved | `Props/Http` | net/http is modelled as far as the handlers use it; URLs are those after the server's cleaning and decoding. |
| C69 | A client recovers the RPC metric from a JSON answer | partial | `Props/Client` | False for lists of times and durations (C69_times_false: ConvertToGoRPC returns an error for every such list) and for numbers, whose value becomes a float64 (C69_number_false). Otherwise proved for single documents (C69_metric_partial) and for whole listings from the handler to the client (C69_listing_partial): kind, subtype, unit, bits, group, time stamp, times and durations exactly. The zero time comes back as 1970, lists as the generic value of their JSON value. encoding/json works on document trees; how it reads strings that are not ASCII and numbers as float64 is a parameter. |
| C70 | With the event loops and everything else running: one answer, one update per group | proved | `Props/Again`, `Props/Whole` | Model/Whole composes the programs of Sys with the event loops of Group; nothing about groups is assumed. C70_listing and C70_single: the values and their update; C70_same_time, C70_taken_once; C70_shared and C70_fresh: requests that overlap and requests that do not. C70_groups: the groups of such a run are a run of Model/Group. Lists and distributions keep their own time stamps and are not claimed. The update function may be replaced at any time; an execution is whichever function is current. C70_same_id states it in terms of the GroupId in the answer. |
| C71 | What ConvertToGoRPC accepts and what it makes of it | proved | `Props/Wire` | Durations that do not fit in an int64 of nanoseconds are accepted and wrap around (asGoDuration); their value is not claimed. |
| C72 | Listings are right with the event loops and everything else running | proved | `Props/Embed` | C72_embeds: every finished call of Model/Whole, whatever the program, is a run RunI of Model/Sys in which the groups answer as the event loops did (the number of answers so far is kept in a component of the state that the library does not see), so the theorems about RunI (C07, C11 to C13, C23, C24, C55, ...) hold with the event loops running; C72_no_tick: its hypothesis holds for the library's calls. C72_listing and C72_ends carry C11 and C13 over explicitly. |
| C73 | Nobody keeps a request from finishing | proved | `Props/Live` | About Model/Whole, all goroutines together with the event loops. CanFinish: from every run there is a continuation consisting only of steps of the call itself and of event loop steps that start nothing. The step in which a running update function returns counts as an event loop step, so an update function that never returns is outside the claim. Hypothesis KnownGroup: metrics are registered with groups that exist (the API gives out no others). Directory operations are single steps here; that their mutexes cannot block for ever is C74_no_deadlock. |
| C74 | Methods of directories, lists and distributions are atomic | proved | `Props/Locks` | Model/Locks executes the critical sections as sequences of single field reads and writes by any number of goroutines; a lock is granted as sync.RWMutex grants it (writer preference plays no part in safety). C74_linear, C74_quiet: the effects, in order, replayed by exec of Model/Sys, give the same results and memory; C74_orderly: one effect per call, between call and return; C74_exclusive; C74_no_deadlock; C74_programs: the calls of a goroutine that executes a program are a run RunI of it. Hypothesis Local: callbacks, flags and map order do not depend on the fields behind the locks. Simplified: a slice that must be copied is copied before the call; new objects are allocated in the step that publishes them; the immutable fields (enclosing entry, pieces, sub type) are read at the call. Taking a group is one step here; the event loops are the subject of C70 to C73. |
| C75 | The RPC server can send its answers | partial | `Props/Gob` | False: C75_named_false, one metric of a type declared as int8 and the listing of the root cannot be sent. Proved: an answer can be sent exactly if it holds no value of a declared type (C75_listing_partial, C75_get_partial), in particular always in programs that register only predeclared types (C75_plain). Assumed of encoding/gob: it registers the predeclared types and slices of them, needs the registration of the concrete types in interfaces, and refuses nil pointers; bytes are not modelled. A program can avoid the failure by calling gob.Register for its types on both sides. Flags: as long as Get keeps its result type. RegisterMetric accepts variables, functions and lists of types that the program declares, like `type Level int8`, and such a value is handed to gob as it is. One such metric makes ListMetrics of every directory above it fail for every client, since gob encodes the whole list and net/rpc closes the connection. The kinds int32, int64, uint32, uint64, times, durations and distributions are converted and never affected. |
| C76 | Registrations at the same time | proved | `Props/Joint` | Joint (Spec/Joint) interleaves the programs of any number of calls, step by step, with steps of others that leave the tree alone; joint_run: seen from one goroutine this is a run RunI, so the single-call facts apply. (1) C76_compatible, (2) C76_race, (3) C76_exclusive, C76_blocked, (4) C76_error, (5) C76_final. Values can be registered: valueSays, the condition of C03, in every state of the run. Calls that unregister at the same time are not part of this property. A failing call can leave behind directories that it created on the way (see C05). |
| C77 | Looking up a path while the tree changes | proved | `Props/Changing` | RunI lets arbitrary accepted commands of other goroutines happen between any two steps. (1) C77_missing, C77_get, (2) C77_stays, (3) C77_found, (4) C77_lookup, C77_directory, where CutBy (Spec/Changing) says that a step of somebody else unregisters a directory on the way, (5) C77_found_nowhere: a schedule in which a metric is found though at no moment there is anything at the path. The getters lock each directory on its own, so there is no snapshot of a path. |
| C78 | Registering and unregistering while others unregister | proved | `Props/Changing` | (1) C78_metric, C78_directory, (2) C78_unregister, C78_unregister_only, (3) C78_lost (nil, but never visible), C78_in_use_nowhere. registerMetric walks to the directory and stores the metric under that directory's own lock only; nothing notices that the directory has left the tree meanwhile. UnregisterDirectory on a handle is a single critical section of the parent (C07). |
| C79 | Every request finishes | proved | `Props/Fair` | About infinite runs of Model/Whole (Forever). FairTo: strong fairness to the goroutine of the request (if it can take a step again and again, it takes one; Go serves blocked senders of a channel in order, so this holds of the channels). LoopRuns: weak fairness to each event loop, which includes that its update function returns. Nothing is assumed of the other goroutines. Hypothesis KnownGroup as in C73. The recursion of a listing has fuel in the model; C79_listing says that the answer is not cut off if the tree never has as many entries as the fuel; HTTP requests need no more fairness than that the writer returns, which it does in the model. |
| C80 | A directory handle acts at its own path | proved | `Props/Handle` | Model/Api has the public functions as they call registerMetric, registerDirectory and unregisterPath. ActsLike: executed alone the two programs have the same result and effect; and every run of the call through the handle while other goroutines take steps (RunI) is also a run of the call with the full path, which only looks up the directories on the way at the beginning. The other direction does not hold amid changes: the full path may lead elsewhere after the handle was obtained. UnregisterDirectory against UnregisterPath is compared for calls executed alone, since one of them is a single critical section (C07, C78). Nil directories are not modelled. C80_lookup_result says what the look-ups return. |
| C81 | A snapshot is a histogram of the current values, and the median is in the range of the true one | proved | `Props/DistHisto` | C81_histogram and C81_median are about the float64 code, C81_median_in_exact_arithmetic about the same code over the rationals. Middle values are stated with IsNth (position in a sorted permutation), not with anything the code computes; C81_middle_exists says that they and their ranges exist. The float64 median is stated up to rounding error, because without it the claim is false (C30_median_out_of_bounds). \|Min\|, \|Max\| ≤ 2^900 is assumed there, to exclude overflow of the intermediate products. |
| C82 | Registrations all succeed exactly if they fit, in any order | proved | `Props/RegMany` | C82_all_iff: all succeed iff FitTogether and FitState, both stated with Components, Reaches and valueSays. C82_effect: what is there afterwards. C82_order: any permutation succeeds too, with the same description and value at every path and the same distributions; object numbers in the tree may differ. The calls are executed one after the other; interleaved registrations are the subject of C13 and C76. Flags are left out because the type of the value a flag returns may change between the calls; for them see C56. |
| C83 | The demo program shows what it says | proved | `Props/Demo` | C83_demo: the program run from any reachable state with free paths, and what GetMetric answers afterwards. C83_squares: the goroutine updateList with any steps of others in between (Alone excludes changing the same list and writing the slices it made). C83_started: after start-up the paths are free. C83_client: the answers to the client program's requests in between. C83_powers: the predefined ranges. Not modelled: main, the HTTP server, printing. The reported median is interpolated from the ranges (about 249.749). |
| C84 | RPC clients receive what the server sent, and the client program prints it | partial | `Props/RpcClient` | False in two ways: the program writes the metrics to standard input instead of standard output (C84_stdout_false: whatever the server answers, standard output gets only titles and empty lines), and it decodes into variables it used before, so that fields which gob does not send because they are zero keep the values of the metric before (C84_stale_false: a bool is printed with 64 bits). Proved: decoding is right exactly if no zero field meets a non-zero one (C84_into), always for new variables (C84_fresh, C84_calls), element by element for lists (C84_list); when a call fails (C84_get); everything the client program prints, in any interleaving (C84_client_partial); with the demo program as server the printed metrics are those sent (C84_demo). Assumed of encoding/gob: zero fields are not sent and not touched when decoding, interfaces are decoded into new values, arrays of slices are used again; nil and empty slices are not told apart. |
| C85 | Registering and recording never wait | proved | `Props/Wait` | In Model/Whole, where the event loops, update functions and other goroutines run beside the call. C85_register_metric, _register_metric_root, _register_directory, _unregister, _look_up, _record: NeverWaits (Spec/Wait) with the bound on the number of steps. A step is one critical section of the mutex of a directory, distribution or list; that these are granted is C74_no_deadlock. Calls of user code by the registration itself (flag.Getter.Get, flag.Value.String) are single steps that return. RegisterUpdateFunc is not among these calls: it waits for the event loop (C21). |
| C86 | Update functions and metrics that read metrics: exactly when nothing blocks | proved | `Props/Nested` | Model/Nested adds to the groups (Model/Group) who opened each session: an update function returns, and a request goes on after calling a function, only when the sessions opened by it are closed. C86_same_guarantees (so C14 to C21 and C24 hold of these runs), C86_can_finish, C86_metric_functions, C86_work, C86_cycle_blocks, C86_own_group_blocks, C86_exact. Update functions that wait for other goroutines of the program are not modelled. |
| C87 | Changing registered variables while they are read: exactly which changes are atomic | proved | `Props/Words` | Model/Words: a read takes one step per word of a 64-bit machine, other goroutines store in between, in one order for all. C87_words and C87_types: exactly which values may be assigned to while they are read; C87_time_pointer: the documented way to change a time; C87_in_place_false: what happens otherwise; C87_undisturbed; C87_group, in Model/Whole. Weaker memory models than sequential consistency are not modelled. |
| C88 | Every application stays within what the other properties speak about | proved | `Props/App` | Spec/App says what an application is: trees of calls of the functions of Model/Api with results fed back, and handles passed between goroutines. C88_reachable, C88_steps, C88_calls, C88_requests. Goroutines that never end are covered through their finite beginnings. RegisterUpdateFunc and the event loops of groups are in Model/Group and Model/Whole. |
| C89 | Recording by many goroutines loses nothing, and the order does not matter | proved | `Props/Record` | Runs of whole applications (Spec/App) and of the model with event loops and update functions (Model/Whole); each method of a distribution is one step, justified by C74. C89_made and C89_one_after_another: at every moment a distribution is its calls applied one after another to a new one. C89_count sums over the goroutines. C89_any_order: any two orders; sum and average are excluded since C89_sum_depends_on_order shows two runs of one application with different Sums. |
| C90 | One listing shows one call of each group's update function, as if it had run in one step | proved | `Props/Call` | C90_listing and C90_single: for every group with a scalar in the answer there is one call of its update function, from its begin to its end, such that all scalars of the group carry its time, and are reported as if the program it executes (Does) had been executed in one step in the state in which it began; provided that program only uses variables that nobody else changes until the end of the run. Over the model of the whole library (Model/Whole). C90_usage and C90_memory: the two default groups, after the initialization of the package, with the update functions of setup.go; /proc/memory/unshared-stack is not in the table and the CPU times are as in C54. Lists and distributions are not scalars: see C70. |
| C91 | One page shows one call of each group's update function | proved | `Props/PageRun` | Over the model of the whole library (Model/Whole), for every type of answers and every writer. C91_html: the page of a directory and of a single metric. C91_text: the page of a directory; for a single metric, which is read without a session, only that the value is one that the source had during the request (that it may be read after the group was released is C59_text_false). Distributions and lists are items whose text after the path is not described here; see C63 and C64 for that. ShowsOneCall contains both the moment of reading and the consequence for variables that only the update function changes, as in C90. |
| C92 | Asking again for a distribution: Generation tells whether it has changed | proved | `Props/Poll` | Over the model of the whole library (Model/Whole). Both requests use the same encoding. The steps counted by C92_generation lie between the two moments at which the distribution was read (Between). An empty distribution reports generation 0 (C92_emptied), hence the condition that neither answer is empty. C92_spoiled: an Update that panics over an empty range changes the count of a range and the time stamp but not Generation, so the condition in C92_unchanged is needed; the documentation ("incremented by 1 each time this distribution changes") is wrong there. Fewer than 2^64 steps, so that no counter wraps. |
| C93 | Asking again for metrics of a group: answers never go back to an earlier update | proved | `Props/Again` | Over the model of the whole library (Model/Whole). Single values only (not lists, not distributions; C92 is about distributions). Both requests use the same encoding. C93_in_order, C93_never_back, C93_same_time and C93_fresh speak about the group (region) with which a metric is registered; C93_same_id about the GroupId that the client sees. A same metric is a same registered value (variable or callback with its unit and type). |
| C94 | JSON answers are JSON texts with the value of the document | proved | `Props/JsonText` | json.Marshal and json.Indent are modelled from JSON values to bytes (Model/JsonText); how floating point numbers are written is a parameter with the law NumLaw (a JSON number that rounds to the float), which exactNum_law shows to be satisfiable. The grammar and the values of texts are in Spec/JsonText, independent of the writer. C94_list and C94_get combine it with C66. |
| C95 | A client recovers the metrics from the bytes of a JSON answer | proved | `Props/Unmarshal` | Composes C66, C94 and C69 with a decoder from the values of texts (Model/Unmarshal): what is decoded is determined by the bytes alone, for every reading by the grammar; the parameters of C69 for strings and numbers are gone. Field names are matched exactly and a zero has no sign in the value of a text. |
| C96 | The markup of an HTML page is that of the template, whatever strings are on it | proved | `Props/Markup` | Tokens is a tokenizer for tags with quoted attributes, character references and text (Spec/Markup); it has no script, style or comment states, which no tag of the pages enters. C96_metric and C96_directory: pages that nothing else interferes with; C96_safe: any run, any writer, any prefix. html/template's contextual escaping is modelled by esc and urlNorm (as for C64). |
| C97 | The text page can be read line by line | proved | `Props/TextRead` | PlainFmts is an assumption about strconv.FormatFloat (no newline, bar, comma, semicolon, parenthesis in its results). C97_value compares metrics of the same types and unit, which a script has to know; C97_forge is the counterexample for strings with newlines. |
| C98 | REST requests, from the connection to the metrics | proved | `Props/Rest` | Composition of C66, C67, C94 and C95 for one run. The compressor is a parameter with a left inverse on whole streams (hdec); metrics must be well typed, readable and finite, as for C95; the case that the handler panics is left to C66. |
| C99 | A request asks the application only for what it shows, and how often | proved | `Props/Often` | consults h is the list of own steps that read a variable, call a callback or ask a flag. A visit that panics (status not ok) has asked for a prefix of what it would have asked for. Calls made inside callbacks are outside the model. |
| C100 | Slices that share arrays | proved | `Props/Alias` | Model/Alias: slices with array, offset, length and capacity; copies element by element as in the code. C100_reachable and C100_runs carry the other properties over. C100_isolated extends C37 to aliases and append; C100_shared says exactly what shows otherwise, C100_append_shows is a witness; C100_untouched: the library only makes new arrays. C100_read_false: ReadMyMetrics hands out the list's own slice, so isolation needs that the application does not write to slices it got from there; such writes are not among the steps of Alias.Run. |
| C101 | Asking again for a list: answers show the last Change, in order | proved | `Props/ListAgain` | Proved over the whole model (Model/Whole) for requests of any interleaving. The hypothesis that slices are copied is needed: C101_shared is an execution in which a []float64 was declared immutable, the application writes to it, and two answers have the same time stamp and different values. Both requests are in the same encoding; equality of values is for the same unit, since one list can be registered at two paths with different units and durations and times are converted to the unit in JSON. |
| C102 | int and uint have the size of the machine | proved | `Props/Bits` | Proved for Model/Bits, in which the size of int is a parameter; C102_model shows that with 64 bits it is the model of the other properties. The lists' memory is assumed to hold values of the slices' element types that exist on the machine (CellOn). Group ids and lock counters, also ints, are not part of this property. |
| C103 | How much work a request is | proved | `Props/Cost` | Steps are the accesses to shared state that the model interleaves. One step may itself take time that grows with the depth of the tree (the path of a metric), the size of a directory (listing it), of a list or of a distribution (copying it); that is not counted. The bounds hold for requests that are cut off as well (panics, errors of the writer). |
| C104 | Objects that no constructor made | proved | `Props/Zero` | Model/Zero. A declared group is a region without an event loop; that nothing is sent or received on a nil channel is the language's rule. C104_group_others is a simulation: a run with declared groups has the events of a run of Model/Group (up to ids), so the safety properties C14–C19, C21 and C24 carry over. That registering in such a group succeeds is Model/Registry: registering does not look at the group. Lists and directories are models of their own here, with a slice and a map that may be absent; a nil pointer to a List is C37's model (reading panics). |
| C105 | Asking again for a distribution: the differences tell what was recorded | proved | `Props/Flow` | Over the model of the whole library (Model/Whole), with the hypotheses of C92 (AskedTwice) and ascending endpoints. Values are float64 numbers after conversion by the unit of the distribution (Spec.amount). The rounding of Sum is that of float64. Min and Max are in C92_cumulative. |
| C106 | A listing reads the metrics in the order of its answer | proved | `Props/Order` | Over the model of the whole library (Model/Whole). C106_in_order is for every finished listing; the time stamp of a scalar is not part of it (that is the one its group got, C72). C106_two_moments is a run in which the two entries differ. |
| C107 | A counter that never falls never appears to fall | proved | `Props/Counter` | For two metrics in two successive answers (C107_again) or one after the other in one listing (C107_listed) that show the same source. Hypotheses on the application: whenever the source gives a value, it is an integer of one type in the range of that type, and it does not fall; everything ever registered at the two paths shows this source. Function values may depend on the state; a function is taken to give what the World says at the moment of the call. |
| C108 | Asking again for a distribution: Min only falls and Max only rises until it is emptied | proved | `Props/Edges` | C108_again for two answers, C108_listed for two entries of one listing. The moves are those of C105 between a moment of the first reading and a moment of the second. C108_restart is a run in which Min goes up because the distribution was empty for a moment; C108_all_time one in which Min stays although its value was removed. UpdateMinMax does nothing, so it is no move. |
| C109 | Pages for people are complete, in order and true while everything else runs | proved | `Props/PageWhole` | C109_text and C109_html, about any finished request without error in a run of the whole library (Model/Whole); examples: both pages of the example of C91. Which moments the values of one group share is C91; how values look is C63 and C64. |
| C110 | The whole library behaves as if its methods were atomic | proved | `Props/Fine` | C110_whole, C110_quiet, C110_every and C110_returns, about Model/Fine, which runs the critical sections of Model/Locks and the event loops of Model/Group together; examples: a run in the middle of SetUnit, with a waiting Snapshot and a goroutine taking a group, and a finished run of Model/Whole. The outside world may depend on everything but fields behind locks (Local), as in C74. Fairness is not part of it. |
| C111 | A text page is read from top to bottom, also when it breaks off | proved | `Props/TextOrder` | C111_lines, about any finished text page, whatever its status, in a run of the whole library (Model/Whole); examples: a page on a connection that fails in the middle of the second line, and the complete page of C91. That the lines of a page without an error are complete and sorted is C109. |
| C112 | An HTML page is read from top to bottom, also when it breaks off | proved | `Props/HtmlOrder` | C112_items, about any finished HTML page, whatever its status, in a run of the whole library (Model/Whole); examples: a page on a connection that fails in the middle of the second item, and the complete page of C91. The type of the elements of a list and the elements are read one after the other, in the same interval. |
| C113 | A counter never appears to fall on text pages | proved | `Props/CounterPage` | C113_page and C113_again, about finished text pages in a run of the whole library (Model/Whole); examples: a page that shows 5 and 7 for a counter that is set to 7 between its lines, and two pages with 5 and 7. That numbers in RPC and JSON answers do not fall is C107. |
| C114 | A counter never appears to fall on HTML pages | proved | `Props/CounterHtml` | C114_page and C114_again, about finished HTML pages in a run of the whole library (Model/Whole); examples: a page that shows 5 and 7,000 for a counter that is set to 7000 between its items, and two pages with 5 and 7,000. With a unit the page shows the short form of C50; that the rounded numbers do not fall either comes from C115. Text pages: C113; RPC and JSON: C107. |
| C115 | The short forms of integers keep the order | proved | `Props/ShortOrder` | C115_order for what valueToHtmlString returns, with FormOf (Spec/ShortOrder) as the meaning of a form, and C115_unique: a form has one meaning. How close it is to the integer is C50. |
| C116 | Readable durations keep the order | proved | `Props/PrettyOrder` | C116_order for PrettyFormat, with PrettyOf (Spec/PrettyOrder) as the meaning of a text, C116_unique: a text has one meaning, C116_close and C116_same: how far it is from the duration, and C116_html for what valueToHtmlString returns. The exact forms and what is cut off are C46. |
| C117 | A running total of time never appears to fall on HTML pages | proved | `Props/CounterTime` | C117_page for one page and C117_again for two, with TimeTotal and TimesNotFalling (Spec/CounterTime); the order of the texts is that of C116. Types that are named after time.Duration are not shown as durations and are not part of it. |
| C118 | A running total of time never appears to fall on text pages | proved | `Props/CounterTimeText` | C118_page for the lines of one page and C118_again for two pages of one metric each, with TotalAt, TotalIn and LinesNotFalling (Spec/CounterTimeText). The times are exact, so the order of the numbers is that of the times. |

## 6. Where the code does not do what one would expect

Each of these is a theorem with a concrete witness.

| finding | theorem |
|---|---|
| A failed `RegisterMetric` leaves ancestor directories behind, and a distribution keeps the unit of the failed attempt | `C05_false_directory`, `C05_false_unit` |
| An update function that lists its own group blocks the group for ever | `C20_update_reading_own_group_blocks` |
| One distribution registered at two paths can have two different times in one listing | `C23_false` |
| `Update` of a non-cumulative distribution whose old value's range is empty panics after counting the new value; the counts no longer add up | `C26_violated_after_panic`, `C32_update_empty_range_corrupts` |
| A panicking `Remove` moves the time stamp; an emptied distribution reports generation 0 | `C27_panic_moves_timestamp`, `C27_empty_generation` |
| Sums lose values by cancellation; average and median can lie outside of [min, max] | `C28_cancellation`, `C30_average_out_of_bounds`, `C30_median_out_of_bounds` |
| Long durations are rounded twice when added | `C34_long_durations_rounded_twice` |
| Bucketers with equal endpoints; NaN passes the guards; canonical bucketers that never finish | `C35_equal_endpoints`, `C35_nan_accepted`, `C36_infinite_lower_never_ends`, `C36_tiny_lower_never_ends` |
| Decimal durations like `--5` or `+5` are accepted | `C42_accepts_more` |
| The zero time becomes 1970 on the way through JSON | `C43_zero_time_lost` |
| `FromGoFloat` of odd integers between 2^52 and 2^53 is off by one | `C47_odd_integers_move` |
| Values of declared types are reported with a kind that does not describe them | `C48_named_false`, `C48_flag_false` |
| One metric of a declared type like `type Level int8` makes the RPC listing fail for all clients: gob does not know the type | `C75_named_false` |
| Infinite values can be listed, since they are tested and then read again; elements of lists are not tested | `C52_false`, `C52_not_encodable` |
| One NaN in one list makes the whole JSON listing "Error in template.", with status 200 | `C66_nan` |
| CPU times are wrong by a factor of 1000 in the microseconds; the unshared stack size is always 0 | `C54_cpu_false`, `C54_stack_false` |
| A flag that conflicts with another is silently left out; a nil `Get` makes `RegisterFlags` panic | `C56_conflict_false`, `C56_nil_false` |
| The text page of a single metric does not see one update per group | `C59_text_false` |
| A list with a declared slice type of times makes the JSON endpoints panic | `C62_named_false` |
| Links to directories with `?`, `#`, `%41`, `.`, `..` in their names lead elsewhere | `C65_links_false`, `C65_links_exact` |
| `[]uint8` is a base64 string in JSON | `C66_bytes` |
| A Go client cannot convert lists of times and durations that it decoded from JSON; decoded integers stay `float64` | `C69_times_false`, `C69_number_false` |
| `RegisterMetric` returns nil though its metric is never visible, if a directory on the way is unregistered meanwhile; it may also fail with `ErrPathInUse` for a path that is free | `C78_lost`, `C78_in_use_nowhere` |
| A look-up can find a metric at a path at which there never was one | `C77_found_nowhere` |
| The counts in the demo program's comment (10, 15, 38, 94, 234) are those of other ranges; it shows 1, 9, 90, 400 | `C83_demo` |
| `tricorderclient` writes the metrics to its standard input; the fields of a metric that are zero keep the values of the metric that the variable held before | `C84_stdout_false`, `C84_stale_false` |
| An update function that reads a metric of its own group, or two that read each other's, block these groups for ever | `C86_own_group_blocks`, `C86_cycle_blocks` |
| A registered string or `time.Time` (without pointer) that is assigned to while it is read, outside the update function of its group, may be read half old, half new; the documentation warns only of times behind pointers | `C87_types`, `C87_in_place_false` |
| Strings on the text page are not escaped: one string metric can look, byte for byte, like two metrics | `C97_forge` |
| A listing and the text page call the callback of a floating point metric twice: once to see whether the value is infinite or NaN, once for the value, so an infinite value can still be listed if the second call returns one | `C99_listing` |
| `Accept-Encoding: gzip;q=0` is answered with gzip | `C67_q0` |
| Three default metrics have other names than in the design document, and `/proc/cpu/sys` is described as "User CPU time used" | `C61_design`, `C61_sys_description` |
| `ReadMyMetrics` returns the slice of a list itself, also if the list had made a copy: writing to it changes what everybody reads | `C100_read_false` |
| Appending to a shorter slice of the same array changes a list made with `ImmutableSlice`, though nobody wrote to its slice | `C100_append_shows` |
| One metric registered in a `Group` that was declared and not made with `NewGroup` is accepted; every request that reads it hangs for ever, and the groups it had visited before are never updated again | `C104_group_hangs`, `C104_group_starves` |
| A distribution that is emptied forgets its all-time Min and Max, though `Remove` is documented to leave them unchanged: after Remove of its last value and Add of a greater one, Min has gone up | `C108_restart` |

## 7. Checks

* `lake build` in `lean/`; `vcheck` after each milestone.
* `lean/Verif/Axioms.lean` prints the axioms during the build; appendix B is made from its output.
* `lean/Verif/Tests.lean`, `TestsApi.lean`, `TestsGroup.lean`: the project's own unit tests, all of them, evaluated in the
  model by the kernel; every expectation is met.
* Wrong programs: `seeded/LOG.jsonl`, one line per edit of a definition, with the theorems that failed.  Where none failed, the
  line says which statement was tightened, or why the edit does not change the behaviour.

## Appendix A. Go functions and definitions

### `go/healthserver/api.go`

| function | lines | definitions | module |
|---|---|---|---|
| `SetHealthy` | 16-18 | `Call` | `Model/Health` |
| `SetNotHealthy` | 23-28 | `Call.plan`, `Call` | `Model/Health` |
| `SetNotReady` | 33-38 | `Call.plan`, `Call` | `Model/Health` |
| `SetReady` | 41-43 | `Call` | `Model/Health` |

### `go/healthserver/impl.go`

| function | lines | definitions | module |
|---|---|---|---|
| `init` | 15-18 | `Call` | `Model/Health` |
| `commonHandler` | 20-26 | `Result`, `commonHandler`, `Run` | `Model/Health` |
| `healthzHandler` | 28-33 | `Globals.get`, `PC`, `step`, `Run` | `Model/Health` |
| `readinessHandler` | 35-40 | `Globals.get`, `PC`, `step`, `Run` | `Model/Health` |
| `setHealth` | 42-46 | `Globals.set`, `PC`, `step`, `Run` | `Model/Health` |
| `setReady` | 48-52 | `Globals.set`, `PC`, `step`, `Run` | `Model/Health` |

### `go/tricorder/api.go`

| function | lines | definitions | module |
|---|---|---|---|
| `DirectoryGroup.RegisterMetric` | 38-45 | `DirectoryGroup.registerMetric` | `Model/Api` |
| `NewGroup` | 71-73 | `newGroup`, `newGroup` | `Model/Fine`, `Model/Whole` |
| `Group.RegisterMetric` | 83-90 | `groupRegisterMetric` | `Model/Api` |
| `ReadMyMetrics` | 95-97 | `St.obtain` | `Model/Alias` |
| `RegisterMetric` | 117-128 | `registerMetric` | `Model/Api` |
| `RegisterMetricInGroup` | 133-141 | `registerMetricInGroup`, `apiRegisterMetric`, `Reg` | `Model/Api`, `Model/Registry`, `Model/Setup` |
| `UnregisterPath` | 145-147 | `unregisterPath`, `apiUnregisterPath` | `Model/Api`, `Model/Registry` |
| `NewExponentialBucketer` | 168-171 | `newExponentialBucketer`, `Res.bind` | `Model/Bucketer` |
| `NewLinearBucketer` | 177-180 | `newLinearBucketer`, `Res.bind` | `Model/Bucketer` |
| `NewArbitraryBucketer` | 188-190 | `newArbitraryBucketer`, `Res.bind` | `Model/Bucketer` |
| `NewGeometricBucketer` | 197-200 | `newGeometricBucketer`, `Res.bind` | `Model/Bucketer` |
| `CumulativeDistribution.Add` | 223-225 | `DCall` | `Model/Dist` |
| `NonCumulativeDistribution.Add` | 236-238 | `DCall` | `Model/Dist` |
| `NonCumulativeDistribution.Update` | 254-256 | `DCall` | `Model/Dist` |
| `NonCumulativeDistribution.UpdateMinMax` | 271-272 | `DCall` | `Model/Dist` |
| `NonCumulativeDistribution.Remove` | 286-288 | `DCall` | `Model/Dist` |
| `NonCumulativeDistribution.Sum` | 291-293 | `DCall` | `Model/Dist` |
| `NonCumulativeDistribution.Count` | 296-298 | `DCall` | `Model/Dist` |
| `GetDirectory` | 360-363 | `apiGetDirectory` | `Model/Registry` |
| `RegisterDirectory` | 370-373 | `registerDirectory`, `apiRegisterDirectory` | `Model/Api`, `Model/Registry` |
| `DirectorySpec.RegisterMetric` | 377-388 | `dirRegisterMetric` | `Model/Api` |
| `DirectorySpec.RegisterMetricInGroup` | 393-400 | `dirRegisterMetricInGroup`, `apiRegisterMetric` | `Model/Api`, `Model/Registry` |
| `DirectorySpec.RegisterDirectory` | 404-408 | `dirRegisterDirectory`, `apiRegisterDirectory` | `Model/Api`, `Model/Registry` |
| `DirectorySpec.UnregisterPath` | 417-419 | `dirUnregisterPath`, `apiUnregisterPath` | `Model/Api`, `Model/Registry` |
| `DirectorySpec.UnregisterDirectory` | 427-429 | `unregisterDirectory`, `apiUnregisterDirectory` | `Model/Api`, `Model/Registry` |

No definition of their own (one-line wrappers inlined in their callers, or not modelled: see section 2): `Group.RegisterUpdateFunc` (77-79), `Bucketer.NewCumulativeDistribution` (204-206), `Bucketer.NewNonCumulativeDistribution` (210-212), `NewList` (336-338), `List.Change` (349-351), `DirectorySpec.AbsPath` (411-413), `RegisterFlags` (433-435), `SetFlagUnit` (441-443).

### `go/tricorder/duration/api.go`

| function | lines | definitions | module |
|---|---|---|---|
| `ParseWithUnit` | 33-40 | `parseWithUnit` | `Model/Duration` |
| `Duration.StringUsingUnits` | 65-67 | `stringUsingUnits` | `Model/Duration` |
| `FloatToTime` | 82-84 | `floatToTime` | `Model/Types` |
| `TimeToFloat` | 87-89 | `timeToFloat` | `Model/Types` |
| `ToFloat` | 92-94 | `durToFloat` | `Model/Types` |
| `FromFloat` | 97-99 | `durFromFloat` | `Model/Types` |

No definition of their own (one-line wrappers inlined in their callers, or not modelled: see section 2): `New` (17-19), `SinceEpoch` (22-24), `SinceEpochFloat` (27-29), `Duration.AsGoDuration` (43-45), `Duration.AsGoTime` (49-51), `Duration.AsFloat` (54-56), `Duration.String` (59-61), `Duration.IsNegative` (70-72), `Duration.PrettyFormat` (76-78).

### `go/tricorder/duration/duration.go`

| function | lines | definitions | module |
|---|---|---|---|
| `newDuration` | 17-21 | `new` | `Model/Duration` |
| `sinceEpoch` | 24-32 | `sinceEpoch` | `Model/Duration` |
| `sinceEpochFloat` | 34-39 | `f1e9`, `Dur.sinceEpochFloat` | `Model/Types` |
| `Duration.asGoDuration` | 41-43 | `asGoDuration` | `Model/Duration` |
| `Duration.asGoTime` | 45-47 | `asGoTime` | `Model/Duration` |
| `Duration.toString` | 49-55 | `toString` | `Model/Duration` |
| `Duration.asFloat` | 57-59 | `f1em9`, `Dur.asFloat` | `Model/Types` |
| `Duration.isNegative` | 61-63 | `isNegative` | `Model/Duration` |
| `Duration.prettyFormat` | 65-99 | `prettyFormat` | `Model/Duration` |
| `Duration.mult` | 101-108 | `mult` | `Model/Duration` |
| `Duration.div` | 110-117 | `div` | `Model/Duration` |
| `Duration.convert` | 119-125 | `convert` | `Model/Duration` |
| `parse` | 127-167 | `cutMinus`, `parseFrac`, `parse` | `Model/Duration` |

### `go/tricorder/html.go`

| function | lines | definitions | module |
|---|---|---|---|
| `htmlView.HtmlType` | 129-138 | `htmlType` | `Model/Html` |
| `htmlView.HasUnit` | 140-142 | `unitPart` | `Model/Html` |
| `htmlView.Link` | 144-146 | `htmlLink` | `Model/Html` |
| `htmlEmitMetric` | 152-158 | `writing` | `Model/Html` |
| `htmlEmitDirectory` | 160-166 | `writing` | `Model/Html` |
| `htmlEmitDirectoryOrMetric` | 168-181 | `htmlEndpoint` | `Model/Html` |
| `textCollector.Collect` | 187-192 | `textColl` | `Model/Read` |
| `textEmitDistribution` | 194-243 | `Writer`, `Writer.all`, `pieceText`, `distText` | `Model/Read` |
| `textEmitMetric` | 245-258 | `Writer`, `textEmitMetric` | `Model/Read` |
| `textEmitDirectoryOrMetric` | 260-271 | `Writer`, `textEndpoint` | `Model/Read` |
| `setSecurityHeaders` | 273-277 | `securityHeaders` | `Model/Http` |
| `htmlAndTextHandlerFunc` | 279-293 | `pageEnd`, `pageHandler` | `Model/Http` |
| `hasTricorderHandler` | 295-298 | `hasTricorder` | `Model/Http` |
| `initHtmlHandlers` | 306-315 | `Route`, `route` | `Model/Http` |

No definition of their own (one-line wrappers inlined in their callers, or not modelled: see section 2): `htmlView.AsMetricView` (109-111), `htmlView.AsHtmlString` (113-115), `htmlView.HtmlStrings` (117-119), `htmlView.IsDistribution` (121-123), `htmlView.IsList` (125-127), `htmlView.ToFloat32` (148-150), `newStatic` (300-304).

### `go/tricorder/http.go`

| function | lines | definitions | module |
|---|---|---|---|
| `handleError` | 20-23 | `handleError` | `Model/Http` |
| `httpError` | 25-33 | `Resp.writeHeader`, `httpErrorMsg`, `notFound` | `Model/Http` |
| `gzipResponseWriter.Write` | 57-59 | `Compressor.runs`, `gzipResp` | `Model/Http` |
| `gzipHandler.ServeHTTP` | 65-75 | `Hdr.get`, `plainResp`, `Compressor`, `Compressor.stream`, `gzipEmit`, `gzipClose` | `Model/Http` |
| `initHttpFramework` | 77-80 | `initDefaultMetrics` | `Model/Setup` |

No definition of their own (one-line wrappers inlined in their callers, or not modelled: see section 2): `addStatic` (35-37), `addStaticBinary` (39-50).

### `go/tricorder/json.go`

| function | lines | definitions | module |
|---|---|---|---|
| `jsonMetricsCollector.Collect` | 22-25 | `msgColl` | `Model/Read` |
| `jsonSetUpHeaders` | 27-30 | `Hdr`, `Hdr.set`, `jsonHeaders` | `Model/Http` |
| `jsonHandlerFunc` | 32-57 | `Json`, `JsonLib`, `jsonNum`, `jsonBase`, `intOf`, `jsonVal` | `Model/Http` |
| `initJsonHandlers` | 59-61 | `Route`, `under`, `route` | `Model/Http` |

No definition of their own (one-line wrappers inlined in their callers, or not modelled: see section 2): `jsonAsMetric` (14-18).

### `go/tricorder/messages/api.go`

| function | lines | definitions | module |
|---|---|---|---|
| `ZeroValue` | 157-163 | `zeroValueMsg` | `Model/Types` |
| `init` | 165-176 | `gobPredeclared`, `gobBasics`, `messagesInit`, `gobRegistry` | `Model/Gob` |

No definition of their own (one-line wrappers inlined in their callers, or not modelled: see section 2): `Distribution.Type` (54-56), `Metric.ConvertToGoRPC` (128-130), `Metric.ConvertToJson` (133-135), `AsJsonWithSubType` (148-152).

### `go/tricorder/messages/metric.go`

| function | lines | definitions | module |
|---|---|---|---|
| `valueAsString` | 12-18 | `valueAsString` | `Model/Messages` |
| `valueAsStringSlice` | 20-26 | `strOf`, `valueAsStringSlice` | `Model/Messages` |
| `asGoRPC` | 28-91 | `mapAll`, `asGoRPC` | `Model/Messages` |
| `asJson` | 93-142 | `durOf`, `timeOf`, `asJson` | `Model/Messages` |
| `Metric.convertToJson` | 144-156 | `Metric.convertToJson` | `Model/Messages` |
| `Metric.convertToGoRPC` | 158-183 | `tsToGoRPC`, `Metric.convertToGoRPC` | `Model/Messages` |
| `timeAsString` | 185-191 | `timeAsString` | `Model/Messages` |
| `stringAsTime` | 193-201 | `stringAsTime` | `Model/Messages` |
| `durationAsString` | 203-205 | `durationAsString` | `Model/Messages` |
| `stringAsDuration` | 207-215 | `stringAsDuration` | `Model/Messages` |

### `go/tricorder/metric.go`

| function | lines | definitions | module |
|---|---|---|---|
| `newIdSequence` | 38-48 | `State`, `Step`, `Run`, `Step`, `ZRun` | `Model/Group`, `Model/Nested`, `Model/Zero` |
| `newSession` | 79-81 | `Client`, `Step`, `Run`, `St`, `Step`, `ZRun` | `Model/Group`, `Model/Nested`, `Model/Zero` |
| `session.Visit` | 88-98 | `visit`, `Ev`, `Client.visit`, `Step`, `Run`, `Step` | `Model/Group`, `Model/Nested`, `Model/Read` |
| `session.Close` | 104-110 | `PC`, `Closed`, `close`, `Ev`, `Step`, `Run` | `Model/Group`, `Model/Nested`, `Model/Read` |
| `fixUpdateFunc` | 112-117 | `Ev`, `Step`, `Run`, `Step`, `ZRun` | `Model/Group`, `Model/Nested`, `Model/Zero` |
| `newRegion` | 134-146 | `newRegion`, `newRegion`, `Step`, `Ev`, `Step`, `Run` | `Model/Fine`, `Model/Group`, `Model/Sys` |
| `voidFunc` | 148-150 | `start`, `Step`, `Ev`, `Step`, `Run`, `Step` | `Model/Fine`, `Model/Group`, `Model/Nested`, `Model/Whole` |
| `newDefaultRegion` | 152-154 | `Step`, `Ev`, `Step`, `Run`, `Step`, `Step` | `Model/Fine`, `Model/Group`, `Model/Nested`, `Model/Whole` |
| `region.Id` | 156-158 | `regionId`, `Step`, `Ev`, `Step`, `Run`, `Step` | `Model/Fine`, `Model/Group`, `Model/Nested`, `Model/Sys` |
| `region.registerUpdateFunc` | 160-163 | `PC`, `Step`, `Ev`, `Step`, `Run`, `Step` | `Model/Fine`, `Model/Group`, `Model/Nested` |
| `region.handleLockUnlock` | 165-176 | `Calling`, `Region.handleLockUnlock`, `Region.handleEvents`, `Owner`, `St.CanOpen`, `Step` | `Model/Fine`, `Model/Group`, `Model/Nested` |
| `region.handleUpdateFunc` | 178-181 | `fnHandle`, `Step`, `Ev`, `Step`, `Run`, `Step` | `Model/Fine`, `Model/Group`, `Model/Nested` |
| `region.handleRequests` | 183-192 | `Loop`, `Step`, `Ev`, `Step`, `Run`, `Step` | `Model/Fine`, `Model/Group`, `Model/Nested` |
| `region.RLock` | 194-197 | `PC`, `rlock`, `Step`, `Ev`, `Client.receive`, `Client.send` | `Model/Fine`, `Model/Group`, `Model/Sys` |
| `region.RUnlock` | 199-202 | `PC`, `runlock`, `Step`, `Ev`, `Client.receive`, `Client.send` | `Model/Fine`, `Model/Group`, `Model/Sys` |
| `newExponentialBucketerStream` | 216-228 | `expLoop`, `expStream`, `Arith`, `Res` | `Model/Arith`, `Model/Bucketer` |
| `newLinearBucketerStream` | 230-242 | `linLoop`, `linStream`, `Arith`, `Res` | `Model/Arith`, `Model/Bucketer` |
| `findGeometricBaseAndOffset` | 248-265 | `geoUp`, `geoDown`, `geoPick`, `findGeo`, `Arith`, `Res` | `Model/Arith`, `Model/Bucketer` |
| `newGeometricBucketerStream` | 267-285 | `geoEmit`, `geoStream`, `Arith`, `Res` | `Model/Arith`, `Model/Bucketer` |
| `newBucketerFromEndpoints` | 287-299 | `pieceLoop`, `fromEndpoints`, `Arith`, `Res` | `Model/Arith`, `Model/Bucketer` |
| `newDistribution` | 343-347 | `Arith` | `Model/Arith` |
| `newDistributionWithTimeStamp` | 349-360 | `newDist`, `newOther`, `newDist`, `Arith` | `Model/Arith`, `Model/Dist`, `Model/Group`, `Model/Sys` |
| `distribution.SetUnit` | 362-378 | `Dist.setUnit`, `setUnit`, `setUnit`, `Arith`, `Step`, `Step` | `Model/Arith`, `Model/Dist`, `Model/Fine`, `Model/Locks`, `Model/Sys` |
| `distribution.GroupId` | 380-382 | `DistView`, `Arith`, `Step`, `Step` | `Model/Arith`, `Model/Fine`, `Model/Locks`, `Model/Sys` |
| `distribution.Sum` | 384-388 | `Arith`, `Step`, `Step`, `distCall` | `Model/Arith`, `Model/Fine`, `Model/Locks`, `Model/Sys` |
| `distribution.Count` | 390-394 | `Arith`, `Step`, `Step`, `distCall` | `Model/Arith`, `Model/Fine`, `Model/Locks`, `Model/Sys` |
| `distribution.Add` | 396-398 | `Arith`, `Dist.call`, `Dist.calls`, `Step`, `Step`, `distCall` | `Model/Arith`, `Model/Dist`, `Model/Fine`, `Model/Locks`, `Model/Sys` |
| `distribution.AddWithTs` | 400-404 | `Dist.addWithTs`, `Arith`, `Dist.call`, `Dist.calls`, `Step`, `distCall` | `Model/Arith`, `Model/Dist`, `Model/Fine`, `Model/Locks` |
| `distribution.Update` | 406-408 | `Arith`, `Dist.call`, `Dist.calls`, `Step`, `distCall`, `Step` | `Model/Arith`, `Model/Dist`, `Model/Fine`, `Model/Locks` |
| `distribution.UpdateWithTs` | 410-418 | `Dist.updateWithTs`, `Arith`, `Dist.call`, `Dist.calls`, `Step`, `distCall` | `Model/Arith`, `Model/Dist`, `Model/Fine`, `Model/Locks` |
| `distribution.Remove` | 420-422 | `Arith`, `Dist.call`, `Dist.calls`, `Step`, `distCall`, `Step` | `Model/Arith`, `Model/Dist`, `Model/Fine`, `Model/Locks` |
| `distribution.RemoveWithTs` | 424-429 | `Dist.removeWithTs`, `Arith`, `Dist.call`, `Dist.calls`, `Step`, `distCall` | `Model/Arith`, `Model/Dist`, `Model/Fine`, `Model/Locks` |
| `distribution.add` | 431-446 | `Dist.add`, `DOp`, `bump`, `add`, `Arith`, `Dist.op` | `Model/Arith`, `Model/Dist`, `Model/Locks` |
| `decrementCount` | 448-453 | `badValue`, `Arith`, `Dist.op`, `Dist.ops` | `Model/Arith`, `Model/Dist` |
| `distribution.update` | 455-475 | `Dist.updateStats`, `Dist.update`, `DOp`, `bump`, `update`, `Arith` | `Model/Arith`, `Model/Dist`, `Model/Locks` |
| `distribution.remove` | 477-491 | `Dist.remove`, `DOp`, `bump`, `remove`, `Arith`, `Dist.op` | `Model/Arith`, `Model/Dist`, `Model/Locks` |
| `distribution.valueToFloat` | 493-507 | `Dist.valueToFloat`, `valueToFloat`, `Arith` | `Model/Arith`, `Model/Dist`, `Model/Locks` |
| `distribution.goDurationToFloat` | 509-518 | `goDurationToFloat`, `Arith` | `Model/Arith`, `Model/Dist` |
| `findDistributionIndex` | 520-524 | `searchLoop`, `search`, `belowStop`, `findIndex`, `Arith` | `Model/Arith`, `Model/Dist` |
| `distribution.indexToValue` | 526-546 | `sub64`, `findPiece`, `Dist.indexToValue`, `Arith` | `Model/Arith`, `Model/Dist` |
| `interpolate` | 548-550 | `interpolate`, `Arith` | `Model/Arith`, `Model/Dist` |
| `distribution.calculateMedian` | 552-560 | `Dist.calculateMedian`, `Arith` | `Model/Arith`, `Model/Dist` |
| `distribution.Snapshot` | 563-593 | `Dist.snapshot`, `Step`, `countLoop`, `snapshot`, `Step`, `snapshot` | `Model/Dist`, `Model/Fine`, `Model/Locks`, `Model/Sys` |
| `copySlice` | 603-607 | `Ref`, `Head`, `fresh`, `copySlice`, `Cell`, `exec` | `Model/Alias`, `Model/Sys` |
| `convertFromIntOrUintSlice` | 612-642 | `elems`, `store`, `fresh`, `convertSlice`, `convertedKind`, `convertElem` | `Model/Alias`, `Model/Bits` |
| `asSliceValue` | 648-666 | `asSliceValue`, `unsizedElem`, `asSliceValueOn`, `Callable`, `SliceArg`, `asSliceValue` | `Model/Alias`, `Model/Bits`, `Model/Locks`, `Model/Sys` |
| `newListWithTimeStamp` | 668-678 | `St.newList`, `State.newListOn`, `newOther`, `newList`, `State.newList`, `exec` | `Model/Alias`, `Model/Bits`, `Model/Group`, `Model/Sys` |
| `listType.ChangeWithTimeStamp` | 680-692 | `St.changeList`, `State.changeListOn`, `listChange`, `changeList`, `State.changeList`, `ZList.change` | `Model/Alias`, `Model/Bits`, `Model/Locks`, `Model/Sys`, `Model/Zero` |
| `listType.get` | 694-698 | `listGet`, `getList`, `listView`, `exec`, `Step`, `Step` | `Model/Alias`, `Model/Fine`, `Model/Locks`, `Model/Sys` |
| `listType.TextStrings` | 700-708 | `exec`, `elemsOf`, `renderAll`, `ZList.read` | `Model/Alias`, `Model/Read`, `Model/Zero` |
| `listType.HtmlStrings` | 710-718 | `exec`, `elemsOf`, `renderAll`, `ZList.read` | `Model/Alias`, `Model/Read`, `Model/Zero` |
| `listType.AsSlice` | 721-724 | `Cell.val`, `St.obtain`, `exec`, `ListView`, `listView`, `ZList.read` | `Model/Alias`, `Model/Sys`, `Model/Zero` |
| `listType.GroupId` | 726-728 | `exec`, `ListView`, `listView` | `Model/Alias`, `Model/Sys` |
| `listType.SubType` | 730-732 | `exec`, `ListView`, `listView` | `Model/Alias`, `Model/Sys` |
| `getPrimitiveType` | 756-813 | `kindTypeOn`, `getPrimitiveTypeOn`, `GoTy`, `Dyn.ty`, `kindType`, `getPrimitiveType` | `Model/Bits`, `Model/Sys` |
| `newValueForDist` | 825-832 | `newValueForDist` | `Model/Registry` |
| `newValue` | 836-909 | `flagValueOn`, `newValueOn`, `flagValue`, `newValue`, `RegSpec`, `Src` | `Model/Bits`, `Model/Registry`, `Model/Sys` |
| `value.evaluate` | 944-961 | `Owner`, `St.CanOpen`, `Handle`, `called`, `evalSrc`, `evalIn` | `Model/Nested`, `Model/Read` |
| `value.AsBool` | 967-972 | `Dyn.bool`, `deref`, `readAs`, `Rd`, `copy`, `readVar` | `Model/Read`, `Model/Render`, `Model/Words` |
| `value.AsInt` | 974-979 | `Dyn.int`, `deref`, `readAs`, `Rd`, `copy`, `readVar` | `Model/Read`, `Model/Render`, `Model/Words` |
| `value.AsUint` | 981-986 | `Dyn.uint`, `deref`, `readAs`, `Rd`, `copy`, `readVar` | `Model/Read`, `Model/Render`, `Model/Words` |
| `value.IsInfNaN` | 988-994 | `isInfNaN`, `deref`, `readAs`, `Rd`, `copy`, `readVar` | `Model/Read`, `Model/Words` |
| `value.AsFloat` | 996-1001 | `Dyn.float`, `deref`, `readAs`, `Rd`, `copy`, `readVar` | `Model/Read`, `Model/Render`, `Model/Words` |
| `value.AsString` | 1003-1008 | `Dyn.string`, `readAs`, `Rd`, `copy`, `readVar`, `Run` | `Model/Read`, `Model/Render`, `Model/Words` |
| `valueToTime` | 1010-1020 | `valueToTime`, `timeWords`, `readTimePtr`, `readAs`, `Rd`, `copy` | `Model/Read`, `Model/Render`, `Model/Words` |
| `valueToGoDuration` | 1022-1024 | `Dyn.int`, `valueToGoDuration`, `readAs`, `Rd`, `readVar` | `Model/Read`, `Model/Render`, `Model/Words` |
| `timeToDuration` | 1026-1031 | `timeToDuration`, `readAs`, `Rd`, `readVar` | `Model/Read`, `Model/Render`, `Model/Words` |
| `value.AsTime` | 1033-1038 | `readAs`, `Rd`, `readVar` | `Model/Read`, `Model/Words` |
| `value.AsGoDuration` | 1040-1045 | `readAs`, `Rd`, `readVar` | `Model/Read`, `Model/Words` |
| `value.AsDuration` | 1047-1055 | `readAs`, `Rd` | `Model/Read`, `Model/Words` |
| `valueToInterface` | 1057-1086 | `Dyn.int`, `Dyn.interface`, `valueToInterface`, `readAs`, `Rd` | `Model/Read`, `Model/Render`, `Model/Words` |
| `value.AsInterface` | 1088-1093 | `asInterface`, `readAs`, `Rd` | `Model/Read`, `Model/Words` |
| `asRanges` | 1118-1127 | `asRanges` | `Model/Read` |
| `value.updateJsonOrRpcMetric` | 1129-1168 | `distMsg`, `blankMetric`, `distMetric`, `listMetric`, `scalarMetric`, `encodeMetric` | `Model/Read` |
| `addSeparators` | 1180-1204 | `digitIndex`, `nonDigitIndex`, `sepLoop`, `addSeparators` | `Model/Render` |
| `valueToTextString` | 1206-1237 | `valueToTextString` | `Model/Render` |
| `value.AsTextString` | 1243-1249 | `asTextString` | `Model/Read` |
| `iCompactForm` | 1251-1270 | `fmtFixed`, `f9995`, `f9995'`, `scaleLoop`, `showScaled`, `scaleFuel` | `Model/Render` |
| `uCompactForm` | 1272-1291 | `f9995`, `f9995'`, `uScaleLoop`, `uShowScaled`, `uCompactForm` | `Model/Render` |
| `valueToHtmlString` | 1293-1342 | `Fmts`, `valueToHtmlString` | `Model/Render` |
| `value.AsHtmlString` | 1348-1354 | `asHtmlString` | `Model/Read` |
| `metric.AbsPath` | 1382-1384 | `metricAbsPath`, `metric`, `MetricView`, `metricView` | `Model/Sys`, `Model/Tree` |
| `metric.InitJsonMetric` | 1387-1391 | `blankMetric` | `Model/Read` |
| `listEntry.parentDir` | 1425-1430 | `parentDir` | `Model/Tree` |
| `listEntry.pathFrom` | 1432-1447 | `pathUp`, `pathFrom` | `Model/Tree` |
| `listEntry.absPath` | 1449-1451 | `absPath` | `Model/Tree` |
| `newDirectory` | 1468-1470 | `init`, `Tree` | `Model/Tree` |
| `directory.AbsPath` | 1478-1480 | `dirAbsPath`, `dirAbsPath` | `Model/Sys`, `Model/Tree` |
| `directory.Parent` | 1484-1489 | `parent` | `Model/Tree` |
| `directory.GetDirectory` | 1497-1499 | `dirGetDirectory` | `Model/Api` |
| `directory.GetMetric` | 1503-1506 | `dirGetMetric`, `getMetric` | `Model/Api`, `Model/Registry` |
| `collect` | 1509-1514 | `collect`, `Status` | `Model/Read` |
| `directory.GetAllMetricsByPath` | 1529-1542 | `withSession`, `getAllMetricsByPath`, `Status` | `Model/Read` |
| `directory.GetDirectoryOrMetric` | 1548-1551 | `dirGetDirectoryOrMetric`, `lookupPath`, `Status` | `Model/Api`, `Model/Read`, `Model/Registry` |
| `directory.GetAllMetrics` | 1563-1580 | `forEntries`, `traverse`, `withSession`, `getAllMetrics`, `Status` | `Model/Read` |
| `directory.listUnsorted` | 1582-1592 | `listLoop`, `listUnsorted`, `list`, `Step`, `Step` | `Model/Fine`, `Model/Locks`, `Model/Sys` |
| `directory.getListEntry` | 1594-1598 | `getListEntry`, `getEntry`, `getEntry`, `ZMap.get`, `Step`, `Step` | `Model/Fine`, `Model/Locks`, `Model/Sys`, `Model/Tree`, `Model/Zero` |
| `directory.removeListEntry` | 1600-1604 | `removeListEntry`, `removeEntry`, `erase`, `removeEntry`, `remove`, `Step` | `Model/Fine`, `Model/Locks`, `Model/Sys`, `Model/Tree`, `Model/Zero` |
| `directory.removeChildDirectory` | 1606-1613 | `removeChildDirectory`, `removeChild`, `Step`, `Step` | `Model/Fine`, `Model/Locks`, `Model/Tree` |
| `directory.getDirectoryAndError` | 1615-1629 | `getDirectoryAndError`, `getDir` | `Model/Registry`, `Model/Zero` |
| `directory.getDirectory` | 1631-1641 | `getDirectory` | `Model/Registry` |
| `directory.getDirectoryOrMetric` | 1643-1657 | `getDirectoryOrMetric` | `Model/Registry` |
| `directory.createDirIfNeeded` | 1659-1681 | `createDirIfNeeded`, `createDir`, `createDir`, `createDir`, `Step`, `Step` | `Model/Fine`, `Model/Locks`, `Model/Sys`, `Model/Tree`, `Model/Zero` |
| `directory.storeMetric` | 1683-1695 | `storeMetric`, `storeMetric`, `storeMetric`, `storeMetric`, `Step`, `Step` | `Model/Fine`, `Model/Locks`, `Model/Sys`, `Model/Tree`, `Model/Zero` |
| `directory.registerDirectory` | 1697-1707 | `registerDirectory`, `registerDir` | `Model/Registry`, `Model/Zero` |
| `directory.registerMetric` | 1709-1730 | `registerMetric`, `storeMetric`, `registerMetric` | `Model/Registry`, `Model/Tree`, `Model/Zero` |
| `directory.unregisterDirectory` | 1732-1737 | `unregisterDir`, `unregisterDir` | `Model/Sys`, `Model/Tree` |
| `directory.unregisterPath` | 1739-1748 | `unregisterPath`, `unregisterPath` | `Model/Registry`, `Model/Zero` |
| `toFlagGetter` | 1758-1764 | `flagUnit` | `Model/Setup` |
| `registerFlags` | 1766-1778 | `Flag`, `registerFlagsIn`, `registerFlags` | `Model/Setup` |
| `setFlagUnit` | 1780-1782 | `setFlagUnit` | `Model/Setup` |
| `defaultUnit` | 1784-1791 | `defaultUnit` | `Model/Setup` |
| `flagUnit` | 1793-1798 | `flagUnit` | `Model/Setup` |
| `newPathSpec` | 1803-1816 | `newPathSpec` | `Model/Path` |
| `pathSpec.Dir` | 1820-1826 | `pathDir` | `Model/Path` |
| `pathSpec.Base` | 1830-1836 | `pathBase` | `Model/Path` |
| `pathSpec.Empty` | 1839-1841 | `pathEmpty` | `Model/Path` |
| `pathSpec.String` | 1843-1845 | `pathString` | `Model/Path` |
| `byName.Less` | 1854-1856 | `nameLe` | `Model/Tree` |
| `sortListEntries` | 1862-1865 | `sortEntries` | `Model/Tree` |
| `readMyMetrics` | 1867-1873 | `listMetrics` | `Model/Read` |

No definition of their own (one-line wrappers inlined in their callers, or not modelled: see section 2): `mustGetPrimitiveType` (816-823), `value.Type` (912-914), `value.SubType` (918-923), `value.Unit` (926-928), `value.Bits` (933-938), `value.canEvaluate` (940-942), `value.RegionId` (1098-1103), `value.TimeStamp` (1111-1116), `value.UpdateJsonMetric` (1171-1173), `value.UpdateRpcMetric` (1176-1178), `value.AsDistribution` (1358-1363), `value.AsList` (1365-1370), `metric.UpdateJsonMetric` (1396-1398), `metric.InitRpcMetric` (1401-1405), `metric.UpdateRpcMetric` (1410-1412), `directory.List` (1473-1475), `directory.IsRoot` (1491-1493), `flagValueToGetterType.Get` (1754-1756), `byName.Len` (1850-1852), `byName.Swap` (1858-1860).

### `go/tricorder/rpc.go`

| function | lines | definitions | module |
|---|---|---|---|
| `rpcMetricsCollector.Collect` | 16-19 | `msgColl` | `Model/Read` |
| `rpcType.ListMetrics` | 23-26 | `rpcSend`, `listMetrics`, `listCall`, `Answer` | `Model/Gob`, `Model/Read`, `Model/Whole` |
| `rpcType.GetMetric` | 28-35 | `getMetricMsg`, `getCall`, `Answer` | `Model/Read`, `Model/Whole` |

No definition of their own (one-line wrappers inlined in their callers, or not modelled: see section 2): `rpcAsMetric` (8-12), `initRpcHandlers` (37-39).

### `go/tricorder/setup.go`

| function | lines | definitions | module |
|---|---|---|---|
| `getProgramArgs` | 13-15 | `getProgramArgs` | `Model/Setup` |
| `timeValToDuration` | 17-19 | `timeValToDuration` | `Model/Setup` |
| `initDefaultMetrics` | 21-171 | `int64Var`, `vTotalMemory`, `vGoVersion`, `vNumGoroutines`, `vUserTime`, `vSysTime` | `Model/Setup` |
| `countOpenFileDescriptors` | 181-192 | `fdFn` | `Model/Setup` |

No definition of their own (one-line wrappers inlined in their callers, or not modelled: see section 2): `init` (173-179).

### `go/tricorder/types/api.go`

| function | lines | definitions | module |
|---|---|---|---|
| `FromGoValue` | 41-44 | `fromGoValue` | `Model/Types` |
| `FromGoValueWithSubType` | 52-129 | `scalarKind`, `fromGoValueWithSubType` | `Model/Types` |
| `Type.SafeZeroValue` | 133-168 | `safeZeroValue` | `Model/Types` |
| `Type.ZeroValue` | 172-178 | `Ty.zeroValue` | `Model/Misc` |
| `Type.SafeNilSlice` | 182-215 | `safeNilSlice` | `Model/Types` |
| `Type.NilSlice` | 219-225 | `Ty.nilSlice` | `Model/Misc` |
| `Type.CanToFromFloat` | 228-235 | `Ty.canToFromFloat` | `Model/Types` |
| `Type.FromFloat` | 239-268 | `Fl.toIntKind`, `fromFloatInt`, `Ty.fromFloat`, `Conv` | `Model/Types` |
| `Type.ToFloat` | 272-301 | `toFloatInt`, `Ty.toFloat`, `Conv` | `Model/Types` |
| `Type.IsInt` | 303-305 | `Ty.isInt` | `Model/Types` |
| `Type.IsUint` | 307-309 | `Ty.isUint` | `Model/Types` |
| `Type.IsFloat` | 311-313 | `Ty.isFloat` | `Model/Types` |
| `Type.Bits` | 315-328 | `Ty.bits` | `Model/Types` |
| `Type.UsesSubType` | 331-333 | `Ty.usesSubType` | `Model/Types` |
| `Type.SupportsEquality` | 336-338 | `Ty.supportsEquality` | `Model/Types` |

### `go/tricorder/types/types.go`

| function | lines | definitions | module |
|---|---|---|---|
| `round` | 7-12 | `roundF` | `Model/Types` |

### `go/tricorder/units/api.go`

| function | lines | definitions | module |
|---|---|---|---|
| `Unit.String` | 17-22 | `MUnit.string` | `Model/Html` |
| `FromSeconds` | 27-30 | `fromSeconds` | `Model/Misc` |
| `FromSecondsRational` | 34-41 | `fromSecondsRational` | `Model/Units` |

### `go/tricorder/wrapper/syscall_linux.go`

| function | lines | definitions | module |
|---|---|---|---|
| `Getrusage` | 31-54 | `rssUnit`, `rusageWrites`, `getrusage` | `Model/Setup` |

## Appendix B. Theorems and axioms

Of the 475 property theorems,

* 457 depend on propext, Classical.choice, Quot.sound: `C01_components`, `C01_components_unique`, `C01_spelling`, `C01_blank_pieces`, `C01_canonical`, `C02_directory_path`, `C02_metric_path`, `C02_paths_distinct`, `C03_register_result`, `C03_value_examined_before`, `C04_register_success`, `C05_false_directory`, `C05_false_unit`, `C05_failed_registration_partial`, `C06_unregister_path`, `C06_unregister_path_detached`, `C07_unregister_directory`, `C07_stale_handle`, `C07_twice`, `C08_unregistered_stays`, `C08_unregistered_path_stays`, `C08_calls_are_silent`, `C09_register_directory`, `C09_get_directory`, `C10_canonical`, `C10_listing`, `C10_missing_path`, `C11_listing`, `C12_calls`, `C12_prefix`, `C13_application`, `C13_listing_ends`, `C13_tree`, `C13_parent`, `C13_abs_path_ends`, `C13_api_calls`, `C14_own_reply`, `C14_own_confirmation`, `C14_one_at_a_time`, `C15_no_update_while_reading`, `C16_latest`, `C16_same_timestamp`, `C17_overlap`, `C17_join`, `C18_one_update`, `C19_accounting`, `C19_zero_again`, `C20_no_deadlock`, `C20_terminates`, `C20_all_can_close`, `C21_latest_function`, `C21_undisturbed`, `C22_unique_ids`, `C23_same_time_partial`, `C23_alone`, `C23_false`, `C24_close_releases`, `C24_list`, `C24_get`, `C24_text`, `C24_html`, `C24_collector`, `C25_exactly_one_range`, `C25_add_counts_in_its_range`, `C25_nan_counts_in_last_range`, `C25_remove_counts_in_its_range`, `C26_sum_of_ranges`, `C26_sum_of_ranges_partial`, `C26_violated_after_panic`, `C27_count`, `C27_generation_partial`, `C27_empty_generation`, `C27_timestamp`, `C27_timestamp_partial`, `C27_panic_moves_timestamp`, `C28_sum_in_exact_arithmetic`, `C28_sum_of_multiples_partial`, `C28_sum_close`, `C28_cancellation`, `C29_bounds`, `C29_attained`, `C29_update_widens_remove_keeps`, `C30_in_exact_arithmetic`, `C30_average_of_multiples_partial`, `C30_average_close`, `C30_median_close`, `C30_average_out_of_bounds`, `C30_median_out_of_bounds`, `C31_snapshot_never_panics`, `C32_rejected_unchanged`, `C32_remove_empty_range_partial`, `C32_update_empty_range_corrupts`, `C33_unit_fixed_by_first_registration`, `C34_duration_in_unit_partial`, `C34_long_durations_rounded_twice`, `C34_close`, `C34_other_units_panic`, `C34_duration_added`, `C34_from_seconds`, `C35_arbitrary`, `C35_exponential_count`, `C35_linear_count`, `C35_endpoints_in_exact_arithmetic`, `C35_float_ascending_partial`, `C35_integer_endpoints_partial`, `C35_predefined`, `C35_equal_endpoints`, `C35_nan_accepted`, `C36_ladder_in_exact_arithmetic`, `C36_ladder_strictly_ascending`, `C36_float_ladder_partial`, `C36_float_ascending`, `C36_first_above_lower`, `C36_infinite_lower_never_ends`, `C36_tiny_lower_never_ends`, `C36_nan_accepted`, `C37_isolated`, `C37_immutable_shared`, `C38_new_panics`, `C38_new_panic_silent`, `C38_change_panics`, `C38_change_panic_silent`, `C38_change`, `C38_change_others`, `C38_type_fixed`, `C38_reader`, `C39_goDuration_roundtrip`, `C40_time_roundtrip`, `C41_text_exact_and_roundtrip`, `C41_text_all_durations`, `C41_min_seconds_text`, `C42_plain_decimals_partial`, `C42_exact_language`, `C42_accepts_more`, `C43_exact`, `C43_json_roundtrip_partial`, `C43_zero_time_lost`, `C45_json_kinds`, `C46_prettyFormat`, `C46_prettyFormat_panics`, `C47_int_roundtrip_partial`, `C47_small_int_roundtrip`, `C47_odd_integers_move`, `C47_float_roundtrip`, `C47_duration_roundtrip_partial`, `C47_duration_close`, `C47_time_roundtrip_partial`, `C47_time_inexact`, `C47_domain`, `C48_register`, `C48_register_grown`, `C48_listing_partial`, `C48_get_partial`, `C48_named_false`, `C48_flag_false`, `C49_separators`, `C49_html`, `C50_html`, `C50_total`, `C51_text`, `C51_parse`, `C51_injective`, `C52_group`, `C52_finite_partial`, `C52_alone`, `C52_false`, `C52_not_encodable`, `C53_linearizable`, `C53_healthy`, `C53_unhealthy`, `C53_ready`, `C53_unready`, `C53_panics`, `C53_no_race`, `C53_can_finish`, `C54_usage_partial`, `C54_cpu_partial`, `C54_cpu_false`, `C54_stack_false`, `C54_error`, `C55_status`, `C55_missing`, `C55_text_exact`, `C55_get_metric`, `C55_text`, `C56_flags_partial`, `C56_value_partial`, `C56_panic`, `C56_conflict_false`, `C56_nil_false`, `C57_panics`, `C57_zero_value`, `C57_json_zero`, `C57_message_zero`, `C58_list`, `C58_get`, `C58_text`, `C58_html`, `C59_list`, `C59_get`, `C59_html`, `C59_text_partial`, `C59_text_false`, `C61_registered`, `C61_exact`, `C61_design`, `C61_sys_description`, `C61_static`, `C61_memory`, `C62_list`, `C62_list_converse_partial`, `C62_list_alone`, `C62_get`, `C62_get_converse`, `C62_named_false`, `C63_directory`, `C63_metric`, `C63_history`, `C63_history_register`, `C63_history_bucketer`, `C64_directory`, `C64_metric`, `C64_missing`, `C64_escaped`, `C65_links_partial`, `C65_links_exact`, `C65_links_false`, `C66_list`, `C66_get`, `C66_alone`, `C66_nan`, `C66_bytes`, `C67_plain`, `C67_gzip`, `C67_q0`, `C68_page`, `C68_has`, `C68_routes`, `C69_metric_partial`, `C69_times_false`, `C69_number_false`, `C69_listing_partial`, `C70_same_id`, `C70_listing`, `C70_single`, `C70_same_time`, `C70_taken_once`, `C70_groups`, `C70_shared`, `C70_fresh`, `C71_accepts`, `C71_result`, `C72_embeds`, `C72_no_tick`, `C72_listing`, `C72_ends`, `C73_listing`, `C73_single`, `C73_html`, `C73_text`, `C74_linear`, `C74_quiet`, `C74_orderly`, `C74_exclusive`, `C74_programs`, `C74_no_deadlock`, `C75_listing_partial`, `C75_plain`, `C75_get_partial`, `C75_named_false`, `C76_error`, `C76_final`, `C76_blocked`, `C76_exclusive`, `C76_compatible`, `C76_race`, `C77_lookup`, `C77_missing`, `C77_stays`, `C77_found`, `C77_get`, `C77_directory`, `C77_found_nowhere`, `C78_metric`, `C78_directory`, `C78_unregister`, `C78_unregister_only`, `C78_lost`, `C78_in_use_nowhere`, `C79_listing`, `C79_single`, `C79_html`, `C79_text`, `C79_loop`, `C80_metric`, `C80_metric_empty`, `C80_directory`, `C80_unregister`, `C80_unregister_directory`, `C80_lookup`, `C80_lookup_result`, `C81_histogram`, `C81_median_in_exact_arithmetic`, `C81_median`, `C81_middle_exists`, `C82_all_iff`, `C82_effect`, `C82_order`, `C83_demo`, `C83_squares`, `C83_started`, `C83_client`, `C83_powers`, `C84_into`, `C84_list`, `C84_fresh`, `C84_get`, `C84_calls`, `C84_client_partial`, `C84_stdout_false`, `C84_stale_false`, `C84_demo`, `C85_register_metric`, `C85_register_metric_root`, `C85_register_directory`, `C85_unregister`, `C85_look_up`, `C85_record`, `C86_can_finish`, `C86_metric_functions`, `C86_work`, `C86_cycle_blocks`, `C86_own_group_blocks`, `C86_exact`, `C87_words`, `C87_types`, `C87_in_place_false`, `C87_group`, `C88_reachable`, `C88_calls`, `C88_steps`, `C88_requests`, `C89_made`, `C89_one_after_another`, `C89_count`, `C89_any_order`, `C89_whole`, `C89_sum_depends_on_order`, `C90_listing`, `C90_single`, `C90_usage`, `C90_memory`, `C91_html`, `C91_text`, `C92_generation`, `C92_ranges`, `C92_unchanged`, `C92_cumulative`, `C92_spoiled`, `C92_emptied`, `C93_in_order`, `C93_never_back`, `C93_same_time`, `C93_fresh`, `C93_same_id`, `C94_text`, `C94_unique`, `C94_read`, `C94_string`, `C94_bytes`, `C94_list`, `C94_get`, `C95_metric`, `C95_listing`, `C95_run`, `C95_get`, `C96_metric`, `C96_directory`, `C96_safe`, `C97_page`, `C97_metric`, `C97_value`, `C97_forge`, `C98_list`, `C98_get`, `C99_listing`, `C99_nothing_else`, `C99_get`, `C99_text`, `C99_html`, `C100_reachable`, `C100_runs`, `C100_isolated`, `C100_untouched`, `C100_shared`, `C100_read_false`, `C100_append_shows`, `C100_reslice`, `C100_append`, `C101_moment`, `C101_again`, `C101_never_back`, `C101_same_time`, `C101_fresh`, `C101_shared`, `C102_model`, `C102_register`, `C102_read`, `C102_number`, `C102_list`, `C102_change`, `C102_other`, `C103_listing`, `C103_text`, `C103_html`, `C103_metric`, `C104_group_silent`, `C104_group_hangs`, `C104_group_starves`, `C104_dist`, `C104_dir`, `C105_flow`, `C105_one_range`, `C106_in_order`, `C106_dist`, `C106_flow`, `C106_list`, `C106_two_moments`, `C107_again`, `C107_listed`, `C108_again`, `C108_listed`, `C108_all_time`, `C108_restart`, `C109_text`, `C109_html`, `C110_whole`, `C110_quiet`, `C110_every`, `C110_returns`, `C111_lines`, `C112_items`, `C113_page`, `C113_again`, `C114_page`, `C114_again`, `C115_order`, `C115_unique`, `C116_order`, `C116_unique`, `C116_close`, `C116_same`, `C116_html`, `C117_page`, `C117_again`, `C118_page`, `C118_again`
* 9 depend on propext, Quot.sound: `C20_update_reading_own_group_blocks`, `C21_confirmed`, `C22_ids_wrap`, `C44_gorpc_idempotent`, `C49_panics`, `C60_predicates`, `C87_time_pointer`, `C87_undisturbed`, `C104_group_others`
* 8 depend on propext: `C36_panics`, `C44_json_idempotent`, `C56_setFlagUnit`, `C57_nil_slice`, `C60_unknown`, `C80_ways`, `C86_same_guarantees`, `C104_list`
* 1 depend on no axioms: `C56_default`
