{"id": "C01", "title": "Path spelling does not matter", "statement": "Every API call that takes a path (register, look up, list, unregister) depends only on the sequence of non-blank '/'-separated components of the string: leading, trailing or doubled slashes and white-space-only components are ignored, all other components are kept byte for byte.", "quantifier": "all byte strings (including invalid UTF-8 and every Unicode space)", "why_tests_cant": "the input space is infinite; tests only try a few spellings", "anchors": ["go/tricorder/metric.go:newPathSpec", "go/tricorder/metric.go:pathSpec.String"]}
{"id": "C02", "title": "AbsPath re-resolves to the same object", "statement": "For every metric or directory that can be reached from the root, its reported absolute path is '/' followed by the components used to reach it, and looking that string up again from the root yields exactly that object.", "quantifier": "all objects reachable after every history and interleaving of register/unregister steps", "why_tests_cant": "needs an invariant over parent links, name hygiene and path parsing for all histories", "anchors": ["go/tricorder/metric.go:listEntry.absPath", "go/tricorder/metric.go:directory.GetDirectoryOrMetric", "go/tricorder/metric.go:newPathSpec"]}
{"id": "C03", "title": "RegisterMetric result is decided exactly by the tree and the value", "statement": "Called alone, RegisterMetric(path, v) returns ErrPathInUse if the path is empty or a proper prefix of it is a metric; otherwise the value's own error (wrong type, wrong unit) if it has one; otherwise ErrPathInUse if anything already lives at path; otherwise nil.", "quantifier": "all reachable trees, all directory handles, all relative paths, all registrable values and units", "why_tests_cant": "the decision depends on arbitrary tree shapes and path depths", "anchors": ["go/tricorder/metric.go:directory.registerMetric", "go/tricorder/metric.go:directory.registerDirectory", "go/tricorder/metric.go:directory.storeMetric", "go/tricorder/metric.go:newValue"]}
{"id": "C04", "title": "Successful registration makes exactly that metric visible", "statement": "After RegisterMetric returns nil, looking up the path gives the registered metric with the given description, unit and value; every path that resolved before still resolves to the same object; the only other new objects are the missing ancestor directories.", "quantifier": "all reachable trees, paths and metrics", "why_tests_cant": "frame condition over an unbounded tree", "anchors": ["go/tricorder/metric.go:directory.registerMetric", "go/tricorder/metric.go:directory.createDirIfNeeded", "go/tricorder/metric.go:directory.storeMetric"]}
{"id": "C05", "title": "Failed registration leaves no trace", "statement": "If RegisterMetric returns an error, nothing observable has changed: same listing, same outcome for every later registration.", "quantifier": "all reachable trees and all failing registrations", "why_tests_cant": "needs a comparison of all continuations", "anchors": ["go/tricorder/metric.go:directory.registerMetric", "go/tricorder/metric.go:newValueForDist"]}
{"id": "C06", "title": "UnregisterPath removes exactly one subtree", "statement": "After UnregisterPath(p) no path that equals p or lies under p resolves from the root, and every other path resolves as before. The empty path, and paths that do not exist, are ignored.", "quantifier": "all reachable trees and all paths", "why_tests_cant": "frame condition over an unbounded tree", "anchors": ["go/tricorder/metric.go:directory.unregisterPath", "go/tricorder/metric.go:directory.removeListEntry"]}
{"id": "C07", "title": "A stale directory handle cannot unregister its replacement", "statement": "UnregisterDirectory on a handle removes that very directory from its parent if it is still there and otherwise changes nothing; in particular calling it twice, or after another directory has been registered at the same path, leaves the new directory in place; on the root handle it does nothing.", "quantifier": "all reachable trees and all directory handles, attached or not", "why_tests_cant": "needs identity reasoning over all histories", "anchors": ["go/tricorder/metric.go:directory.unregisterDirectory", "go/tricorder/metric.go:directory.removeChildDirectory"]}
{"id": "C08", "title": "Metrics registered through an unregistered directory are never reported", "statement": "Once a directory has been unregistered, nothing that is later done through its handle (or handles below it) changes what can be looked up or listed from the root.", "quantifier": "all histories and interleavings after the unregistration", "why_tests_cant": "all continuations of all histories", "anchors": ["go/tricorder/metric.go:directory.unregisterDirectory", "go/tricorder/metric.go:directory.registerMetric"]}
{"id": "C09", "title": "RegisterDirectory is idempotent and GetDirectory agrees with it", "statement": "RegisterDirectory(p) returns ErrPathInUse iff some non-empty prefix of p is a metric; otherwise it returns a handle h, a second call returns the same h without changing the tree, and GetDirectory(p) returns h. GetDirectory returns ErrNotFound / ErrPathInUse exactly when the first missing / first non-directory component says so, and never changes the tree.", "quantifier": "all reachable trees, handles and paths", "why_tests_cant": "unbounded trees and paths", "anchors": ["go/tricorder/api.go:RegisterDirectory", "go/tricorder/api.go:GetDirectory", "go/tricorder/metric.go:directory.getDirectoryAndError"]}
{"id": "C10", "title": "Listing is complete, duplicate free and in canonical order", "statement": "With no concurrent changes, listing a path reports every metric at or under it whose value is not an infinite/NaN scalar float, each exactly once, in depth-first order with siblings in byte-lexicographic order of name, whatever order the directory maps are iterated in. A path denoting nothing yields the empty list.", "quantifier": "all reachable trees, all paths, all map iteration orders", "why_tests_cant": "unbounded trees; map order is random", "anchors": ["go/tricorder/metric.go:directory.GetAllMetricsByPath", "go/tricorder/metric.go:directory.GetAllMetrics", "go/tricorder/metric.go:sortListEntries"]}
{"id": "C11", "title": "Listing under concurrent registration is never wrong about stable metrics", "statement": "However register/unregister/value operations of other goroutines interleave with a listing, a metric that is registered when the listing starts and is not removed (nor any ancestor) until it ends is reported exactly once if its value is reportable, and anything reported was present in its directory at some moment during the listing, under its own path.", "quantifier": "all interleavings of any number of other goroutines' atomic steps", "why_tests_cant": "schedules cannot be enumerated", "anchors": ["go/tricorder/metric.go:directory.GetAllMetrics", "go/tricorder/metric.go:directory.listUnsorted", "go/tricorder/metric.go:directory.getListEntry"]}
{"id": "C12", "title": "Collector errors stop the traversal at once", "statement": "If a collector returns an error for some metric, the listing calls the collector for no further metric and returns that same error; the metrics already collected are exactly the prefix of the full traversal.", "quantifier": "all trees, collectors and error positions", "why_tests_cant": "unbounded trees; arbitrary collector behaviour", "anchors": ["go/tricorder/metric.go:collect", "go/tricorder/metric.go:directory.GetAllMetrics"]}
{"id": "C13", "title": "The tree stays a tree under every interleaving", "statement": "After any interleaving of the atomic steps of concurrent API calls: every entry is either a metric or a directory, never both; no directory has two entries with one name; every entry's parent link is the directory that holds it; the structure is acyclic so every traversal and every AbsPath computation ends.", "quantifier": "all interleavings of all API calls", "why_tests_cant": "schedules cannot be enumerated", "anchors": ["go/tricorder/metric.go:listEntry", "go/tricorder/metric.go:directory.createDirIfNeeded", "go/tricorder/metric.go:directory.storeMetric"]}
{"id": "C14", "title": "Every group request receives its own reply", "statement": "Although all callers of a group share one pair of channels, in every schedule the reply taken by a caller is the one computed for that caller's request, and the event loop serves one request at a time.", "quantifier": "all schedules, any number of callers and groups", "why_tests_cant": "rendezvous interleavings cannot be enumerated", "anchors": ["go/tricorder/metric.go:region.handleRequests", "go/tricorder/metric.go:region.RLock", "go/tricorder/metric.go:region.RUnlock", "go/tricorder/metric.go:region.registerUpdateFunc"]}
{"id": "C15", "title": "No update while a request is reading the group", "statement": "Between the moment a request's first visit to a group returns and the moment that request starts closing, the group's update function is not called.", "quantifier": "all schedules of any number of concurrent requests", "why_tests_cant": "schedules cannot be enumerated", "anchors": ["go/tricorder/metric.go:session.Visit", "go/tricorder/metric.go:region.handleLockUnlock"]}
{"id": "C16", "title": "A request sees one timestamp per group, the one returned by the update", "statement": "All visits of one request to a group return the same timestamp, and it is the return value of the latest call of the group's update function.", "quantifier": "all schedules and visit sequences", "why_tests_cant": "schedules cannot be enumerated", "anchors": ["go/tricorder/metric.go:session.Visit", "go/tricorder/metric.go:region.handleLockUnlock", "go/tricorder/metric.go:value.TimeStamp"]}
{"id": "C17", "title": "Overlapping requests share one update", "statement": "If two requests both hold a group at the same time then they got the same timestamp and there was no update call between their first visits: they read the same data.", "quantifier": "all schedules, all pairs of requests", "why_tests_cant": "schedules cannot be enumerated", "anchors": ["go/tricorder/metric.go:region.handleLockUnlock", "go/tricorder/api.go:Group"]}
{"id": "C18", "title": "A fresh request triggers exactly one update before reading", "statement": "When a request takes a group that no other request holds, the group's currently registered update function is called exactly once before the visit returns; when another request holds it, the function is not called for this visit.", "quantifier": "all schedules", "why_tests_cant": "schedules cannot be enumerated", "anchors": ["go/tricorder/metric.go:region.handleLockUnlock", "go/tricorder/metric.go:session.Visit"]}
{"id": "C19", "title": "Group lock accounting never goes wrong", "statement": "The lock count of a group always equals the number of open requests that have taken it; it never falls below zero (the event loop never panics); when all requests have closed it is zero again so that the next request updates again.", "quantifier": "all schedules, all groups", "why_tests_cant": "schedules cannot be enumerated", "anchors": ["go/tricorder/metric.go:region.handleLockUnlock", "go/tricorder/metric.go:session.Close"]}
{"id": "C20", "title": "Group event loops never deadlock", "statement": "In every reachable configuration with an unfinished request some step is enabled, and every configuration can be driven to one in which all requests have closed.", "quantifier": "all reachable configurations", "why_tests_cant": "absence of deadlock over all schedules", "anchors": ["go/tricorder/metric.go:region.handleRequests", "go/tricorder/metric.go:session.Close"]}
{"id": "C21", "title": "Replacing an update function never disturbs readers", "statement": "RegisterUpdateFunc changes neither timestamps nor lock counts, never calls the function itself, and the next update (and every later one until replaced again) uses the new function.", "quantifier": "all schedules", "why_tests_cant": "schedules cannot be enumerated", "anchors": ["go/tricorder/metric.go:region.registerUpdateFunc", "go/tricorder/metric.go:region.handleUpdateFunc"]}
{"id": "C22", "title": "Group ids are unique", "statement": "Any two distinct groups, distributions or lists among the first 2^64 created have different group ids (the counter is an int64 and repeats after that).", "quantifier": "all histories and interleavings of creations", "why_tests_cant": "unbounded histories", "anchors": ["go/tricorder/metric.go:newIdSequence", "go/tricorder/metric.go:newRegion", "go/tricorder/metric.go:newDistributionWithTimeStamp", "go/tricorder/metric.go:newListWithTimeStamp"]}
{"id": "C23", "title": "Same group id implies same timestamp within one response", "statement": "In one listing response, two metrics with the same group id carry the same timestamp.", "quantifier": "all listings and all interleavings", "why_tests_cant": "schedules cannot be enumerated", "anchors": ["go/tricorder/messages/api.go:Metric", "go/tricorder/metric.go:value.updateJsonOrRpcMetric"]}
{"id": "C24", "title": "A request releases every group it took, even when user code panics", "statement": "For every request (list, get, text, JSON, HTML) every group taken is released exactly once before the request ends, including when a metric callback panics or the collector fails.", "quantifier": "all trees, callback behaviours and interleavings", "why_tests_cant": "every failure point must be covered", "anchors": ["go/tricorder/metric.go:directory.GetAllMetrics", "go/tricorder/metric.go:value.evaluate", "go/tricorder/metric.go:session.Close"]}
{"id": "C25", "title": "Values land in the one bucket whose range contains them", "statement": "For ascending endpoints every non-NaN value is counted in exactly the range that contains it (below the first endpoint, between two endpoints with the lower one inclusive, or at or above the last); NaN is counted in the last range.", "quantifier": "all ascending endpoint lists and all float64 values", "why_tests_cant": "continuum of boundaries and sizes", "anchors": ["go/tricorder/metric.go:findDistributionIndex", "go/tricorder/metric.go:newBucketerFromEndpoints"]}
{"id": "C26", "title": "Range counts add up to Count", "statement": "In every snapshot the counts of all ranges add up to the total count.", "quantifier": "all histories of Add/Update/Remove including ones that panic", "why_tests_cant": "unbounded histories", "anchors": ["go/tricorder/metric.go:distribution.add", "go/tricorder/metric.go:distribution.update", "go/tricorder/metric.go:distribution.remove", "go/tricorder/metric.go:distribution.Snapshot"]}
{"id": "C27", "title": "Count and generation track history", "statement": "Count equals number of Adds minus number of Removes, generation increases by exactly one with every completed change and never otherwise, and the snapshot timestamp is that of the latest change.", "quantifier": "all histories", "why_tests_cant": "unbounded histories", "anchors": ["go/tricorder/metric.go:distribution.add", "go/tricorder/metric.go:distribution.update", "go/tricorder/metric.go:distribution.remove"]}
{"id": "C28", "title": "Sum is the sum of the current values", "statement": "Sum equals the sum of the values currently in the distribution.", "quantifier": "all histories with correct old values", "why_tests_cant": "unbounded histories, float64 rounding", "anchors": ["go/tricorder/metric.go:distribution.add", "go/tricorder/metric.go:distribution.update", "go/tricorder/metric.go:distribution.remove"]}
{"id": "C29", "title": "Min and Max bound all current values", "statement": "Min <= every current value <= Max; for a cumulative distribution they are exactly the least and greatest value ever added; Update never raises Min nor lowers Max; Remove leaves them unchanged as long as a value remains.", "quantifier": "all histories with non-NaN values", "why_tests_cant": "unbounded histories", "anchors": ["go/tricorder/metric.go:distribution.add", "go/tricorder/metric.go:distribution.update", "go/tricorder/api.go:NonCumulativeDistribution.Update"]}
{"id": "C30", "title": "Average and median lie between Min and Max", "statement": "In every snapshot of a non-empty distribution Min <= Average <= Max and Min <= Median <= Max.", "quantifier": "all histories with correct old values", "why_tests_cant": "unbounded histories, float64 rounding", "anchors": ["go/tricorder/metric.go:distribution.calculateMedian", "go/tricorder/metric.go:distribution.indexToValue", "go/tricorder/metric.go:interpolate"]}
{"id": "C31", "title": "Taking a snapshot never panics", "statement": "Computing the median never runs off the end of the bucket table, in every history, including histories where the caller passed wrong old values or recovered from panics.", "quantifier": "all histories", "why_tests_cant": "unbounded histories", "anchors": ["go/tricorder/metric.go:distribution.indexToValue", "go/tricorder/metric.go:distribution.calculateMedian"]}
{"id": "C32", "title": "Misuse of a distribution is rejected without corrupting it", "statement": "Add/Update/Remove before a unit is assigned, with a value of unsupported type, Update/Remove on a cumulative or empty distribution, or removing from an empty bucket panics, and after the panic the snapshot is as before the call.", "quantifier": "all states and all bad calls", "why_tests_cant": "every failure point must be covered", "anchors": ["go/tricorder/metric.go:distribution.valueToFloat", "go/tricorder/metric.go:distribution.update", "go/tricorder/metric.go:decrementCount"]}
{"id": "C33", "title": "A distribution's unit is fixed by its first registration", "statement": "The first registration assigns the unit; any later registration succeeds iff it names the same unit, and otherwise fails with ErrWrongUnit; the unit never changes afterwards, in any interleaving of registrations.", "quantifier": "all histories and interleavings of registrations", "why_tests_cant": "unbounded histories", "anchors": ["go/tricorder/metric.go:distribution.SetUnit", "go/tricorder/metric.go:newValueForDist"]}
{"id": "C34", "title": "Durations added to a distribution are converted to its unit", "statement": "A time.Duration added to a distribution in seconds or milliseconds is counted as its length in that unit, correctly rounded to float64; for any other unit the call panics.", "quantifier": "all int64 durations and all units", "why_tests_cant": "2^64 inputs, float64 rounding", "anchors": ["go/tricorder/metric.go:distribution.goDurationToFloat"]}
{"id": "C35", "title": "Bucketer constructors build contiguous ascending ranges", "statement": "Each constructor yields endpoint count + 1 ranges covering the whole line without gap or overlap, with strictly ascending endpoints: exponential start*scale^i, linear start+i*increment (count ranges in both cases); it panics exactly on the documented bad arguments.", "quantifier": "all parameters", "why_tests_cant": "continuum of parameters", "anchors": ["go/tricorder/metric.go:newExponentialBucketerStream", "go/tricorder/metric.go:newLinearBucketerStream", "go/tricorder/metric.go:newBucketerFromEndpoints"]}
{"id": "C36", "title": "Geometric bucketer yields the 1-2-5 ladder", "statement": "For 0 < lower <= upper the construction terminates and the endpoints are consecutive numbers of the form 10^k, 2*10^k, 5*10^k, starting with the greatest one <= lower and ending with the least one >= upper (and >= the first).", "quantifier": "all positive lower <= upper", "why_tests_cant": "continuum of parameters, termination", "anchors": ["go/tricorder/metric.go:findGeometricBaseAndOffset", "go/tricorder/metric.go:newGeometricBucketerStream"]}
{"id": "C37", "title": "A list metric is isolated from later writes to a mutable slice", "statement": "If a list is created or changed with MutableSlice, then whatever the caller later writes into that slice (or any other slice it owns), the list keeps reporting the original values until the next Change; an []int/[]uint slice is always copied.", "quantifier": "all slices, all later write sequences", "why_tests_cant": "aliasing over all later histories", "anchors": ["go/tricorder/metric.go:asSliceValue", "go/tricorder/metric.go:copySlice", "go/tricorder/metric.go:listType.ChangeWithTimeStamp"]}
{"id": "C38", "title": "List element type is fixed and conversion preserves values", "statement": "Change with a different element type panics and changes nothing; otherwise readers see exactly the new values with the new timestamp, never a mixture; []int and []uint are reported as sized integers with the same values in the same order.", "quantifier": "all slices, all histories", "why_tests_cant": "unbounded slices and histories", "anchors": ["go/tricorder/metric.go:listType.ChangeWithTimeStamp", "go/tricorder/metric.go:convertFromIntOrUintSlice", "go/tricorder/metric.go:listType.get"]}
{"id": "C39", "title": "Go durations survive conversion", "statement": "duration.New(d).AsGoDuration() == d for every time.Duration, and the seconds and nanoseconds parts never have opposite signs and the nanoseconds are below one billion in magnitude.", "quantifier": "all 2^64 durations", "why_tests_cant": "2^64 inputs, overflow", "anchors": ["go/tricorder/duration/duration.go:newDuration", "go/tricorder/duration/duration.go:Duration.asGoDuration"]}
{"id": "C40", "title": "Times survive conversion", "statement": "duration.SinceEpoch(t).AsGoTime() is the same instant as t for every time, with sign-coherent parts.", "quantifier": "all times", "why_tests_cant": "2^64 x 10^9 inputs, sign cases", "anchors": ["go/tricorder/duration/duration.go:sinceEpoch", "go/tricorder/duration/duration.go:Duration.asGoTime"]}
{"id": "C41", "title": "Decimal text of a duration is exact and parses back", "statement": "StringUsingUnits(u) denotes exactly the duration in unit u with nine decimals, and ParseWithUnit of that string with the same unit returns the same duration.", "quantifier": "all durations obtained from Go durations, all units", "why_tests_cant": "2^64 inputs, overflow", "anchors": ["go/tricorder/duration/duration.go:Duration.toString", "go/tricorder/duration/duration.go:Duration.convert", "go/tricorder/duration/duration.go:parse"]}
{"id": "C42", "title": "Parsing accepts exactly decimal numbers", "statement": "ParseWithUnit accepts a string iff it is an optional minus sign, decimal digits in int64 range and optionally a point and decimal digits, and returns the value truncated toward zero to nine decimals.", "quantifier": "all byte strings", "why_tests_cant": "infinite inputs", "anchors": ["go/tricorder/duration/duration.go:parse", "go/tricorder/duration/api.go:ParseWithUnit"]}
{"id": "C43", "title": "JSON conversion of a metric is lossless", "statement": "For every well-formed Go RPC metric, ConvertToJson followed by ConvertToGoRPC succeeds and gives back the same kind, sub-type, value and timestamp.", "quantifier": "all metric values, kinds, units, timestamps, list lengths", "why_tests_cant": "unbounded values", "anchors": ["go/tricorder/messages/metric.go:asJson", "go/tricorder/messages/metric.go:asGoRPC"]}
{"id": "C44", "title": "Metric conversions are idempotent and total on the wire side", "statement": "Converting twice is the same as converting once in both directions; ConvertToGoRPC never panics whatever the kind, sub-type, value and timestamp, and when it returns an error the metric is unchanged.", "quantifier": "all metrics, including malformed ones", "why_tests_cant": "unbounded malformed inputs", "anchors": ["go/tricorder/messages/metric.go:Metric.convertToGoRPC", "go/tricorder/messages/metric.go:Metric.convertToJson"]}
{"id": "C45", "title": "JSON metrics contain only JSON kinds", "statement": "After ConvertToJson kind and sub-type are never goTime or goDuration, times and durations are decimal strings, the timestamp is a string, and a list value is never nil (it encodes as [] rather than null).", "quantifier": "all well-formed metrics whose times lie within 292 million years of 1970", "why_tests_cant": "unbounded values", "anchors": ["go/tricorder/messages/metric.go:asJson"]}
{"id": "C46", "title": "PrettyFormat is total and truncates correctly", "statement": "For every non-negative duration PrettyFormat returns a string whose fields denote the duration truncated to the precision shown; for a negative one it panics.", "quantifier": "all durations", "why_tests_cant": "2^64 inputs", "anchors": ["go/tricorder/duration/duration.go:Duration.prettyFormat"]}
{"id": "C47", "title": "Float conversion round trip", "statement": "For each numeric type, FromFloat(ToFloat(x)) == x for every value exactly representable as float64, and for times/durations up to rounding to the nanosecond.", "quantifier": "all values of all numeric types", "why_tests_cant": "2^64 inputs, float64 rounding", "anchors": ["go/tricorder/types/api.go:Type.FromFloat", "go/tricorder/types/api.go:Type.ToFloat", "go/tricorder/types/types.go:round", "go/tricorder/duration/api.go:FromFloat"]}
{"id": "C48", "title": "Kind field always describes the value", "statement": "For every reported metric types.FromGoValueWithSubType(Value) gives back exactly the reported Kind and SubType, and Bits is the size of that type.", "quantifier": "all registrable Go types and values", "why_tests_cant": "all Go types including named ones", "anchors": ["go/tricorder/metric.go:getPrimitiveType", "go/tricorder/metric.go:valueToInterface", "go/tricorder/types/api.go:FromGoValueWithSubType"]}
{"id": "C49", "title": "Thousands separators only separate", "statement": "Rendering an integer with separators and deleting the commas gives back the plain rendering; between commas there are exactly three digits, before the first one to three.", "quantifier": "all int64/uint64 values and all strings containing a digit", "why_tests_cant": "unbounded inputs", "anchors": ["go/tricorder/metric.go:addSeparators"]}
{"id": "C50", "title": "Compact rendering never panics", "statement": "For every int64/uint64 value and every unit the HTML rendering terminates, never indexes beyond the suffix table, and shows the value scaled by the power of 1000 or 1024 named by its suffix.", "quantifier": "all 2^64 values", "why_tests_cant": "2^64 inputs, float64 rounding", "anchors": ["go/tricorder/metric.go:iCompactForm", "go/tricorder/metric.go:uCompactForm", "go/tricorder/metric.go:valueToHtmlString"]}
{"id": "C51", "title": "Integer text is canonical and parses back", "statement": "The text form of an integer metric parses back to the same integer, so two different values never look the same.", "quantifier": "all integers", "why_tests_cant": "2^64 inputs", "anchors": ["go/tricorder/metric.go:valueToTextString"]}
{"id": "C52", "title": "Listings never contain infinite or NaN scalars", "statement": "No listing (RPC, JSON, text) contains a scalar float metric whose reported value is infinite or NaN, so a JSON listing is always encodable.", "quantifier": "all metrics, callbacks and interleavings", "why_tests_cant": "arbitrary callbacks and schedules", "anchors": ["go/tricorder/metric.go:collect", "go/tricorder/metric.go:value.IsInfNaN", "go/tricorder/json.go:jsonHandlerFunc"]}
{"id": "C53", "title": "Health endpoints report the latest setting", "statement": "/healthz answers 200 OK iff no SetNotHealthy call is later than the last SetHealthy call, otherwise 503 with the latest status text; /readiness likewise but starts as 503 'not ready'; the two are independent; rejected arguments ('' and 'OK') panic and change nothing.", "quantifier": "all call histories and interleavings", "why_tests_cant": "unbounded histories", "anchors": ["go/healthserver/impl.go", "go/healthserver/api.go"]}
{"id": "C54", "title": "CPU time metrics equal the kernel's accounting", "statement": "/proc/cpu/user and /proc/cpu/sys report seconds plus microseconds of the kernel's rusage record, and every other rusage metric reports its own kernel field.", "quantifier": "all rusage records", "why_tests_cant": "all field values", "anchors": ["go/tricorder/setup.go:timeValToDuration", "go/tricorder/wrapper/syscall_linux.go:Getrusage"]}
{"id": "C55", "title": "REST, RPC and text endpoints agree about existence", "statement": "For every path: a singleton JSON request gives 404 iff RPC GetMetric gives ErrMetricNotFound iff the path does not denote a metric; a listing request never fails for a missing path but returns an empty list; the text endpoint says 'Path does not exist' iff the path denotes neither metric nor directory.", "quantifier": "all trees and paths", "why_tests_cant": "unbounded trees and paths", "anchors": ["go/tricorder/json.go:jsonHandlerFunc", "go/tricorder/rpc.go:rpcType.GetMetric", "go/tricorder/html.go:textEmitDirectoryOrMetric"]}
{"id": "C56", "title": "Flags are registered with the right unit and type", "statement": "RegisterFlags registers every flag under /proc/flags/<name> with the unit set by SetFlagUnit, or else seconds for durations and none otherwise; flags whose Get value has no metric type are reported as strings.", "quantifier": "all flag sets", "why_tests_cant": "arbitrary flag types", "anchors": ["go/tricorder/metric.go:registerFlags", "go/tricorder/metric.go:flagUnit", "go/tricorder/metric.go:toFlagGetter", "go/tricorder/metric.go:newValue"]}
{"id": "C57", "title": "Zero values and nil slices are consistent with their type", "statement": "For every type that has one, the zero value and nil slice have that type according to FromGoValueWithSubType (JSON time and duration are strings); types without one give an error, never a wrong value.", "quantifier": "all type names", "why_tests_cant": "all strings are types", "anchors": ["go/tricorder/types/api.go:Type.SafeZeroValue", "go/tricorder/types/api.go:Type.SafeNilSlice", "go/tricorder/messages/api.go:ZeroValue"]}
{"id": "C58", "title": "Requests change nothing", "statement": "No request (list, get, text, JSON, HTML) changes the registry, a distribution, a list, a registered variable or a group; whatever else happens at the same time, every step a request takes leaves all of them as they were.", "quantifier": "all trees, paths, callbacks and interleavings", "why_tests_cant": "all states and schedules", "anchors": ["go/tricorder/metric.go:directory.GetAllMetricsByPath", "go/tricorder/metric.go:value.updateJsonOrRpcMetric", "go/tricorder/html.go:htmlEmitDirectoryOrMetric"]}
{"id": "C59", "title": "A metric's source is read only while its group is held", "statement": "Whenever a request reads a registered variable, calls a registered callback or asks a flag, it holds the group of the metric, so that the group's update has run before and cannot run in between.", "quantifier": "all requests (list, get, text, JSON, HTML) and interleavings", "why_tests_cant": "schedules cannot be enumerated", "anchors": ["go/tricorder/metric.go:value.evaluate", "go/tricorder/metric.go:value.AsInterface", "go/tricorder/html.go:textEmitMetric"]}
{"id": "C60", "title": "Type predicates describe the Go values", "statement": "For every Go value whose metric type is known, IsInt, IsUint and IsFloat hold exactly for signed integers, unsigned integers and floats, Bits is their size in bits and 0 for everything else, UsesSubType holds exactly for slices and SupportsEquality exactly for scalars.", "quantifier": "all values", "why_tests_cant": "all values of all types", "anchors": ["go/tricorder/types/api.go:Type.Bits", "go/tricorder/types/api.go:Type.IsInt", "go/tricorder/types/api.go:Type.SupportsEquality", "go/tricorder/types/api.go:FromGoValueWithSubType"]}
{"id": "C61", "title": "Start-up registers exactly the documented default metrics", "statement": "After package initialization the registered metrics are exactly the default ones, each with its documented path, description, unit and group and with the metric type of its variable; /proc/name, /proc/args, /proc/go/version and /proc/start-time report the program's data, and /proc/memory/total reports the runtime's Sys minus HeapReleased of the last update, until the metric is removed.", "quantifier": "all programs (names, arguments, versions, start times), all memory statistics, all later executions", "why_tests_cant": "all process environments and all later interleavings", "anchors": ["go/tricorder/setup.go:initDefaultMetrics", "go/tricorder/setup.go:getProgramArgs", "go/tricorder/setup.go:init"]}
{"id": "C62", "title": "JSON answers are the RPC answers, converted", "statement": "For the same state and the same steps of everybody else, a JSON listing consists of exactly the metrics of the RPC listing in the same order, each passed through ConvertToJson, and ends in the same way; a JSON request for one metric answers 404 iff RPC GetMetric does and otherwise with the converted metric; wherever RPC answers, JSON answers too.", "quantifier": "all states, paths, callbacks and interleavings", "why_tests_cant": "all metric types and schedules; two endpoints with separate code", "anchors": ["go/tricorder/json.go:jsonMetricsCollector.Collect", "go/tricorder/json.go:jsonHandlerFunc", "go/tricorder/rpc.go:rpcType.ListMetrics", "go/tricorder/metric.go:value.updateJsonOrRpcMetric", "go/tricorder/messages/metric.go:asJson"]}
{"id": "C63", "title": "The text page shows what the RPC listing reports", "statement": "For a directory for which ListMetrics answers, the text page (format=text) writes exactly one line per metric of that answer, in the same order: the metric's absolute path, one blank, the text of the reported value, a line feed. The text is: true/false for booleans; the decimal digits for integers; the decimal number of units (seconds, milliseconds, ...) with nine decimals for times since the epoch and durations; a string in double quotes; the elements separated by | for lists; and for distributions {min;max;avg;median;sum;count} followed by the non-empty ranges, the first one starting at -inf and the last one ending at inf. For a path of a single metric the page is only the text of its value and a line feed. Writing stops at the first error of the writer.", "quantifier": "all trees of metrics registered through the interface, all values of all supported Go types (also of declared types), all units, all lists and distributions of any length, all writers with any error behaviour", "why_tests_cant": "html.go and rpc.go render the same metric through two separate chains of type switches (valueToTextString, valueToInterface); agreement for every Go type, unit and value, and for directories of any shape, is a relation over unbounded inputs, and the existing tests do not call the text page at all.", "anchors": ["go/tricorder/html.go:textEmitDistribution", "go/tricorder/html.go:textEmitMetric", "go/tricorder/html.go:textEmitDirectoryOrMetric", "go/tricorder/metric.go:value.AsTextString", "go/tricorder/metric.go:listType.TextStrings", "go/tricorder/metric.go:valueToInterface", "go/tricorder/rpc.go:rpcType.ListMetrics"]}
{"id": "C64", "title": "The HTML page shows what RPC reports, escaped", "statement": "The HTML page of a directory is the fixed frame around exactly one item per child, ordered by name: for a child directory a link with its absolute path, for a metric its absolute path, description, type, unit (unless none) and the rendering of exactly the value that RPC GetMetric reports for it: grouped or scaled integers, pretty durations, times, list elements one per item, and for distributions the non-empty ranges and, unless empty, the summary. The page of a metric is the frame around its item; a path that denotes nothing gives only 'Path does not exist.'. Every string that comes from the program (names, descriptions, units, string values) appears escaped: no <, >, quotes or NUL, and no & outside of character references, and the escaped text determines the original. Writing stops at the first error of the writer.", "quantifier": "all trees of metrics registered through the interface, all values, units, descriptions and names (any bytes), all writers with any error behaviour", "why_tests_cant": "the page is produced by a template over reflection-based accessors that no existing test executes; agreement with RPC for every type, unit, value and name, and absence of raw markup for every byte string, are relations over unbounded inputs.", "anchors": ["go/tricorder/html.go:htmlTemplateStr", "go/tricorder/html.go:htmlEmitDirectoryOrMetric", "go/tricorder/html.go:htmlView.HtmlType", "go/tricorder/metric.go:value.AsHtmlString", "go/tricorder/metric.go:listType.HtmlStrings", "go/tricorder/rpc.go:rpcType.GetMetric"]}
{"id": "C65", "title": "Links of the HTML page lead to the directories they name", "statement": "On the HTML page of a directory, following the link of a child directory (attribute decoding, cutting off query and fragment, resolving dots, percent decoding, stripping /metrics) requests exactly the absolute path of that directory, and this path resolves to that directory.", "quantifier": "all trees, all directory names accepted by registration (any bytes but /)", "why_tests_cant": "depends on html/template's URL normaliser, the browser and the server's URL decoding for arbitrary byte strings as names; it is in fact false for names with ?, #, percent escapes and for . and ..", "anchors": ["go/tricorder/html.go:htmlView.Link", "go/tricorder/html.go:htmlTemplateStr", "go/tricorder/html.go:htmlAndTextHandlerFunc"]}
{"id": "C66", "title": "What a JSON request is answered with", "statement": "A request below /metricsapi without the form value singleton, whatever else happens meanwhile: unless the request panics (then nothing at all is sent), RPC ListMetrics of the same path could have answered with metrics r1..rn for exactly the same steps, and the client gets status 200, Content-Type application/json and X-Tricorder-Media-Type tricorder.v1, and in one write the JSON array with exactly one object per ri, in this order: path, description, kind, value, timestamp and groupId always, unit unless unknown, subType only for lists, bits unless 0, each exactly once; numbers, strings and booleans as they are; times and durations as decimal strings in the metric's unit; timestamps as decimal seconds; distributions as objects; lists as arrays, except byte lists, which are base64 strings. If any number in there is infinite or NaN, the client gets instead, with the same status and headers, only 'Error in template.'. With singleton the answer is the object of the metric that GetMetric reports, and 404 with a text body if there is none.", "quantifier": "all registries, paths, values, units, interleavings with other goroutines, behaviours of the connection; for the contents of the objects all registries that the interface can build", "why_tests_cant": "no test runs the handler; the claim relates three encodings (model, RPC, JSON) for every type, unit, value and interleaving, and includes the panicking and non-encodable cases.", "anchors": ["go/tricorder/json.go:jsonHandlerFunc", "go/tricorder/json.go:jsonSetUpHeaders", "go/tricorder/json.go:jsonMetricsCollector", "go/tricorder/messages/api.go:Metric", "go/tricorder/messages/metric.go:Metric.convertToJson", "go/tricorder/http.go:handleError", "go/tricorder/http.go:httpError"]}
{"id": "C67", "title": "Compression does not change JSON answers", "statement": "If the Accept-Encoding header contains gzip anywhere (even as gzip;q=0), the answer to a JSON request has the same status as the uncompressed answer for the same steps, the same value of every header, and additionally Content-Encoding: gzip, and its body decompresses to the body of the uncompressed answer; errors and missing metrics (404) included. If it does not contain gzip, the answer is the uncompressed one and has no Content-Encoding.", "quantifier": "all requests, registries, interleavings, and all compressors whose output for any sequence of writes, after Close, decodes to the written bytes", "why_tests_cant": "needs the whole handler chain for all requests and all ways the compressor may split its output; no test has it.", "anchors": ["go/tricorder/http.go:gzipHandler.ServeHTTP", "go/tricorder/http.go:gzipResponseWriter", "go/tricorder/json.go:initJsonHandlers"]}
{"id": "C68", "title": "Pages: headers, content type, errors and routes", "statement": "Every answer of the page handler, whatever else happens meanwhile, has status 200 and the three security headers. If the form value format is text it is, as text/plain, exactly the text page of the requested path for the same steps; otherwise the HTML page. If writing the page fails, 'Error in template.' is written after it and the request ends normally. /has-tricorder-metrics answers 'true' with the security headers. The URL of the page at a path is /metrics followed by the path, that of the JSON answers /metricsapi followed by the path, that of static files /metricsstatic followed by the file; no URL has two meanings.", "quantifier": "all requests, registries, interleavings, all behaviours of the connection, all URLs", "why_tests_cant": "no test runs the handlers; universally quantified over requests, failures of the connection at any write, and concurrent changes.", "anchors": ["go/tricorder/html.go:htmlAndTextHandlerFunc", "go/tricorder/html.go:setSecurityHeaders", "go/tricorder/html.go:hasTricorderHandler", "go/tricorder/html.go:initHtmlHandlers", "go/tricorder/http.go:handleError"]}
{"id": "C69", "title": "A client recovers the RPC metric from a JSON answer", "statement": "Decoding a JSON answer of /metricsapi into messages.Metric with encoding/json and calling ConvertToGoRPC never fails and yields the metric that the RPC interface would have answered: same path, description, unit, kind, subtype, bits, group id and time stamp, and in Value the same value with the Go type that the table in messages/api.go gives for the kind.", "quantifier": "For all metrics of all kinds, units and time stamps within 292 million years of 1970 that a listing can contain, with encoding/json reading ASCII strings as they are.", "why_tests_cant": "The unit tests convert Go values to JSON form and back without going through encoding/json; the loss happens only in the decoder, for some kinds, and the space of values, units and times is unbounded.", "anchors": ["go/tricorder/messages/metric.go:asGoRPC", "go/tricorder/messages/metric.go:Metric.convertToGoRPC", "go/tricorder/messages/api.go:Metric", "go/tricorder/json.go:jsonHandlerFunc"]}
{"id": "C70", "title": "With the event loops and everything else running: one answer, one update per group", "statement": "While any number of goroutines register, write, unregister and request metrics at the same time and update functions execute arbitrary code, all single values (not lists, not distributions) of one group in one answer of ListMetrics, ReadMyMetrics, GetMetric or /metricsapi carry the time returned by one execution of the group's update function. That execution ended before the first of them was read and no other execution of it begins before the last of them was read, so a variable which only the update function writes is reported as that execution left it. A request takes each group at most once. A request that arrives while another one holds the group gets the same update; a request that arrives when nobody holds it gets an update that ended after its arrival.", "quantifier": "For all interleavings of all goroutines, event loops and update functions, all registrations, group structures and paths.", "why_tests_cant": "The claim is about the interplay of the event loop, the sessions and the reads under arbitrary schedules; the tests issue requests one after the other and one concurrent scenario.", "anchors": ["go/tricorder/api.go:Group", "go/tricorder/metric.go:region.handleLockUnlock", "go/tricorder/metric.go:session.Visit", "go/tricorder/metric.go:session.Close", "go/tricorder/metric.go:value.updateJsonOrRpcMetric", "go/tricorder/rpc.go:ListMetrics"]}
{"id": "C71", "title": "What ConvertToGoRPC accepts and what it makes of it", "statement": "ConvertToGoRPC succeeds exactly if every time and duration in the metric (value, or all elements of a list) is decimal text as C42 describes it and the time stamp is nil, a time.Time, empty or such text. Afterwards no kind is time or duration, the time stamp is nil or a time.Time, every time and duration is what its text says in the unit of the metric, cut off to nanoseconds, in the same order; anything else in the metric is as before.", "quantifier": "all metrics, including malformed ones, all units and strings", "why_tests_cant": "unbounded malformed inputs; the tests convert a few well-formed metrics", "anchors": ["go/tricorder/messages/metric.go:Metric.convertToGoRPC", "go/tricorder/messages/metric.go:asGoRPC", "go/tricorder/messages/metric.go:stringAsTime", "go/tricorder/messages/metric.go:stringAsDuration"]}
{"id": "C72", "title": "Listings are right with the event loops and everything else running", "statement": "While any number of goroutines register, write, unregister and request metrics and update functions execute arbitrary code, a finished listing (ListMetrics, ReadMyMetrics, /metricsapi) has its paths in strictly ascending order, all at or under the requested path. Every metric in it was found under its path at moments during the call, and its description, unit, kind, value and group id are those at a moment during the call; a single value has the time stamp that the event loop of its group gave to this call, lists and distributions their own. Unless the listing panics, every metric that is registered under one path during the whole call is in it, except floating point numbers that are found infinite or NaN.", "quantifier": "For all interleavings of all goroutines, event loops and update functions, all registrations, groups and paths.", "why_tests_cant": "Arbitrary schedules of callers, event loops and callbacks; the tests list a fixed tree, mostly with nothing else running.", "anchors": ["go/tricorder/rpc.go:ListMetrics", "go/tricorder/metric.go:directory.GetAllMetricsByPath", "go/tricorder/metric.go:region.handleLockUnlock", "go/tricorder/metric.go:session.Visit", "go/tricorder/metric.go:value.updateJsonOrRpcMetric"]}
{"id": "C73", "title": "Nobody keeps a request from finishing", "statement": "At any moment of any run, a request (ListMetrics, GetMetric, ReadMyMetrics, the HTML page, the text page) can finish and then holds no group, although from that moment no other goroutine executes a step: it needs only its own steps and those of the event loops, including the return of an update function that is being called. In particular a request which stalls while it holds groups (a slow client of a page, say) keeps nobody from reading the metrics of these groups, and a request never waits for itself. Nothing that the request does changes the registered metrics, variables, lists or distributions.", "quantifier": "For all reachable states of all interleavings, all registrations, groups, paths, writers.", "why_tests_cant": "The tests never have requests that wait for each other; freedom from deadlock is a claim about all schedules.", "anchors": ["go/tricorder/metric.go:region.handleLockUnlock", "go/tricorder/metric.go:region.RLock", "go/tricorder/metric.go:session.Visit", "go/tricorder/metric.go:session.Close", "go/tricorder/metric.go:value.evaluate", "go/tricorder/html.go:htmlEmitDirectoryOrMetric"]}
{"id": "C74", "title": "Methods of directories, lists and distributions are atomic", "statement": "The methods of directories (look up, list, create, register, remove, unregister), of distributions (SetUnit, Add, Update, Remove, Snapshot) and of lists (change, get) are linearizable: however the goroutines interleave, field access by field access, every call takes effect exactly once between its call and its return, and all calls return what they would have returned if they had been executed one after the other, each in one step, in this order. Two goroutines are in critical sections of the same object only if both only read. The locks cannot deadlock: whatever the goroutines have called, all calls can return. So nobody sees a half-updated distribution, a list with the slice of one change and the time stamp of another, or a directory in the middle of a registration, and what is proved for runs with one step per method holds for the code with its locks.", "quantifier": "For all numbers of goroutines, all sequences of calls by each, all interleavings of single field accesses, all worlds whose callbacks do not look behind the locks.", "why_tests_cant": "The tests call the methods from one goroutine; races depend on the schedule, and a race detector sees only the schedules that occur.", "anchors": ["go/tricorder/metric.go:directory.createDirIfNeeded", "go/tricorder/metric.go:directory.storeMetric", "go/tricorder/metric.go:directory.listUnsorted", "go/tricorder/metric.go:directory.getListEntry", "go/tricorder/metric.go:directory.removeListEntry", "go/tricorder/metric.go:directory.removeChildDirectory", "go/tricorder/metric.go:distribution.SetUnit", "go/tricorder/metric.go:distribution.AddWithTs", "go/tricorder/metric.go:distribution.UpdateWithTs", "go/tricorder/metric.go:distribution.RemoveWithTs", "go/tricorder/metric.go:distribution.Snapshot", "go/tricorder/metric.go:listType.ChangeWithTimeStamp", "go/tricorder/metric.go:listType.get"]}
{"id": "C75", "title": "The RPC server can send its answers", "statement": "The answers of the RPC methods ListMetrics and GetMetric can be encoded by gob, whatever metrics are registered: the concrete type of each value and time stamp is one that gob knows itself or that package messages registers, and no nil pointer is sent.", "quantifier": "For all worlds, all states in which metrics were stored by RegisterMetric, all paths, all interleavings of the call with steps of other goroutines.", "why_tests_cant": "The tests inspect the Go values and never encode them; they register variables of predeclared types only.", "anchors": ["go/tricorder/messages/api.go:init", "go/tricorder/rpc.go:rpcType.ListMetrics", "go/tricorder/rpc.go:rpcType.GetMetric", "go/tricorder/metric.go:valueToInterface"]}
{"id": "C76", "title": "Registrations at the same time", "statement": "Any number of goroutines call RegisterMetric and RegisterDirectory at the same time, on any directory handles, while nobody else changes the tree. (1) If nothing is in the way of any call when they begin, no call registers a metric at or on the way to the path of another call, and the values can be registered, then all calls succeed, though they may create the same directories. (2) If all calls register metrics at the same path, exactly one succeeds and all others return ErrPathInUse. (3) Of two calls that succeed neither has registered a metric at or on the way to the path of the other; a call in whose way something was from the beginning does not succeed. (4) A call returns ErrPathInUse only if something was in its way from the beginning, or another call registered a metric at or on the way to its path, or, for a metric, the path of another call goes on from its path. (5) At the end the metrics are exactly the old ones and those of the successful calls, each with the description and the value of its call.", "quantifier": "For all numbers of goroutines, all calls, all initial states, all interleavings of their atomic steps with steps of others that do not change the tree.", "why_tests_cant": "The tests register from one goroutine; which call wins depends on the schedule.", "anchors": ["go/tricorder/metric.go:directory.registerMetric", "go/tricorder/metric.go:directory.registerDirectory", "go/tricorder/metric.go:directory.createDirIfNeeded", "go/tricorder/metric.go:directory.storeMetric"]}
{"id": "C77", "title": "Looking up a path while the tree changes", "statement": "While a path is looked up (HTTP pages, RPC, JSON) other goroutines may register and unregister anything. (1) If the answer is that there is nothing, then at some moment during the look-up nothing was at the path; a request for a single metric that is answered with not found had a moment without a metric at the path. (2) What is at the path all the time is found. (3) A metric that is found was reached over links each of which existed at some moment of the look-up; it reports exactly the path asked for; if it is in the tree when the look-up is over, then at the path asked for. (4) Unless somebody unregisters a directory on the way or at the path during the look-up, the whole answer is right at some single moment; likewise the answer of GetDirectory: the directory is at the path on return, ErrNotFound and ErrPathInUse tell what was there at some moment. (5) With such an unregistration a metric may be found at a path at which there never was anything.", "quantifier": "For all paths, all states, all interleavings with arbitrary steps of other goroutines.", "why_tests_cant": "The tests change the tree from one goroutine only, never during a look-up.", "anchors": ["go/tricorder/metric.go:directory.getDirectory", "go/tricorder/metric.go:directory.getDirectoryOrMetric", "go/tricorder/metric.go:directory.getDirectoryAndError", "go/tricorder/metric.go:directory.GetMetric"]}
{"id": "C78", "title": "Registering and unregistering while others unregister", "statement": "Other goroutines may register and unregister anything during the call. (1) Unless somebody unregisters a directory on the way meanwhile: RegisterMetric that returns nil has put the metric with its description, value, unit and group at the path, where nothing was just before; ErrPathInUse tells that at some moment a metric was on the way or something at the path; any other result tells that the value could not be registered; a directory returned by RegisterDirectory is at its path on return and ErrPathInUse tells that at some moment a metric was on the way or at the path. (2) Without exception: there is a moment during UnregisterPath at which nothing is at the path, and its own steps add nothing and remove nothing but what is at or under the path. (3) If a directory on the way is unregistered meanwhile, RegisterMetric may return nil though the metric is never to be found at its path, and may return ErrPathInUse though nothing is at or on the way to the path at any moment.", "quantifier": "For all calls on all directory handles, all states, all interleavings with arbitrary steps of other goroutines.", "why_tests_cant": "The tests register and unregister from one goroutine; the losing schedule needs an unregistration between two critical sections of one call.", "anchors": ["go/tricorder/metric.go:directory.registerMetric", "go/tricorder/metric.go:directory.registerDirectory", "go/tricorder/metric.go:directory.unregisterPath", "go/tricorder/metric.go:directory.storeMetric", "go/tricorder/metric.go:directory.removeListEntry"]}
{"id": "C79", "title": "Every request finishes", "statement": "Let the library run for ever, with the scheduler fair to the goroutine of a request (ListMetrics, GetMetric, ReadMyMetrics, the HTML page, the text page) and to the event loops of the groups, and with update functions that return. Then the request finishes, and afterwards its goroutine holds no group, whatever all other goroutines do: they may stop in the middle of a request for ever, or take the same groups and give them back without end. A listing finishes as long as the tree does not grow without end while it is being listed. Every event loop comes back to waiting for the next request again and again.", "quantifier": "For all infinite interleavings that are fair to the request and the event loops, all registrations, groups, paths, writers.", "why_tests_cant": "A claim about all infinite runs: a starving request would need an unlucky schedule that never shows in a test, and a test cannot tell slow from never.", "anchors": ["go/tricorder/metric.go:region.handleLockUnlock", "go/tricorder/metric.go:region.RLock", "go/tricorder/metric.go:region.RUnlock", "go/tricorder/metric.go:session.Visit", "go/tricorder/metric.go:session.Close", "go/tricorder/metric.go:newRegion"]}
{"id": "C80", "title": "A directory handle acts at its own path", "statement": "All ways of registering a metric agree: with the default group or a given one, through the package, a group, a directory or a directory with a group. If d is a directory that is registered at path P, then registering a metric, registering a directory, unregistering a path and looking up a path relative to d do exactly what the package-level functions do with P followed by the relative path: same result, same effect on the tree, and every way the call through d can turn out while other goroutines change the tree is a way the call with the full path can turn out. RegisterDirectory with the empty relative path returns d itself; RegisterMetric with it is refused with ErrPathInUse and changes nothing. UnregisterDirectory of d does what UnregisterPath of P does. What the look-ups return is the directory or metric registered at the path, or nothing.", "quantifier": "For all reachable states, registered directories, paths in every spelling, metrics, groups, units, interleavings.", "why_tests_cant": "An equivalence of two programs over all trees, paths and interleavings; tests compare a few paths in one tree.", "anchors": ["go/tricorder/api.go:RegisterMetric", "go/tricorder/api.go:RegisterMetricInGroup", "go/tricorder/api.go:Group.RegisterMetric", "go/tricorder/api.go:DirectoryGroup.RegisterMetric", "go/tricorder/api.go:DirectorySpec.RegisterMetric", "go/tricorder/api.go:DirectorySpec.RegisterMetricInGroup", "go/tricorder/api.go:DirectorySpec.RegisterDirectory", "go/tricorder/api.go:DirectorySpec.UnregisterPath", "go/tricorder/api.go:DirectorySpec.UnregisterDirectory", "go/tricorder/metric.go:directory.registerMetric", "go/tricorder/metric.go:directory.GetMetric", "go/tricorder/metric.go:directory.GetDirectoryOrMetric", "go/tricorder/metric.go:directory.GetDirectory"]}
{"id": "C81", "title": "A snapshot is a histogram of the current values, and the median is in the range of the true one", "statement": "In every snapshot of a distribution the count shown for a range is the number of values now in the distribution that lie in that range, and these counts are shown with the ranges in order. With three or more values, Median is the mean of two numbers between Min and Max, one in the range of the lower middle value and one in the range of the upper middle value (upper end of the range included; the two middle values are the same if the number of values is odd). So with an odd number of values Median differs from the true median by at most the width of the range it lies in. With one or two values Median is their mean. In float64 this holds up to a relative rounding error of 2^-48 of the largest magnitude.", "quantifier": "For all ascending lists of endpoints, histories of Add, Update and Remove with correct old values, all values that are not NaN (histogram) or finite (median).", "why_tests_cant": "Unbounded histories, all endpoint lists and float64 values; the tests check a few snapshots.", "anchors": ["go/tricorder/metric.go:distribution.Snapshot", "go/tricorder/metric.go:distribution.calculateMedian", "go/tricorder/metric.go:distribution.indexToValue", "go/tricorder/metric.go:findDistributionIndex", "go/tricorder/metric.go:interpolate", "go/tricorder/metric.go:newDistribution"]}
{"id": "C82", "title": "Registrations all succeed exactly if they fit, in any order", "statement": "Take any number of registrations below a directory, of variables, callbacks, lists and distributions. All of them succeed exactly if every path has a component, no path equals or is inside another, a distribution registered more than once has the same unit each time, nothing registered before is at a path or is a metric on the way to it, every value is of a supported type, and no distribution has another unit already. Then each path leads to a metric with the given description, unit, group and value, everything registered before is still there and unchanged, there are no other new metrics, and outside the tree only the units of the registered distributions were set. In any other order the same registrations succeed with the same metrics and distributions as result.", "quantifier": "For all reachable states, directories, finite lists of registrations, and their permutations.", "why_tests_cant": "Lists of any length with arbitrary paths, all their permutations, all states; tests register fixed lists in one order.", "anchors": ["go/tricorder/api.go:RegisterMetric", "go/tricorder/api.go:RegisterMetricInGroup", "go/tricorder/metric.go:directory.registerMetric", "go/tricorder/metric.go:newValue", "go/tricorder/metric.go:newValueForDist", "go/tricorder/metric.go:distribution.SetUnit"]}
{"id": "C83", "title": "The demo program shows what it says", "statement": "If nothing is in the way of its paths, which is the case right after the library is initialized, the demo program tricorderdemo registers its metrics without an error or panic. Everything registered before is still there and unchanged, and no other metrics appear. Then GetMetric reports for /proc/temperature 22.5 celsius, for /proc/duration 125 seconds, for /proc/rpc-count 500, for /proc/foo/bar/baz 12.375, for /proc/foo/bar/abool true, for /list/squares an empty list of int64, and for /proc/rpc-latency a cumulative distribution in milliseconds with the counts 1, 9, 90, 400, 0, 0, 0, minimum 0, maximum 499, sum 124750, average 249.5. While its goroutine changes the list, whatever others do except changing this list or writing the goroutine's slices, /list/squares always reports the first k squares for some k that never decreases; in the end 99. The client program finds nothing under /aaa/bbb and no /proc/foo/ddd. The ranges of PowersOfTwo, PowersOfFour and PowersOfTen end at the powers from 1 to 2^18, 4^9 and 10^5.", "quantifier": "For all reachable states in which nothing is in the way, all orders of map iteration, all clocks, and all interleavings with other goroutines.", "why_tests_cant": "All earlier states of the process and all interleavings of the list's goroutine with readers and other writers; there is no test of the demo program.", "anchors": ["go/tricorderdemo/tricorderdemo.go:registerMetrics", "go/tricorderdemo/tricorderdemo.go:updateList", "go/tricorderclient/tricorderclient.go:main", "go/tricorder/api.go:RegisterMetric", "go/tricorder/api.go:RegisterDirectory", "go/tricorder/api.go:List.Change"]}
{"id": "C84", "title": "RPC clients receive what the server sent, and the client program prints it", "statement": "A Go client that decodes the answers of ListMetrics and GetMetric receives the metrics that the server sent, field by field. The program tricorderclient prints the metrics it asked for.", "quantifier": "For all metrics that gob can send, all contents of the client's variables before the call, all worlds and server states, all interleavings of the client's calls with steps at the server.", "why_tests_cant": "The client has no tests; the tests of the library call the methods of the server directly, without gob.", "anchors": ["go/tricorderclient/tricorderclient.go:main", "go/tricorderclient/tricorderclient.go:printAsJson", "go/tricorder/rpc.go:rpcType.ListMetrics", "go/tricorder/rpc.go:rpcType.GetMetric", "go/tricorder/messages/api.go:Metric"]}
{"id": "C85", "title": "Registering and recording never wait", "statement": "Registering and unregistering metrics and directories, looking up directories and metrics, creating groups, distributions and lists, adding to, updating and removing from distributions and changing lists never wait for an event loop, an update function or a request. Whenever such a call is underway it can return by its own steps, at most one more than its path has components, with nobody else doing anything: also while update functions hang, while requests hold groups, and inside update functions.", "quantifier": "For all worlds, all runs of any number of goroutines, event loops and update functions, all points of the run at which the call is underway, all paths, all things to register, all directories that exist when the call is made.", "why_tests_cant": "A test registers when nothing else runs, or under a few schedules; it cannot try every state of every event loop and of every other goroutine.", "anchors": ["go/tricorder/metric.go:registerMetric", "go/tricorder/metric.go:registerDirectory", "go/tricorder/metric.go:unregisterPath", "go/tricorder/metric.go:getDirectory", "go/tricorder/metric.go:newValue", "go/tricorder/metric.go:region.handleRequests", "go/tricorder/api.go:NewGroup", "go/tricorder/api.go:CumulativeDistribution.Add"]}
{"id": "C86", "title": "Update functions and metrics that read metrics: exactly when nothing blocks", "statement": "Update functions and functions registered as metrics may themselves read metrics, to any depth. All guarantees about groups still hold. Functions registered as metrics can never block anything by reading metrics, not even those of the group they are being read in. Update functions cannot block anything if no group depends on itself, that is if there is no cycle of groups each of whose update functions reads a metric of the next, or of which it replaces the update function; everything underway can then always end. If there is such a cycle, in particular if an update function reads its own group, there is a run after which the group never answers again.", "quantifier": "For all relations saying which groups an update function may use, all runs of any number of groups, requests, update functions and nested reads, all depths of nesting, all continuations.", "why_tests_cant": "A deadlock of nested reads needs particular schedules, and the absence of it is a claim about all schedules, all nestings and all dependencies.", "anchors": ["go/tricorder/metric.go:region.handleLockUnlock", "go/tricorder/metric.go:session.Visit", "go/tricorder/metric.go:session.Close", "go/tricorder/metric.go:value.evaluate", "go/tricorder/api.go:ReadMyMetrics"]}
{"id": "C87", "title": "Changing registered variables while they are read: exactly which changes are atomic", "statement": "If the application replaces the pointer of a registered pointer to a time, rather than changing the time in place, every read gets in one piece the time that the pointer pointed to at one moment during the read, or the zero time if it was nil. Variables of one machine word (bool, integers, floats, durations, pointers to times) may be assigned to at any moment: a read gets the old value or one of the new ones. Strings and times in place may not: there are runs in which a read gets a value that the variable never had. Any number of variables of any kind that only the update function of their group changes are read as the last update left them, all together.", "quantifier": "For all contents of memory, all stores by other goroutines between the loads of the reader, all orders in which the words of a value are loaded, all values; for groups: all runs of any number of goroutines and groups.", "why_tests_cant": "A torn read needs a store between two particular loads; tests almost never hit it, and the race detector reports only what a run happened to do.", "anchors": ["go/tricorder/metric.go:valueToTime", "go/tricorder/metric.go:value.evaluate", "go/tricorder/doc.go:Register Custom Metrics"]}
{"id": "C88", "title": "Every application stays within what the other properties speak about", "statement": "Take any application: any number of goroutines, started at any time, each of which calls the library (registers, unregisters, looks up, records, serves requests) with any arguments, decides what to do next from everything it has seen, and passes directory handles to other goroutines. In every run, every state of the registry is one of those that the other properties speak about, and every call is an execution of the called function among steps of others as these properties assume. So they hold of all calls in all applications.", "quantifier": "For all applications, all runs, all interleavings, all user code called by the library, all lengths.", "why_tests_cant": "It is a statement about all programs that use the library.", "anchors": ["go/tricorder/api.go:RegisterMetric", "go/tricorder/api.go:RegisterDirectory", "go/tricorder/api.go:GetDirectory", "go/tricorder/api.go:UnregisterPath", "go/tricorder/api.go:UnregisterDirectory"]}
{"id": "C89", "title": "Recording by many goroutines loses nothing, and the order does not matter", "statement": "Any number of goroutines may add values to a distribution, update and remove them, register it and serve requests that read it, all at the same time; update functions may too. At every moment, and in every snapshot, the distribution is what the calls made so far give when applied one after another, each exactly once. So Count is the number of values added by all goroutines together less those removed. If values are only added, then Count, the counts of the ranges, Min, Max, Generation and, from three values on, the median do not depend on the order in which the goroutines take turns. Sum and Average may: the additions are rounded.", "quantifier": "For all applications with any number of goroutines, started at any time, all worlds, all interleavings, all sequences of calls with fewer than 2^64 - 1 calls on the distribution; for order independence all values other than NaN and -0.", "why_tests_cant": "The tests of distributions use one goroutine. Lost updates show up only under particular interleavings, and independence of the order is a statement about all pairs of executions.", "anchors": ["go/tricorder/metric.go:AddWithTs", "go/tricorder/metric.go:UpdateWithTs", "go/tricorder/metric.go:RemoveWithTs", "go/tricorder/metric.go:Snapshot", "go/tricorder/metric.go:SetUnit"]}
{"id": "C90", "title": "One listing shows one call of each group's update function, as if it had run in one step", "statement": "In one answer to a listing (RPC or JSON) or to a request for a single metric, all scalar metrics of a group come from one and the same call of that group's update function: they carry the time stamp that this call returned, and, if the update function computes their variables and nobody else assigns these, their values are those it would have left had it run in a single step, whatever other goroutines and requests do in between. In particular all metrics of the default resource usage group in a listing, other than /proc/memory/unshared-stack which never changes (C54), show figures from one and the same answer of getrusage, and /proc/memory/total shows the difference of two figures from one and the same runtime.ReadMemStats.", "quantifier": "For all runs: any number of goroutines, requests and groups, any interleaving of their steps with those of the update function, any registered metrics, any update functions on their own variables, any answers of the kernel in range.", "why_tests_cant": "A torn or mixed reading needs a particular interleaving of the update function with several requests; a test sees a few of infinitely many schedules.", "anchors": ["go/tricorder/metric.go:region.handleLockUnlock", "go/tricorder/metric.go:session.Visit", "go/tricorder/metric.go:session.Close", "go/tricorder/setup.go:initDefaultMetrics", "go/tricorder/rpc.go:ListMetrics"]}
{"id": "C91", "title": "One page shows one call of each group's update function", "statement": "Whatever other goroutines, requests and update functions do while an HTML page or the text page of a directory is written: if no write fails, the page consists of its frame and one item per metric or child directory, every metric on it is a registered metric as it was during the request, and all scalar values of one group on the page come from one and the same call of that group's update function. Each was read after the request had taken the group, which was after that call, and before another call began; so variables that only the update function changes are shown as that call left them, as if it had run in one step. The text page of a single metric shows one value that its source had during the request (it may be read after the group was released, see C59).", "quantifier": "For all runs: any number of goroutines, requests and groups, any interleaving with the update functions and with registrations, all metrics, paths and writers.", "why_tests_cant": "No existing test requests the HTML or the text page at all; a page that mixes two updates needs a particular interleaving, and a test sees a few of infinitely many schedules.", "anchors": ["go/tricorder/html.go:htmlEmitDirectoryOrMetric", "go/tricorder/html.go:htmlEmitMetric", "go/tricorder/html.go:textEmitDirectoryOrMetric", "go/tricorder/html.go:textEmitMetric", "go/tricorder/html.go:textCollector.Collect", "go/tricorder/metric.go:value.evaluate", "go/tricorder/metric.go:session.Visit", "go/tricorder/metric.go:session.Close"]}
{"id": "C92", "title": "Asking again for a distribution: Generation tells whether it has changed", "statement": "A client asks for a distribution twice, by listing or by name, over RPC or JSON, the second time after the first answer is complete, while other goroutines record values. Two answers with the same group id are about the same distribution and have the same ranges. If it is not empty in either answer, Generation has grown by exactly the number of Add, Update and Remove calls on it that returned normally, between a moment during the first request and a moment during the second. So if Generation is the same, then Count, Sum, Average, Min and Max are the same; and if moreover no Update or Remove panicked over an empty range in between, the whole value and the time stamp are the same (the exception is needed). If the second answer shows a non-empty cumulative distribution, Count and the counts of the ranges have not gone down, Min has not gone up and Max has not gone down; and with the same Count the whole value and the time stamp are the same.", "quantifier": "For all runs of fewer than 2^64 steps: any number of goroutines, requests and groups, any interleaving, all distributions made with a bucketer, all calls on them, all values, units and times.", "why_tests_cant": "A test compares Generation after a fixed sequence of calls in one goroutine; whether any two answers with the same number can differ is a question about all histories and all interleavings between two requests.", "anchors": ["go/tricorder/metric.go:distribution.add", "go/tricorder/metric.go:distribution.update", "go/tricorder/metric.go:distribution.remove", "go/tricorder/metric.go:distribution.Snapshot", "go/tricorder/rpc.go:ListMetrics", "go/tricorder/rpc.go:GetMetric", "go/tricorder/json.go:jsonHandlerFunc"]}
{"id": "C93", "title": "Asking again for metrics of a group: answers never go back to an earlier update", "statement": "Two requests (ListMetrics, ReadMyMetrics, GetMetric, /metricsapi), the second one made after the first one was answered, while other goroutines register, write, unregister and request metrics and update functions execute arbitrary code. All single values of a group (with the same GroupId) in the second answer come from a later call of the update function of the group than those in the first answer, or all of both come from the same call; in the latter case a metric that only the update function changes has the same value in both. So if the update function never returns an earlier time than before, time stamps never go back; if it returns a new time with each call, a metric that only it changes has the same value in both answers when it has the same time stamp. If nobody holds the group when the second request is made, its values come from a call that returned after the request was made.", "quantifier": "For all interleavings of all goroutines, event loops and update functions, all registrations, group structures and paths, all pairs of requests one after the other.", "why_tests_cant": "Whether a later answer can show an earlier update depends on who else holds the group in between; the tests make a few requests in a fixed order.", "anchors": ["go/tricorder/api.go:Group", "go/tricorder/metric.go:region.handleLockUnlock", "go/tricorder/metric.go:session.Visit", "go/tricorder/metric.go:session.Close", "go/tricorder/metric.go:value.updateJsonOrRpcMetric", "go/tricorder/rpc.go:ListMetrics", "go/tricorder/rpc.go:GetMetric", "go/tricorder/json.go:jsonHandlerFunc"]}
{"id": "C94", "title": "JSON answers are JSON texts with the value of the document", "statement": "The body of an answer of /metricsapi is, for every document that it is made from, a JSON text by the grammar of RFC 8259 and nothing else can be read from it by that grammar: an object has the fields of the document in their order, an array its elements in order, integers are exact, a floating point number is the one nearest to the number in the text, a string has the code points of the Go string, with U+FFFD for each byte that is not UTF-8, and byte lists are in base64. Whatever names, descriptions and values contain (quotes, backslashes, control characters, invalid UTF-8, U+2028), the body is valid UTF-8, contains none of the characters <, > and &, and no control characters besides tab and newline. So for a listing the only value of the body is the array of the objects of the metrics that ListMetrics reports, and with singleton it is the object of the metric.", "quantifier": "For all documents of any depth and size, all byte strings in them, all registries, requests and interleavings; for all ways to write floating point numbers as JSON numbers that round to them.", "why_tests_cant": "There are no tests of the texts; escaping and indentation work byte by byte on unbounded nested documents with arbitrary bytes, and that a text has no second reading is a statement about all readings.", "anchors": ["go/tricorder/json.go:jsonHandlerFunc", "go/tricorder/json.go:jsonSetUpHeaders", "go/tricorder/messages/api.go:Metric"]}
{"id": "C95", "title": "A client recovers the metrics from the bytes of a JSON answer", "statement": "Whoever reads the body of a /metricsapi answer as JSON and decodes it into messages.Metric values, as json.Unmarshal does from the value of the text, gets for a listing one metric for each metric that ListMetrics reports, in the same order (with singleton, the one metric), and ConvertToGoRPC succeeds on each except the lists of times and durations, for which it gives an error and leaves the metric as it was. The result has the kind, unit, bits, time stamp and group of the reported metric, and the path, description and string values if they are UTF-8; booleans, times (but the zero time comes as 1970) and durations are the same; numbers are float64: integers up to 2^53 in magnitude and all float64 values exactly, but for the sign of a zero, float32 values as the float64 nearest to a text that identifies them; a list of bytes is its base64 text.", "quantifier": "For all registries of typed metrics, values, units that are ASCII, and times within 292 million years of 1970, all requests and interleavings, all ways to write floating point numbers as JSON numbers that round to them, and all readings of the text by the grammar of JSON.", "why_tests_cant": "The tests convert metrics but never take them through their text; exactness of numbers, escaping of all strings and the whole path from registry to client are statements about unbounded values and lists.", "anchors": ["go/tricorder/json.go:jsonHandlerFunc", "go/tricorder/messages/metric.go:convertToGoRPC", "go/tricorder/messages/api.go:Metric"]}
{"id": "C96", "title": "The markup of an HTML page is that of the template, whatever strings are on it", "statement": "A browser's tokenizer reads every HTML page completely, in exactly one way, as the fixed frame around one item per child: for a directory a link whose text is its path byte for byte, for a metric text that consists of its path, description, unit, type and rendered value byte for byte (NUL shown as the replacement character). The sequence of tags of an item depends only on whether it is a directory, a scalar, a list (and its length) or a distribution (and which of its ranges are empty), never on a name, description, string value or number. Moreover, for every state, under any interference by other goroutines, for every failing writer and for every truncation of the output, the tags that a browser finds are those of the template, or links whose address begins with /metrics and contains no quotes, blanks or angle brackets: no registered string can add an element or an attribute.", "quantifier": "all trees of metrics registered through the interface, all names, descriptions, string values, list lengths and distributions; for the safety part all states, all interleavings, all number formats, all writers and all prefixes of what is written", "why_tests_cant": "tests can check a few hostile strings; that no byte string in any position, in any combination, changes how the page is tokenized is a statement about all strings and all states of a tokenizer.", "anchors": ["go/tricorder/html.go:htmlTemplateStr", "go/tricorder/html.go:htmlEmitDirectoryOrMetric", "go/tricorder/html.go:htmlEmitMetric", "go/tricorder/html.go:htmlEmitDirectory", "go/tricorder/html.go:htmlView.Link"]}
{"id": "C97", "title": "The text page can be read line by line", "statement": "If no path contains a space or newline and no string value contains a newline, then the text page of a directory, read as documented (one line per metric, path, space, value), has exactly one reading: the metrics that RPC ListMetrics reports, in the same order, each with its path and the text of its value; the text page of a single metric is one line. The text determines the value among all values of the same type and unit: integers, booleans, strings, durations and instants exactly, floating point numbers up to their formatting, lists element by element if no string contains the separator |, and of distributions the formatted summary, the count and the list of non-empty ranges. Without the condition on strings this fails: strings are not escaped, and a program with one string metric can serve, byte for byte, the text page of a program with two metrics.", "quantifier": "all trees of metrics registered through the interface, all values, all number formats without the separators; all pages and all possible readings", "why_tests_cant": "that no two listings have the same page, and that no other reading of a page exists, are statements about all pairs of listings; a test compares single pages.", "anchors": ["go/tricorder/html.go:textCollector.Collect", "go/tricorder/html.go:textEmitMetric", "go/tricorder/html.go:textEmitDistribution", "go/tricorder/html.go:textEmitDirectoryOrMetric", "go/tricorder/metric.go:value.AsTextString", "go/tricorder/metric.go:listType.TextStrings"]}
{"id": "C98", "title": "REST requests, from the connection to the metrics", "statement": "For every REST request, whatever its Accept-Encoding header says, while other goroutines register, unregister and change metrics: a client that decompresses answers marked Content-Encoding: gzip (as Go's http.Client does) and leaves others as they are receives status 200, application/json and a body that has exactly one value by the JSON grammar, from which json.Unmarshal and ConvertToGoRPC give, in order, exactly the metrics that RPC ListMetrics would have answered for the same interleaving (values as C95 says). For a request with singleton it is the metric that GetMetric would have answered, and status 404 if there is none.", "quantifier": "all reachable states, all interleavings, all requests and headers, all compressors that some decompressor inverts, all readers that follow the JSON grammar", "why_tests_cant": "the chain of handler, compressing writer, JSON encoder, decompressor, decoder and conversion is compared with a different API for all registries and all interleavings.", "anchors": ["go/tricorder/http.go:gzipHandler.ServeHTTP", "go/tricorder/json.go:jsonHandlerFunc", "go/tricorder/json.go:jsonSetUpHeaders", "go/tricorder/messages/metric.go:Metric.ConvertToGoRPC", "go/tricorder/rpc.go:rpcType.ListMetrics"]}
{"id": "C99", "title": "A request asks the application only for what it shows, and how often", "statement": "While other goroutines register, unregister and change metrics: a listing (ListMetrics over RPC, REST, ReadMyMetrics, the text page of a directory) reads the variables and calls the callbacks and flag getters of exactly the metrics that it visits, all at or under the given path, in the order of their paths, and of no others. A metric that is listed is asked for once; lists and distributions not at all; floating point metrics twice, as the listing first asks whether the value is infinite or NaN, and then again for the value; floating point metrics that are left out once. If the listing succeeds, every metric that is there all the time is among those asked. GetMetric, the singleton form and the text page of a single metric ask for it exactly once. The HTML page of a directory asks exactly once for each metric directly in it, and for none further down; the page of a metric once.", "quantifier": "all reachable states, interleavings, paths, collectors' outcomes, writers and formatters", "why_tests_cant": "that no other callback is called, and none twice, for any registry and any interleaving is a statement about all executions; the double evaluation of floating point callbacks is visible only by counting calls.", "anchors": ["go/tricorder/metric.go:collect", "go/tricorder/metric.go:value.IsInfNaN", "go/tricorder/metric.go:value.evaluate", "go/tricorder/metric.go:directory.GetAllMetricsByPath", "go/tricorder/html.go:textEmitDirectoryOrMetric", "go/tricorder/html.go:htmlEmitDirectoryOrMetric", "go/tricorder/rpc.go:rpcType.GetMetric"]}
{"id": "C100", "title": "Slices that share arrays", "statement": "Lists hold under Go's real slices, which are references to arrays: every run in which the application makes slices of slices, appends to slices and writes through any of them is, as seen through the slices, a run of the model in which every slice has its own elements, with the same results and the same steps of the library. So a list made from or changed to a MutableSlice (or an []int, []uint) keeps reporting the values of that moment whatever is written through any alias or by any append (other than through a slice that ReadMyMetrics returned, which is the list's own); a list made with ImmutableSlice shows a write through any slice exactly at the places where it shares the element, also writes made by appending to a shorter slice of the same array; and no step of the library changes an array or slice of the application.", "quantifier": "all slices, aliases, capacities and growth of append, all interleavings of writes, appends and library calls", "why_tests_cant": "aliasing depends on capacities and on the history of all slices of an array, over all interleavings", "anchors": ["go/tricorder/metric.go:asSliceValue", "go/tricorder/metric.go:copySlice", "go/tricorder/metric.go:convertFromIntOrUintSlice", "go/tricorder/metric.go:newListWithTimeStamp"]}
{"id": "C101", "title": "Asking again for a list: answers show the last Change, in order", "statement": "If the slices a list is made of are declared mutable (or are []int or []uint), every answer to ListMetrics or GetMetric that contains the list shows exactly the values and time stamp that the last NewList or Change before some moment of the request gave it, whoever called Change and however it is interleaved with the request. A Change that returned before the request was made is shown, unless a later one is. When the list is asked for again, either nothing set it in between and the answer is the same (time stamp, element type and, with the same unit, values), or the answer shows the last Change in between. So if Change is never called with an earlier time stamp than before, answers never have earlier time stamps; and if always with a new one, answers with the same time stamp have the same values.", "quantifier": "all executions of the whole model (any number of goroutines, registrations, requests, calls of Change with any slices, writes of the application to its slices), both encodings, all moments at which the two requests are made and all interleavings", "why_tests_cant": "A test can only call Change and then ask; it cannot produce all interleavings of Change, of the application's writes to its slices, and of two requests, for all element types and both encodings.", "anchors": ["go/tricorder/metric.go:ChangeWithTimeStamp", "go/tricorder/metric.go:newListWithTimeStamp", "go/tricorder/metric.go:AsSlice", "go/tricorder/metric.go:updateJsonOrRpcMetric", "go/tricorder/messages/metric.go:asJson"]}
{"id": "C102", "title": "int and uint have the size of the machine", "statement": "On a machine where int has 32 bits, a variable, function or flag of type int (uint) is registered, and read in messages, in the text and on the page, exactly like one of type int32 (uint32) with the same number, with Bits 32; where it has 64 bits, like int64 (uint64) with Bits 64, which is what the other properties speak about. A list made of an []int or []uint holds a copy with the same numbers in a slice of the sized type, also if the slice is declared immutable. A list accepts in Change exactly the slices of its own sized type: a list of int accepts []int32 on the one machine and []int64 on the other. With any other size, int and uint cannot be registered (ErrWrongType), lists of them panic, and flags of them are strings.", "quantifier": "all sizes of int, values, sources, slices, memories, units and formatters", "why_tests_cant": "Tests run on the machine at hand, so that the other branch of the size switch never runs; and the values are all numbers of the type.", "anchors": ["go/tricorder/metric.go:getPrimitiveType", "go/tricorder/metric.go:convertFromIntOrUintSlice", "go/tricorder/metric.go:asSliceValue", "go/tricorder/metric.go:newValue", "go/tricorder/metric.go:valueToInterface"]}
{"id": "C103", "title": "How much work a request is", "statement": "A request does work in proportion to what it reports, whatever other goroutines do while it is being served. ListMetrics (in process, over RPC and as JSON) and the text page take at most as many steps as the path has components, and seven for each directory or metric found in the directories that are listed, plus seven; a directory is listed at most once per request, so that not more entries are found than there are; the HTML page lists at most the one directory it shows, and takes four steps per entry; asking for one metric takes at most as many steps as the path has components, and five, however many metrics there are. Steps are: looking up a name in a directory, listing a directory, describing a metric or directory, taking or releasing a group, asking the application for a value, copying a list or a distribution.", "quantifier": "all reachable states, paths and requests, all interleavings with other goroutines, including ones that register and unregister during the request", "why_tests_cant": "a bound on all executions, over trees of any shape that change while they are listed", "anchors": ["go/tricorder/metric.go:GetAllMetrics", "go/tricorder/metric.go:GetAllMetricsByPath", "go/tricorder/metric.go:List", "go/tricorder/metric.go:GetMetric", "go/tricorder/html.go:htmlEmitDirectory", "go/tricorder/html.go:textEmitDirectoryOrMetric", "go/tricorder/metric.go:Visit"]}
{"id": "C104", "title": "Objects that no constructor made", "statement": "The exported types can be used without their constructors. A Group that was only declared (var g tricorder.Group) never answers: a request that visits it, by reading a metric registered in it, never ends, and neither does a call that sets its update function; the groups that the request had visited before are never updated again, so that from then on every request sees them with the time stamp of that visit; all other behaviour of groups is as if the group had been made with NewGroup and not used. A distribution that was only declared, or was made by a Bucketer that was only declared, stays empty: Add, Update and Remove panic, with at most the time stamp changed, and it is reported as an empty distribution without ranges. A List that was only declared cannot be changed and panics when it is read. In a DirectorySpec that was only declared nothing is found, unregistering does nothing and registering panics, except for the errors of a metric registered directly in it.", "quantifier": "all runs of any number of groups, declared and made, with any number of requests and update functions in all interleavings; all histories of calls; all paths", "why_tests_cant": "claims that something never happens in any continuation; a test can only give up waiting", "anchors": ["go/tricorder/api.go:RegisterMetricInGroup", "go/tricorder/api.go:RegisterUpdateFunc", "go/tricorder/metric.go:newRegion", "go/tricorder/metric.go:RLock", "go/tricorder/metric.go:Visit", "go/tricorder/metric.go:newDistributionWithTimeStamp", "go/tricorder/metric.go:findDistributionIndex", "go/tricorder/metric.go:ChangeWithTimeStamp", "go/tricorder/metric.go:storeMetric", "go/tricorder/metric.go:createDirIfNeeded"]}
{"id": "C105", "title": "Asking again for a distribution: the differences tell what was recorded", "statement": "A client asks for a distribution twice, by listing or by name, the second time after the first answer is complete, while other goroutines record values. Every number is in exactly one of the ranges shown. The count of each range has changed by the number of values in that range that were put in, less those taken out, between a moment during the first request and a moment during the second: Add puts a value in, Remove takes one out, Update does both, and an Update that panics because the range of the old value is empty puts its new value in all the same. Count has changed by the number of Adds less that of Removes that returned normally. If the distribution is not empty in either answer, Sum is the first Sum with the values added and subtracted in the order of the calls. If the second answer shows a non-empty cumulative distribution, nothing was taken out, so that the differences of the counts are the histogram of the values added in between: no value is missed and none is counted twice.", "quantifier": "For all runs of the whole library with any number of goroutines in all interleavings, all worlds, both encodings, all ascending endpoints, all values (NaN is in the last range), fewer than 2^64 steps.", "why_tests_cant": "Calls race with both requests; the claim is an equation over all interleavings and all histories, including calls that panic half way.", "anchors": ["go/tricorder/metric.go:add", "go/tricorder/metric.go:update", "go/tricorder/metric.go:remove", "go/tricorder/metric.go:findDistributionIndex", "go/tricorder/metric.go:Snapshot", "go/tricorder/metric.go:valueToFloat"]}
{"id": "C106", "title": "A listing reads the metrics in the order of its answer", "statement": "While a client gets a listing, other goroutines change values, so the listing is not a picture of one moment: the same distribution can appear with one value at one path and with two at another. But there are moments during the request, none before that of the metric before it in the answer, such that every metric in the answer shows the value that it has at its moment. So if the same distribution is in the answer twice, the later entry is never older than the earlier one: its ranges are the same, Generation has grown by the number of calls on it that returned normally between the two moments, equal Generations of a non-empty distribution mean equal Count, Sum, Average, Min and Max, no count of a cumulative one is smaller than in the earlier entry, and the differences between the two entries are what was recorded in between. If the same list is in the answer twice, then either nothing set it between the two moments and both entries say the same, or the later entry shows what the last NewList or Change in between gave it.", "quantifier": "For all runs of the whole library with any number of goroutines in all interleavings, all worlds, all trees and paths, both encodings, all metrics; for the part about distributions, all distributions made by bucketers (with ascending endpoints for the differences) and fewer than 2^64 steps; for the part about lists, all lists whose slices are copied (declared mutable, or of int or uint).", "why_tests_cant": "Whether the order of the readings is the order of the answer shows only if other goroutines change values between two readings of one request, which cannot be scheduled from outside.", "anchors": ["go/tricorder/metric.go:GetAllMetrics", "go/tricorder/metric.go:GetAllMetricsByPath", "go/tricorder/metric.go:collect", "go/tricorder/metric.go:Snapshot", "go/tricorder/rpc.go:ListMetrics", "go/tricorder/json.go:jsonHandlerFunc", "go/tricorder/metric.go:ChangeWithTimeStamp"]}
{"id": "C107", "title": "A counter that never falls never appears to fall", "statement": "An application registers an integer variable, or a function that returns an integer, and never lets it fall. If a client gets one answer and then makes another request, by listing or for a single path, the second number is not smaller than the first; the first number is not greater than what the counter gave at any moment between the first answer and the second request, and the second number is not smaller than that. If the same counter is at two paths in one listing, the later number is not smaller than the earlier one. This holds although a listing is not a picture of one moment and although other goroutines register, unregister, update groups and ask at the same time.", "quantifier": "For all worlds, all programs of all goroutines, all interleavings of two requests with everything else, both encodings, all ten integer types, all sources (variables and functions), and all pairs of metrics that show the source.", "why_tests_cant": "A listing reads its metrics one by one while writers go on; whether a number is read twice, cached, or read out of order shows only in particular interleavings, and a test sees few of them.", "anchors": ["go/tricorder/metric.go:AsInterface", "go/tricorder/metric.go:valueToInterface", "go/tricorder/metric.go:UpdateRpcMetric", "go/tricorder/metric.go:GetAllMetricsByPath", "go/tricorder/rpc.go:ListMetrics", "go/tricorder/rpc.go:GetMetric", "go/tricorder/json.go:jsonHandlerFunc"]}
{"id": "C108", "title": "Asking again for a distribution: Min only falls and Max only rises until it is emptied", "statement": "A client gets a distribution twice, in two answers or twice in one listing. If the distribution contained values all the time in between, Min in the second is not greater and Max not smaller than in the first; and if no NaN was recorded, Min is exactly the least and Max the greatest of those in the first and of the values that an Add or an Update which returned normally has put in since, so that values that were removed or updated away still count. If it was emptied in between, or was empty in the first, Min and Max are exactly the least and the greatest of the values put in since the last time that it was empty: contrary to the documentation of Update and Remove they are then not the all-time Min and Max.", "quantifier": "For all runs of the whole library with any number of goroutines in all interleavings, all worlds, both encodings, both kinds of distributions, all bucketers, fewer than 2^64 steps.", "why_tests_cant": "The claim is about every history of calls by any number of goroutines between two answers, and about the moments in those requests at which the distribution is read.", "anchors": ["go/tricorder/metric.go:add", "go/tricorder/metric.go:update", "go/tricorder/metric.go:remove", "go/tricorder/metric.go:Snapshot", "go/tricorder/api.go:Update", "go/tricorder/api.go:Remove", "go/tricorder/api.go:UpdateMinMax", "go/tricorder/rpc.go:ListMetrics"]}
{"id": "C109", "title": "Pages for people are complete, in order and true while everything else runs", "statement": "Let a text page or an HTML page be requested while other goroutines register, unregister, record and change variables and update functions run, and let it end without an error. The text page of a directory has one line per metric; the paths are strictly ascending and lie under the requested one; each metric was found under its path during the request, and what its line says (the value, the snapshot of the distribution, the elements of the list) was true at one moment during the request; a metric that is registered at one path all the time has its line unless it is found infinite or NaN. The HTML page of a directory has exactly the entries that the directory had at one moment during the request, sorted by name: a link with the path for a directory and, for a metric, under its path, what was true at a moment during the request. The page of a single metric says what was true of the metric found at the path. A page that says that the path does not exist is shown only if no metric was registered at or under the path all the time.", "quantifier": "all runs of the whole library with any number of goroutines, any interleaving, any update functions, all paths, writers, formats and registered metrics", "why_tests_cant": "A test fixes one interleaving of a page with registrations, removals and updates; the claim is about every interleaving, of any length, with trees of any size.", "anchors": ["go/tricorder/html.go:textEmitDirectoryOrMetric", "go/tricorder/html.go:textEmitMetric", "go/tricorder/html.go:htmlEmitDirectoryOrMetric", "go/tricorder/metric.go:GetAllMetrics", "go/tricorder/metric.go:List"]}
{"id": "C110", "title": "The whole library behaves as if its methods were atomic", "statement": "Let any number of goroutines call the library, the event loops of the groups run and the update functions call methods, where every method of a directory, distribution or list waits for its lock and reads and writes its fields one by one while everybody else goes on. Then there is a run of the library in which every method is one step and which has the same effects, rendezvous with event loops and new requests in the same order, the same state of all groups and the same answers; the memory is the same except for the fields of objects that somebody is writing at this moment. Conversely every run with atomic methods that may be called at their moment is one with critical sections. In every state all methods that have been called can return, without a new call and without a step of an event loop, so locks and groups cannot block each other.", "quantifier": "all runs of the whole library with critical sections at the granularity of single field accesses, any number of goroutines, groups, distributions, directories and lists, any update functions, any interleaving", "why_tests_cant": "The scheduler decides between which two field accesses another goroutine or an event loop runs; a test, also with the race detector, sees a few of the interleavings and cannot show that all of them are equivalent to runs with atomic methods.", "anchors": ["go/tricorder/metric.go:handleRequests", "go/tricorder/metric.go:RLock", "go/tricorder/metric.go:RUnlock", "go/tricorder/metric.go:Snapshot", "go/tricorder/metric.go:Add", "go/tricorder/metric.go:getListEntry", "go/tricorder/api.go:NewGroup"]}
{"id": "C111", "title": "A text page is read from top to bottom, also when it breaks off", "statement": "Let a text page be requested while other goroutines and the update functions do anything, and let the connection fail or a callback panic at any point. If the path is that of a directory, what is written consists of complete lines and at most one incomplete one at the end. There are moments during the request, one for each complete line and in the order of the lines, at which what the line says about its metric was true, so a line is never older than a line above it. The incomplete last line is the path of a registered metric, possibly with what was true of it during the request, as far as the connection took it. A page without an error has no incomplete line. For the path of a single metric the page is what was true of that metric during the request as far as the connection took it, and the error is the one of the connection, unless nothing is written because of a panic.", "quantifier": "all runs of the whole library, any number of goroutines, groups and metrics, any update functions, any writer and any point of failure, any requested path", "why_tests_cant": "The page depends on when each registration, write and update of other goroutines falls between two reads of the walk and on the write at which the connection fails; a test cannot fix these moments, and usually writes to a buffer that never fails.", "anchors": ["go/tricorder/html.go:textEmitDirectoryOrMetric", "go/tricorder/html.go:textEmitMetric", "go/tricorder/metric.go:GetAllMetrics"]}
{"id": "C112", "title": "An HTML page is read from top to bottom, also when it breaks off", "statement": "Let an HTML page be requested while other goroutines and the update functions do anything, and let the connection fail or a callback panic at any point. If the path is that of a directory and the head of the page can be written, the items on the page are those of the first entries, sorted by name, that the directory had at one moment of the request. There are intervals of the request after that moment, one for each item and one after the other, in which what the item says was true, so an item is never older than an item above it. Either every entry has its item and the foot follows, with the error of the connection if there is one; or the page ends with an error at the next entry, of which it shows nothing, something that was true, or only what comes before the value. For the path of a single metric the page is head, what was true of that metric, and foot, as far as the connection took it, or it ends with an error before the value.", "quantifier": "all runs of the whole library, any number of goroutines, groups and metrics, any update functions, any writer and any point of failure, any requested path", "why_tests_cant": "The page depends on when registrations, writes and updates of other goroutines fall between two reads of the template and on the write at which the connection fails; a test cannot fix these moments, and usually writes to a buffer that never fails.", "anchors": ["go/tricorder/html.go:htmlEmitDirectoryOrMetric", "go/tricorder/html.go:htmlEmitDirectory", "go/tricorder/html.go:htmlEmitMetric", "go/tricorder/metric.go:List"]}
{"id": "C113", "title": "A counter never appears to fall on text pages", "statement": "Let a counter be a variable or a function whose integer never falls, registered at one or more paths. On one text page of a directory, also one that breaks off, the lower of two complete lines of the counter does not show a smaller number than the upper one, although the counter may be changed while the page is made. If the text page of the counter is asked for, and after its end the text page of the same counter, at the same or another path, then both pages are an integer in decimal, as far as the connections take them, the second is not smaller than the first, and what the counter gives at any moment in between lies between the two. The only other outcome is that the making of a page panics and writes nothing.", "quantifier": "all runs of the whole library, any number of goroutines, groups and metrics, any update functions, any integer type, any writers, any moments at which the counter is changed", "why_tests_cant": "Whether the second number can be smaller depends on the order of the reads of the page relative to the changes of the counter, which the scheduler decides; a test sees some orders only.", "anchors": ["go/tricorder/html.go:textEmitDirectoryOrMetric", "go/tricorder/html.go:textEmitMetric", "go/tricorder/metric.go:AsTextString", "go/tricorder/metric.go:valueToTextString"]}
{"id": "C114", "title": "A counter never appears to fall on HTML pages", "statement": "Let a counter be a variable or a function whose integer never falls, registered at one or more paths with any units. On one HTML page, also one that breaks off, of two complete items of the counter the lower one stands for an integer that is not smaller than that of the upper one, although the counter may be changed while the page is made, and both are integers that the counter gave during the request. If an HTML page is asked for, and after its end another one, of the same path or of any other, then every item of the counter on the second page stands for an integer that is not smaller than that of any item of the counter on the first page. An integer without unit is in decimal with commas; with a unit it is in the short form, which is rounded; if both items have the same unit, the numbers that the short forms stand for do not fall either.", "quantifier": "all runs of the whole library, any number of goroutines, groups and metrics, any update functions, any integer type, any unit, any writers, any moments at which the counter is changed", "why_tests_cant": "Whether the second number can be smaller depends on the order of the reads of the page relative to the changes of the counter, which the scheduler decides; a test sees some orders only.", "anchors": ["go/tricorder/html.go:htmlEmitDirectoryOrMetric", "go/tricorder/html.go:htmlEmitMetric", "go/tricorder/metric.go:AsHtmlString", "go/tricorder/metric.go:valueToHtmlString"]}
{"id": "C115", "title": "The short forms of integers keep the order", "statement": "On HTML pages an integer with a unit is shown in a short form such as 1.50 MiB or 12.3 million. A short form stands for exactly one number, its numeral times the power of 1024 or 1000 that its suffix names. Of two integers with the same unit, of the same type or of different types, the greater one is never shown as a form that stands for a smaller number, although the value is rounded to floating point, divided in several rounded steps and rounded to three digits.", "quantifier": "all pairs of integers of all integer types, every unit other than none", "why_tests_cant": "There are 2^128 pairs; the danger is at the places where the number of decimals, the suffix or the floating point rounding changes, and a test can only try some of them.", "anchors": ["go/tricorder/metric.go:iCompactForm", "go/tricorder/metric.go:uCompactForm", "go/tricorder/metric.go:valueToHtmlString"]}
{"id": "C116", "title": "Readable durations keep the order", "statement": "PrettyFormat shows a non-negative duration in a form such as 123\u03bcs, 1.500s, 59m 59.999s or 1d 3h 46m 40s. Such a text stands for exactly one length of time. Of two non-negative durations the longer one is never shown as a text that stands for less time, also where the form changes, and no text stands for more time than the duration has. It stands for less than a second and at most a tenth less, so two durations with the same text differ by less than a second. The order is kept also for durations on HTML pages.", "quantifier": "all pairs of non-negative durations whose parts have the same sign; on HTML pages all pairs of non-negative time.Duration values, every unit", "why_tests_cant": "The range of seconds is that of int64; a test tries some pairs and can miss the ones at the places where the form and what is cut off change.", "anchors": ["go/tricorder/duration/api.go:PrettyFormat", "go/tricorder/duration/duration.go:prettyFormat", "go/tricorder/metric.go:valueToHtmlString"]}
{"id": "C117", "title": "A running total of time never appears to fall on HTML pages", "statement": "Let a running total be a variable or a function whose time.Duration never falls, such as the CPU time used, registered at one or more paths with any units. On one HTML page, also one that breaks off, of two complete items of the total the lower one shows a time that is not shorter than that of the upper one, although the total may be changed while the page is made, and both are times that the total gave during the request. If an HTML page is asked for, and after its end another one, of the same path or of any other, then no item of the total on the second page shows a shorter time than an item of the total on the first page. A time is shown in the readable form, which cuts something off, or in decimal if it is negative; if the times are not negative, the times that the texts stand for do not fall either.", "quantifier": "all runs of the whole library, any number of goroutines, groups and metrics, any update functions, any unit, any writers, any moments at which the total is changed", "why_tests_cant": "Whether the second time can be shorter depends on the order of the reads of the page relative to the changes of the total, which the scheduler decides, and on the places where the form of the text changes; a test sees some of them only.", "anchors": ["go/tricorder/html.go:htmlEmitDirectoryOrMetric", "go/tricorder/html.go:htmlEmitMetric", "go/tricorder/metric.go:AsHtmlString", "go/tricorder/metric.go:valueToHtmlString", "go/tricorder/duration/duration.go:prettyFormat"]}
{"id": "C118", "title": "A running total of time never appears to fall on text pages", "statement": "Let a running total be a variable or a function whose time.Duration never falls, registered at one or more paths with any units. On one text page of a directory, also one that breaks off, the lower of two complete lines of the total does not show a shorter time than the upper one, although the total may be changed while the page is made. If the text page of the total is asked for, and after its end the text page of the same total, at the same or another path, then both pages are a time in decimal with nine decimals, exact in the unit of the metric, as far as the connections take them, the second time is not shorter than the first, and what the total gives at any moment in between lies between the two. The only other outcome is that the making of a page panics and writes nothing.", "quantifier": "all runs of the whole library, any number of goroutines, groups and metrics, any update functions, any units, any writers, any moments at which the total is changed", "why_tests_cant": "Whether the second time can be shorter depends on the order of the reads of the page relative to the changes of the total, which the scheduler decides; a test sees some orders only.", "anchors": ["go/tricorder/html.go:textEmitDirectoryOrMetric", "go/tricorder/html.go:textEmitMetric", "go/tricorder/metric.go:AsTextString", "go/tricorder/metric.go:valueToTextString", "go/tricorder/duration/api.go:StringUsingUnits"]}
