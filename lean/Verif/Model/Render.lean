import Verif.Model.Sys
/-!
# Reading and rendering a scalar

Models the conversions of a `reflect.Value` in `/repo/go/tricorder/metric.go`.  `none` is a panic.
-/

namespace Tricorder
open Go

/-- Formatting done by the Go standard library that is not modelled: `strconv.FormatFloat` with
format `'f'` and precision -1 for 32 and 64 bits, `time.Time.Format` with the layout of
`/repo/go/tricorder/metric.go:1338`, `reflect.Value.String` of something that is not a string, and `fmt.Sprint` of a number
converted to `float32` (used by `html/template`). -/
structure Fmts where
  f32 : Fl → Str
  f64 : Fl → Str
  time : Time → Str
  notString : Dyn → Str
  v32 : Fl → Str

/-- `reflect.Value.Int()`; a `time.Duration` has kind `int64`; used by
`/repo/go/tricorder/metric.go:974-979,1022-1024,1057-1086` -/
def Dyn.int : Dyn → Option ℤ
  | .scalar _ (.int k x) => if k.signed then some x else none
  | .scalar _ (.duration d) => some d
  | _ => none

/-- `reflect.Value.Uint()`; used by `/repo/go/tricorder/metric.go:981-986` -/
def Dyn.uint : Dyn → Option ℕ
  | .scalar _ (.int k x) => if k.signed then none else some x.toNat
  | _ => none

/-- `reflect.Value.Float()`; the conversion from `float32` is exact; used by `/repo/go/tricorder/metric.go:996-1001`
-/
def Dyn.float : Dyn → Option Fl
  | .scalar _ (.float32 x) => some x
  | .scalar _ (.float64 x) => some x
  | _ => none

/-- `reflect.Value.Bool()`; used by `/repo/go/tricorder/metric.go:967-972` -/
def Dyn.bool : Dyn → Option Bool
  | .scalar _ (.bool b) => some b
  | _ => none

/-- `reflect.Value.String()`, which does not panic on other kinds except on the zero `Value`, where it gives "<invalid
Value>"; used by `/repo/go/tricorder/metric.go:1003-1008` -/
def Dyn.string (fm : Fmts) : Dyn → Str
  | .scalar _ (.string s) => s
  | d => fm.notString d

/-- `reflect.Value.Interface()`; used by `/repo/go/tricorder/metric.go:1057-1086` -/
def Dyn.interface : Dyn → Option Val
  | .scalar n b => some (.scalar n b)
  | .timePtr _ => some (.other 0)
  | .other id => some (.other id)
  | .invalid => none

/-- `valueToTime`, `/repo/go/tricorder/metric.go:1010-1020` -/
def valueToTime (d : Dyn) (isPtr : Bool) : Option Time :=
  if isPtr then match d with
    | .timePtr none => some Time.zero
    | .timePtr (some t) => some t
    | _ => none
  else match d with
    | .scalar none (.time t) => some t
    | _ => none

/-- `valueToGoDuration`, `/repo/go/tricorder/metric.go:1022-1024` -/
def valueToGoDuration (d : Dyn) : Option ℤ := d.int

/-- `timeToDuration`, `/repo/go/tricorder/metric.go:1026-1031` -/
def timeToDuration (t : Time) : Dur := if t.isZero then ⟨0, 0⟩ else Dur.sinceEpoch t

/-- `valueToInterface`, `/repo/go/tricorder/metric.go:1057-1086` -/
def valueToInterface (d : Dyn) (t : Ty) (isPtr : Bool) : Option Val :=
  if t = .int32 ∧ !isPtr then d.int.map fun x => .scalar none (.int .int32 (i32 x))
  else if t = .int64 ∧ !isPtr then d.int.map fun x => .scalar none (.int .int64 (i64 x))
  else if t = .uint32 ∧ !isPtr then
    d.uint.map fun x => .scalar none (.int .uint32 ((x % 4294967296 : ℕ) : ℤ))
  else if t = .uint64 ∧ !isPtr then d.uint.map fun x => .scalar none (.int .uint64 (u64 x : ℕ))
  else if t = .goTime then (valueToTime d isPtr).map fun x => .scalar none (.time x)
  else if t = .goDuration then (valueToGoDuration d).map fun x => .scalar none (.duration x)
  else if !isPtr then d.interface
  else none

/-- first index of a digit; `/repo/go/tricorder/metric.go:1180-1204` -/
def digitIndex : Str → Option ℕ
  | [] => none
  | b :: bs => if isDigit b then some 0 else (digitIndex bs).map (· + 1)

/-- first index of a byte that is no digit; `/repo/go/tricorder/metric.go:1180-1204` -/
def nonDigitIndex : Str → Option ℕ
  | [] => none
  | b :: bs => if isDigit b then (nonDigitIndex bs).map (· + 1) else some 0

/-- the loop over the digits, `/repo/go/tricorder/metric.go:1195-1201`: `i` is the position of the
head, `dlen` the number of digits -/
def sepLoop (separator : UInt8) (between dlen : ℕ) : ℕ → Str → Str
  | _, [] => []
  | i, dig :: rest =>
    let digitsLeft := dlen - i
    if i > 0 ∧ digitsLeft % between = 0 then
      separator :: dig :: sepLoop separator between dlen (i + 1) rest
    else dig :: sepLoop separator between dlen (i + 1) rest

/-- `addSeparators`, `/repo/go/tricorder/metric.go:1180-1204`, for an ASCII separator.  Searching for
ASCII digits rune by rune and byte by byte is the same.  `none`: the string has no digit and
`s[-1:]` panics. -/
def addSeparators (orig : Str) (separator : UInt8) (between : ℕ) : Option Str :=
  match digitIndex orig with
  | none => none
  | some start =>
    let stop := match nonDigitIndex (orig.drop start) with
      | none => orig.length
      | some n => n + start
    let digits := (orig.drop start).take (stop - start)
    some (orig.take start ++ sepLoop separator between digits.length 0 digits ++ orig.drop stop)

/-- `valueToTextString`, `/repo/go/tricorder/metric.go:1206-1237` -/
def valueToTextString (fm : Fmts) (d : Dyn) (t : Ty) (u : MUnit) (isPtr : Bool) : Option Str :=
  if t = .bool then d.bool.map fun b => if b then lit "true" else lit "false"
  else if t.isInt ∧ !isPtr then d.int.map fmtInt
  else if t.isUint ∧ !isPtr then d.uint.map fmtNat
  else if t = .float32 ∧ !isPtr then d.float.map fm.f32
  else if t = .float64 ∧ !isPtr then d.float.map fm.f64
  else if t = .string ∧ !isPtr then some (34 :: d.string fm ++ [34])
  else if t = .goTime then
    (valueToTime d isPtr).map fun x => (timeToDuration x).stringUsingUnits u
  else if t = .goDuration ∧ !isPtr then
    (valueToGoDuration d).map fun x => (Dur.new x).stringUsingUnits u
  else none

/-- `suffixes`, `byteSuffixes`, `bytePerSecondSuffixes`, `/repo/go/tricorder/metric.go:57-66` -/
def suffixes : List Str :=
  [lit " thousand", lit " million", lit " billion", lit " trillion", lit "K trillion",
   lit "M trillion"]
/-- `/repo/go/tricorder/metric.go:61-62` -/
def byteSuffixes : List Str :=
  [lit " KiB", lit " MiB", lit " GiB", lit " TiB", lit " PiB", lit " EiB"]
/-- `/repo/go/tricorder/metric.go:63-64` -/
def bytePerSecondSuffixes : List Str :=
  [lit " KiB/s", lit " MiB/s", lit " GiB/s", lit " TiB/s", lit " PiB/s", lit " EiB/s"]

/-- `fmt.Sprintf("%.nf", x)` for a finite `x`: the exact value rounded to `n` decimals, ties to even; used by
`/repo/go/tricorder/metric.go:1262-1269` -/
def fmtFixed (n : ℕ) (x : Fl) : Str :=
  match x with
  | .fin q =>
    let m := (rne (|q| * 10 ^ n)).toNat
    let body := fmtNat (m / 10 ^ n) ++ (if n = 0 then [] else 46 :: zeroPad n (fmtNat (m % 10 ^ n)))
    if q < 0 then 45 :: body else body
  | .negZero => 45 :: (fmtNat 0 ++ (if n = 0 then [] else 46 :: zeroPad n (fmtNat 0)))
  | .nan => lit "NaN"
  | .inf neg => if neg then lit "-Inf" else lit "+Inf"

/-- the constants of `iCompactForm`; `9.995`, `/repo/go/tricorder/metric.go:1263,1284` -/
def f9995 : Fl := rnd b64 (9995/1000)
/-- `99.95`, `/repo/go/tricorder/metric.go:1265,1286` -/
def f9995' : Fl := rnd b64 (9995/100)

/-- the scaling loop of `iCompactForm`, `/repo/go/tricorder/metric.go:1258-1261`: the scaled value
and how often it was divided; `none` when the fuel is used up -/
def scaleLoop (fradix : Fl) : ℕ → Fl → ℕ → Option (Fl × ℕ)
  | 0, _, _ => none
  | fuel + 1, fx, k =>
    if Fl.le fradix fx || Fl.le fx fradix.neg then
      scaleLoop fradix fuel (Fl.div b64 fx fradix) (k + 1)
    else some (fx, k)

/-- the output of `iCompactForm`, `/repo/go/tricorder/metric.go:1262-1269`; `k` divisions were done,
so the suffix index is `k - 1`; `none` is an index out of range panic -/
def showScaled (fx : Fl) (k : ℕ) (suffixes : List Str) : Option Str :=
  match k with
  | 0 => none
  | i + 1 => match suffixes[i]? with
    | none => none
    | some suf =>
      if Fl.lt f9995.neg fx && Fl.lt fx f9995 then some (fmtFixed 2 fx ++ suf)
      else if Fl.lt f9995'.neg fx && Fl.lt fx f9995' then some (fmtFixed 1 fx ++ suf)
      else some (fmtFixed 0 fx ++ suf)

/-- number of loop rounds allowed in the model; `C50` shows that it is never reached; for
`/repo/go/tricorder/metric.go:1258-1261` -/
def scaleFuel : ℕ := 100

/-- `iCompactForm`, `/repo/go/tricorder/metric.go:1251-1270` -/
def iCompactForm (x : ℤ) (radix : ℕ) (suffixes : List Str) : Option Str :=
  if x > -1 * (radix : ℤ) ∧ x < radix then some (fmtInt x)
  else match scaleLoop (Fl.ofInt b64 radix) scaleFuel (Fl.ofInt b64 x) 0 with
    | none => none
    | some (fx, k) => showScaled fx k suffixes

/-- the scaling loop of `uCompactForm`, `/repo/go/tricorder/metric.go:1279-1282` -/
def uScaleLoop (fradix : Fl) : ℕ → Fl → ℕ → Option (Fl × ℕ)
  | 0, _, _ => none
  | fuel + 1, fx, k =>
    if Fl.le fradix fx then uScaleLoop fradix fuel (Fl.div b64 fx fradix) (k + 1)
    else some (fx, k)

/-- the output of `uCompactForm`, `/repo/go/tricorder/metric.go:1283-1290` -/
def uShowScaled (fx : Fl) (k : ℕ) (suffixes : List Str) : Option Str :=
  match k with
  | 0 => none
  | i + 1 => match suffixes[i]? with
    | none => none
    | some suf =>
      if Fl.lt fx f9995 then some (fmtFixed 2 fx ++ suf)
      else if Fl.lt fx f9995' then some (fmtFixed 1 fx ++ suf)
      else some (fmtFixed 0 fx ++ suf)

/-- `uCompactForm`, `/repo/go/tricorder/metric.go:1272-1291` -/
def uCompactForm (x : ℕ) (radix : ℕ) (suffixes : List Str) : Option Str :=
  if x < radix then some (fmtNat x)
  else match uScaleLoop (Fl.ofInt b64 radix) scaleFuel (Fl.ofInt b64 x) 0 with
    | none => none
    | some (fx, k) => uShowScaled fx k suffixes

/-- `valueToHtmlString`, `/repo/go/tricorder/metric.go:1293-1342` -/
def valueToHtmlString (fm : Fmts) (d : Dyn) (t : Ty) (u : MUnit) (isPtr : Bool) : Option Str :=
  if t.isInt ∧ !isPtr then
    match u with
    | .byte => d.int.bind fun x => iCompactForm x 1024 byteSuffixes
    | .bytePerSecond => d.int.bind fun x => iCompactForm x 1024 bytePerSecondSuffixes
    | .none => (valueToTextString fm d t u isPtr).bind fun s => addSeparators s 44 3
    | _ => d.int.bind fun x => iCompactForm x 1000 suffixes
  else if t.isUint ∧ !isPtr then
    match u with
    | .byte => d.uint.bind fun x => uCompactForm x 1024 byteSuffixes
    | .bytePerSecond => d.uint.bind fun x => uCompactForm x 1024 bytePerSecondSuffixes
    | .none => (valueToTextString fm d t u isPtr).bind fun s => addSeparators s 44 3
    | _ => d.uint.bind fun x => uCompactForm x 1000 suffixes
  else if t = .goDuration ∧ !isPtr then
    (valueToGoDuration d).bind fun x =>
      if (Dur.new x).isNegative then valueToTextString fm d t u isPtr else (Dur.new x).prettyFormat
  else if t = .goTime then (valueToTime d isPtr).map fm.time
  else valueToTextString fm d t u isPtr

end Tricorder
