import Verif.Spec.Text
/-!
# How a script reads the text page

Line by line; in each line, the path is what comes before the first space, see `/repo/go/tricorder/doc.go:39-46`.
-/

namespace Tricorder.Spec
open Go _root_.Spec

/-- `page` consists of these lines, each with its newline -/
def Lines (page : Str) (ls : List Str) : Prop := page = (ls.map (· ++ [10])).flatten ∧ ∀ l ∈ ls, (10 : UInt8) ∉ l

/-- what is before and after the first space -/
def Cut (l p t : Str) : Prop := l = p ++ [32] ++ t ∧ (32 : UInt8) ∉ p

/-- a script reads `page` as these pairs of a path and a text -/
def ReadAs (page : Str) (es : List (Str × Str)) : Prop := ∃ ls, Lines page ls ∧ List.Forall₂ (fun l e => Cut l e.1 e.2) ls es

/-- the values of a metric other than a distribution -/
def shownBases (y : Metric) : List Base :=
  match y.value with
  | .scalar _ b => [b]
  | .slice _ _ es => es.getD []
  | _ => []

/-- no newline in the value, and no time in the far future or past -/
def PlainBase : Base → Prop
  | .string x => (10 : UInt8) ∉ x
  | .time x => TimeRange x
  | _ => True

/-- no space and no newline in the path, no newline in a value -/
def PlainMetric (y : Metric) : Prop := (32 : UInt8) ∉ y.path ∧ (10 : UInt8) ∉ y.path ∧ ∀ b ∈ shownBases y, PlainBase b

/-- the texts of floating point numbers, as Go's library writes them, are not empty and have no newline, no bar, no comma, no
semicolon and no parenthesis -/
def PlainFmts (fm : Fmts) : Prop :=
  ∀ x, fm.f32 x ≠ [] ∧ fm.f64 x ≠ [] ∧ ∀ c ∈ [10, 41, 44, 59, 124], (c : UInt8) ∉ fm.f32 x ∧ c ∉ fm.f64 x

/-- two values of the same Go type that look the same as numbers, strings, instants -/
def SameShown (fm : Fmts) : Base → Base → Prop
  | .bool b, .bool b' => b = b'
  | .int _ x, .int _ x' => x = x'
  | .float32 x, .float32 x' => fm.f32 x = fm.f32 x'
  | .float64 x, .float64 x' => fm.f64 x = fm.f64 x'
  | .string x, .string x' => x = x'
  | .time x, .time x' => reportedNs x = reportedNs x'
  | .duration d, .duration d' => d = d'
  | _, _ => False

/-- a string without the bar that separates list elements -/
def NoBar : Base → Prop
  | .string x => (124 : UInt8) ∉ x
  | _ => True

/-- the ranges of a distribution that are not empty, from range number `i` of `n` ranges on: bounds as texts, and counts -/
def shownRanges (fm : Fmts) (n : ℕ) : ℕ → List RangeMsg → List (Str × Str × ℕ)
  | _, [] => []
  | i, r :: rs =>
    if r.count = 0 then shownRanges fm n (i + 1) rs
    else (if i = 0 then lit "-inf" else fm.f32 r.lower, if i + 1 = n then lit "inf" else fm.f32 r.upper, r.count) ::
      shownRanges fm n (i + 1) rs

/-- two distributions that agree in what is shown -/
def SameDist (fm : Fmts) (d d' : DistMsg) : Prop :=
  fm.f32 d.min = fm.f32 d'.min ∧ fm.f32 d.max = fm.f32 d'.max ∧ fm.f32 d.average = fm.f32 d'.average ∧
    fm.f32 d.median = fm.f32 d'.median ∧ fm.f32 d.sum = fm.f32 d'.sum ∧ d.count = d'.count ∧
    shownRanges fm d.ranges.length 0 d.ranges = shownRanges fm d'.ranges.length 0 d'.ranges

/-- two metrics of the same types, and with the same unit -/
def SameTypes (y y' : Metric) : Prop :=
  y.kind = y'.kind ∧ y.subType = y'.subType ∧ y.unit = y'.unit ∧
    match y.value, y'.value with
    | .scalar _ b, .scalar _ b' => b.ty = b'.ty
    | .slice _ _ es, .slice _ _ es' => ∀ b ∈ es.getD [], ∀ b' ∈ es'.getD [], b.ty = b'.ty
    | .dist _, .dist _ => True
    | _, _ => False

/-- two metrics with the same value, as far as it is shown -/
def SameValue (fm : Fmts) (y y' : Metric) : Prop :=
  match y.value, y'.value with
  | .scalar _ b, .scalar _ b' => SameShown fm b b'
  | .slice _ _ es, .slice _ _ es' => List.Forall₂ (SameShown fm) (es.getD []) (es'.getD [])
  | .dist (some d), .dist (some d') => SameDist fm d d'
  | _, _ => False

end Tricorder.Spec
