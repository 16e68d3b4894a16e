import Verif.Spec.Kinds
import Verif.Spec.Messages
import Verif.Spec.Dist
/-!
# What the text page should show

`fm` is the formatting of floating point numbers by the Go library.
-/

namespace Tricorder.Spec
open Go _root_.Spec

/-- `s` is the text of a value that is reported with metric type `t` and unit `u` -/
def TextBase (fm : Fmts) (t : Ty) (u : MUnit) : Base → Str → Prop
  | .bool b, s => s = if b then lit "true" else lit "false"
  | .int _ x, s => DenotesInt s x
  | .float32 x, s => s = fm.f32 x
  | .float64 x, s => s = fm.f64 x
  | .string x, s => s = lit "\"" ++ x ++ lit "\""
  | .time x, s => TimeRange x → Denotes9 s (reportedNs x * perSecond u)
  | .duration d, s => if t = .goDuration then Denotes9 s (d * perSecond u) else DenotesInt s d

/-- the text of range number `i` of `n` ranges: nothing if it is empty; the first begins at `-inf`, the last ends
at `inf` -/
def TextRange (fm : Fmts) (n i : ℕ) (r : RangeMsg) (s : Str) : Prop :=
  if r.count = 0 then s = []
  else ∃ c, DenotesInt c r.count ∧
    s = lit ";[" ++ (if i = 0 then lit "-inf" else fm.f32 r.lower) ++ lit "," ++
      (if i + 1 = n then lit "inf" else fm.f32 r.upper) ++ lit "):" ++ c

/-- the text of a distribution -/
def TextDist (fm : Fmts) (d : DistMsg) (s : Str) : Prop :=
  ∃ (c : Str) (ranges : List Str), DenotesInt c d.count ∧ ranges.length = d.ranges.length ∧
    (∀ (i : ℕ) r x, d.ranges[i]? = some r → ranges[i]? = some x → TextRange fm d.ranges.length i r x) ∧
    s = lit "{min:" ++ fm.f32 d.min ++ lit ";max:" ++ fm.f32 d.max ++ lit ";avg:" ++ fm.f32 d.average ++
      lit ";median:" ++ fm.f32 d.median ++ lit ";sum:" ++ fm.f32 d.sum ++ lit ";count:" ++ c ++ ranges.flatten ++
      lit "}"

/-- the text of a metric, in terms of the RPC answer for this metric -/
def TextOf (fm : Fmts) (y : Metric) (s : Str) : Prop :=
  match y.value with
  | .scalar _ b => TextBase fm y.kind y.unit b s
  | .slice _ _ es => ∃ parts, List.Forall₂ (TextBase fm y.subType y.unit) (es.getD []) parts ∧
      s = List.intercalate (lit "|") parts
  | .dist (some d) => TextDist fm d s
  | _ => False

/-- the values in the program are values of their Go types -/
def DynOk : Dyn → Prop
  | .scalar _ b => b.Valid
  | .timePtr (some t) => t.Valid
  | _ => True

/-- the values that the sources of the metrics have now are values of their Go types -/
def SourcesOk (w : World) (s : State) : Prop :=
  ∀ m mv sc d, metricView s.tree m = some mv → mv.value.src = some sc → current w s sc = some d → DynOk d

/-- every distribution has the ranges of some endpoints -/
def DistsOk (s : State) : Prop :=
  ∀ (i : ℕ) (d : Dist Fl), s.dists[i]? = some d → ∃ l : List Fl, l ≠ [] ∧ ∀ i : ℕ, d.pieces[i]? = range l i

/-- the elements of all slices are values of their Go types -/
def SlicesOk (s : State) : Prop :=
  ∀ (i : ℕ) (c : Cell), s.mem[i]? = some c → ∀ t, c.elem = .scalar t → ElemsOk t c.data

/-- what is known about a program that follows Go's rules, and whose flags keep their types -/
structure Typed (w : World) (s : State) : Prop where
  grown : Grown w s
  sources : SourcesOk w s
  dists : DistsOk s
  slices : SlicesOk s
  flags : ∀ m mv, metricView s.tree m = some mv → FlagKeeps w (· = s) mv.value

end Tricorder.Spec
