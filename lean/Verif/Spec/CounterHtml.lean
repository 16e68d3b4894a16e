import Verif.Spec.CounterPage
import Verif.Spec.HtmlOrder
import Verif.Spec.ShortOrder
import Verif.Spec.Listing
/-!
# Counters on HTML pages
-/

namespace Tricorder.Whole
open Go _root_.Spec Tricorder.Spec

/-- `y` shows the integer `x`, which has the unit `u`: without unit in decimal with commas, otherwise in the short form -/
def ShowsNumber (u : MUnit) (x : ℤ) (y : Str) : Prop :=
  if u = .none then ∃ ds g, DenotesInt ((if x < 0 then [45] else []) ++ ds) x ∧ Grouped 44 3 ds g ∧ y = (if x < 0 then [45] else []) ++ g
  else Compact y x (radixFor u) (u = .bytePerSecond)

/-- `cs` is an item of an HTML page which shows the integer `x` for metric `m` -/
def ItemOf (T : Tree MValue) (m : ℕ) (x : ℤ) (cs : List Str) : Prop :=
  ∃ mv y, metricView T m = some mv ∧ ShowsNumber mv.value.unit x y ∧ cs = PageItem.html (.scalar mv y)

/-- In two items, each with its entry, if they are of metrics that show the counter `sc`, the second number is not smaller than the
first.  If both have the same unit, this also holds of the numbers that the short forms stand for. -/
def ItemsNotFalling (T T' : Tree MValue) (sc : Src) (k : IntKind) (u v : (Str × Node) × List Str) : Prop :=
  ∀ m n, u.1.2 = .metric m → v.1.2 = .metric n → CounterIs T m sc k → CounterIs T' n sc k →
    ∃ mv mv' y y' i j, metricView T m = some mv ∧ metricView T' n = some mv' ∧ u.2 = PageItem.html (.scalar mv y) ∧
      v.2 = PageItem.html (.scalar mv' y') ∧ ShowsNumber mv.value.unit i y ∧ ShowsNumber mv'.value.unit j y' ∧ i ≤ j ∧
      (mv.value.unit = mv'.value.unit → mv.value.unit ≠ .none →
        ∃ r r', FormOf (radixFor mv.value.unit) (mv.value.unit = .bytePerSecond) y r ∧
          FormOf (radixFor mv.value.unit) (mv.value.unit = .bytePerSecond) y' r' ∧ r ≤ r')

/-- what the page tries to write last if it breaks off: nothing, or an item, or the item of a metric without its value -/
def LastPart (w : World) (fm : Fmts) (S : State → Prop) (cs : List Str) : Prop :=
  cs = [] ∨ (∃ p, cs = PageItem.html (.link p)) ∨ (∃ mv, HtmlTells w fm S mv cs) ∨ ∃ mv, HtmlLead S mv cs

/-- The HTML page of the path with components `q`, made in states among `S`: after the head come the complete items `U`, each with the
entry that it belongs to, and then either the foot or, if the page has an error, the last part.  `x0` is the writer at the beginning, `x1` at
the end.  A directory has an item for each entry that it had at one moment, a metric has one item. -/
inductive HtmlPage {W : Type} (w : World) (fm : Fmts) (wr : Writer W) (S : State → Prop) (q : List Str) (x0 x1 : W) (st : Status) :
    List ((Str × Node) × List Str) → Prop where
  | head : (wr.all x0 [pageHead]).1 = x1 → (wr.all x0 [pageHead]).2 ≠ .ok → st ≠ .ok → HtmlPage w fm wr S q x0 x1 st []
  | dir {d σ R U x2} : SeenDir S 0 q d → S σ → Entries σ.tree d R → wr.all x0 (pageHead :: U.flatMap Prod.snd) = (x2, .ok) →
      ((U.map Prod.fst = R ∧ wr.all x2 [pageFoot] = (x1, st)) ∨
        (st ≠ .ok ∧ ∃ y cs, U.map Prod.fst ++ [y] <+: R ∧ LastPart w fm S cs ∧ (wr.all x2 cs).1 = x1)) →
      HtmlPage w fm wr S q x0 x1 st U
  | metric {m U x2} : Seen S 0 q m → wr.all x0 (pageHead :: U.flatMap Prod.snd) = (x2, .ok) →
      (((∃ name, U.map Prod.fst = [(name, .metric m)]) ∧ wr.all x2 [pageFoot] = (x1, st)) ∨
        (st ≠ .ok ∧ U = [] ∧ ∃ cs, LastPart w fm S cs ∧ (wr.all x2 cs).1 = x1)) →
      HtmlPage w fm wr S q x0 x1 st U

end Tricorder.Whole
