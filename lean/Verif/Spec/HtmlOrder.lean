import Verif.Spec.PageWhole
/-!
# The order in which an HTML page is read, and pages that break off
-/

namespace Tricorder.Whole
open Go Spec

variable {A : Type}

/-- the states before the steps `i`, …, `j` of `b` -/
def MomentsIn (b : List (Item A)) (x : ℕ × ℕ) (σ : State) : Prop := ∃ k it, x.1 ≤ k ∧ k ≤ x.2 ∧ b[k]? = some it ∧ σ = it.pre

/-- what the page says of metric `mv` before it comes to the value -/
inductive HtmlLead (S : State → Prop) (mv : MetricView) (cs : List Str) : Prop where
  | dist : mv.value.valType = .dist →
      cs = PageItem.html (.other mv ([lit " <span class=\"parens\">(distribution: ", esc mv.description] ++ unitPart mv.value.unit ++
        [lit ")</span><br>\n"])) → HtmlLead S mv cs
  | noList : mv.value.valType = .list → mv.value.alist = none →
      cs = PageItem.html (.other mv [lit " <span class=\"parens\">(list of "]) → HtmlLead S mv cs
  | list {i lv σ} : mv.value.valType = .list → mv.value.alist = some i → S σ → listView σ i = some lv →
      cs = PageItem.html (.other mv ([lit " <span class=\"parens\">(list of ", esc (htmlType lv.subType).name, lit ": ",
        esc mv.description] ++ unitPart mv.value.unit ++ [lit ")</span>\n      <ul>\n"])) → HtmlLead S mv cs
  | scalar : Scalar mv → cs = PageItem.html (.other mv [lit " "]) → HtmlLead S mv cs

/-- what the page of the directory with path `q` tries to write of its entry `name` when it breaks off there: nothing, or all of the
item, or the item of a metric without its value -/
def HtmlLast (w : World) (fm : Fmts) (S : State → Prop) (q : List Str) (name : Str) (nd : Node) (cs : List Str) : Prop :=
  cs = [] ∨ HtmlRow w fm S q name nd cs ∨ ∃ m mv, nd = .metric m ∧ (∃ σ, S σ ∧ metricView σ.tree m = some mv) ∧
    mv.path = lit "/" ++ List.intercalate (lit "/") (q ++ [name]) ∧ HtmlLead S mv cs

/-- `R` are the entries of directory `d`, sorted by name -/
def Entries (t : Tree MValue) (d : ℕ) (R : List (Str × Node)) : Prop :=
  R.Pairwise (fun x y => x.1 < y.1) ∧ ∀ name nd, (name, nd) ∈ R ↔ Reaches t d [name] nd

end Tricorder.Whole
