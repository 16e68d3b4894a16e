import Verif.Spec.PageRun
/-!
# What the pages for people say of a metric while everything else runs
-/

namespace Tricorder.Whole
open Go Spec

/-- `cs` is what the text page says of metric `mv`, and it was true in one of the states `S`: for a distribution the snapshot, for a
list its elements, rendered one by one, otherwise the value of the source, rendered -/
inductive TextTells (w : World) (fm : Fmts) (S : State → Prop) (mv : MetricView) (cs : List Str) : Prop where
  | dist {i d sn σ} : mv.value.valType = .dist → mv.value.dist = some i → S σ → σ.dists[i]? = some d →
      d.snapshot = some sn → cs = distText fm sn → TextTells w fm S mv cs
  | list {i lv xs σ} : mv.value.valType = .list → mv.value.alist = some i → S σ → listView σ i = some lv →
      List.Forall₂ (fun d x => valueToTextString fm d lv.subType mv.value.unit false = some x) (elemsOf lv.val) xs →
      cs = [List.intercalate (lit "|") xs ++ lit "\n"] → TextTells w fm S mv cs
  | scalar {sc d x σ} : Scalar mv → mv.value.src = some sc → S σ → current w σ sc = some d →
      textConv fm mv.value d = some x → cs = [x ++ lit "\n"] → TextTells w fm S mv cs

/-- the line of a metric at path `p` -/
def textLine (p : List Str) (cs : List Str) : List Str := (lit "/" ++ List.intercalate (lit "/") p ++ lit " ") :: cs

/-- `cs` is what the HTML page says of metric `mv`, in states among `S`: for a distribution the snapshot, for a list the type of its
elements at one moment and the elements at one moment, otherwise the value of the source, rendered -/
inductive HtmlTells (w : World) (fm : Fmts) (S : State → Prop) (mv : MetricView) (cs : List Str) : Prop where
  | dist {i d sn σ} : mv.value.valType = .dist → mv.value.dist = some i → S σ → σ.dists[i]? = some d →
      d.snapshot = some sn →
      cs = PageItem.html (.other mv ([lit " <span class=\"parens\">(distribution: ", esc mv.description] ++ unitPart mv.value.unit ++
        [lit ")</span><br>\n"] ++ htmlSnapshot fm sn)) → HtmlTells w fm S mv cs
  | list {i lv lv' xs σ σ'} : mv.value.valType = .list → mv.value.alist = some i → S σ → listView σ i = some lv →
      S σ' → listView σ' i = some lv' →
      List.Forall₂ (fun d x => valueToHtmlString fm d lv'.subType mv.value.unit false = some x) (elemsOf lv'.val) xs →
      cs = PageItem.html (.other mv ([lit " <span class=\"parens\">(list of ", esc (htmlType lv.subType).name, lit ": ",
        esc mv.description] ++ unitPart mv.value.unit ++ [lit ")</span>\n      <ul>\n"] ++
        (xs.flatMap (fun e => [lit "        <li>", esc e, lit "</li>\n"]) ++ [lit "      </ul>\n"]))) → HtmlTells w fm S mv cs
  | scalar {sc d x σ} : Scalar mv → mv.value.src = some sc → S σ → current w σ sc = some d →
      htmlConv fm mv.value d = some x → cs = PageItem.html (.scalar mv x) → HtmlTells w fm S mv cs

/-- what the page of the directory with path `q` says of its entry `name` -/
def HtmlRow (w : World) (fm : Fmts) (S : State → Prop) (q : List Str) (name : Str) : Node → List Str → Prop
  | .dir _, cs => cs = PageItem.html (.link (lit "/" ++ List.intercalate (lit "/") (q ++ [name])))
  | .metric m, cs => ∃ mv, (∃ σ, S σ ∧ metricView σ.tree m = some mv) ∧
      mv.path = lit "/" ++ List.intercalate (lit "/") (q ++ [name]) ∧ HtmlTells w fm S mv cs

end Tricorder.Whole
