import Verif.Spec.Call
import Verif.Model.Html
/-!
# What the pages for people show during a run
-/

namespace Tricorder.Whole
open Go Spec

variable {A : Type}

/-- what stands on a page: a link to a directory, a scalar with its rendered value, or another metric (a distribution or a list)
with what follows its path -/
inductive PageItem where
  | link (p : Str)
  | scalar (mv : MetricView) (x : Str)
  | other (mv : MetricView) (cs : List Str)

/-- the item on the HTML page -/
def PageItem.html : PageItem → List Str
  | .link p => [lit "        <a href=\"", esc (urlNorm (lit "/metrics" ++ p)), lit "\">", esc p, lit "</a><br>\n"]
  | .scalar mv x => [lit "      ", esc mv.path, lit " ", esc x, lit " <span class=\"parens\">(", esc (htmlType mv.value.valType).name,
      lit ": ", esc mv.description] ++ unitPart mv.value.unit ++ [lit ")</span><br>\n"]
  | .other mv cs => lit "      " :: esc mv.path :: cs

/-- the item on the text page, which has no links -/
def PageItem.text : PageItem → List Str
  | .link _ => []
  | .scalar mv x => [mv.path ++ lit " ", x ++ lit "\n"]
  | .other mv cs => (mv.path ++ lit " ") :: cs

/-- the scalars on a page -/
def scalars (items : List PageItem) : List (MetricView × Str) :=
  items.filterMap fun i => match i with
    | .scalar mv x => some (mv, x)
    | _ => none

/-- goroutine `c` saw the metric `mv` during the run `tr` -/
def Viewed (c : ℕ) (tr : List (Item A)) (mv : MetricView) : Prop :=
  ∃ it ∈ tr, ∃ m, it.lab = .own c (.metric m) ∧ metricView it.pre.tree m = some mv

/-- the metrics on the page are metrics that `c` saw, each shown as what it is -/
def PageItem.Seen (c : ℕ) (tr : List (Item A)) : PageItem → Prop
  | .link _ => True
  | .scalar mv _ => Viewed c tr mv ∧ Scalar mv
  | .other mv _ => Viewed c tr mv ∧ ¬ Scalar mv

/-- a value on the text page; C63 says how it looks -/
def textConv (fm : Fmts) (v : MValue) (d : Dyn) : Option Str := valueToTextString fm d v.valType v.unit v.isPtr

/-- a value on the HTML page; C64 says how it looks -/
def htmlConv (fm : Fmts) (v : MValue) (d : Dyn) : Option Str := valueToHtmlString fm d v.valType v.unit v.isPtr

/-- All values of group `r` in `V` come from one call of its update function.  Each was read by `c` after that call, which is the
last one before `c` took the group, and before another begins; it is rendered by `conv`.  If nobody else changes its source, it is
the one that the call left; and if the function executes `p` on variables `X` that only it changes, it is the one that `p` would
have left if executed in one step. -/
def ShowsOneCall (w : World) (c : ℕ) (tr : List (Item A)) (r : ℕ) (conv : MValue → Dyn → Option Str)
    (V : List (MetricView × Str)) : Prop :=
  ∃ a x l u b t, IsCall r t tr a x l u b ∧ ∀ v ∈ V, v.1.value.region = some r →
    ∃ sc d b1 rd b2, v.1.value.src = some sc ∧ b = b1 ++ rd :: b2 ∧ (∃ y ∈ b1, ∃ cl, y.lab = .took c r cl t) ∧ Quiet r b1 ∧
      (∃ cmd, rd.lab = .own c cmd) ∧ current w rd.pre sc = some d ∧ conv v.1.value d = some v.2 ∧
      (OnlyUpdate w r sc b1 → current w u.post sc = some d) ∧
      ∀ p X, Does w r p l → UsesVars X p → (∀ i, X i → OnlyUpdate w r (.var i) (l ++ u :: b)) →
        ∀ i, X i → sc = .var i → (p.run w x.post).1.vars[i]? = some d

end Tricorder.Whole
