import Verif.Spec.PageRun
import Verif.Proof.Call
import Verif.Proof.Text
/-!
# The pages for people, while everything else is running
-/

namespace Tricorder
open Go Spec Tree

variable {A W : Type}

/-! ### traversals whose collector writes a page: the invariant is needed only as long as nothing went wrong -/

/-- a collector whose state satisfies `I` unless it reports an error -/
def CollS (I : Gh → A → Prop) (coll : Coll A) : Prop :=
  ∀ m a g, Fine g → I g a → WP (fun x g' => Fine g' ∧ Adv g g' ∧ x.1 = g'.sess ∧ (x.2.2 = .ok → I g' x.2.1)) (coll m g.sess a) g

variable {I : Gh → A → Prop} (hI : ∀ g g' a, Adv g g' → I g a → I g' a)

include hI in
theorem collect_s {coll : Coll A} (hc : CollS I coll) : CollS I (collect coll) := by
  intro m a g hg ha r
  cases r with
  | none => exact ⟨hg.view _ _, adv_view _ _ _, rfl, fun _ => hI _ _ _ (adv_view _ _ _) ha⟩
  | some mv =>
    refine WP_bind (isInfNaN_wp (hg.view m (some mv)) mv.value) ?_
    rintro ⟨s1, o⟩ g' ⟨h1, h2, h3, -⟩
    simp only at h3
    subst h3
    have h2 := (adv_view g m (some mv)).trans h2
    cases o with
    | panic => exact ⟨h1, h2, rfl, fun _ => hI _ _ _ h2 ha⟩
    | ok b =>
      cases b with
      | true => exact ⟨h1, h2, rfl, fun _ => hI _ _ _ h2 ha⟩
      | false => exact WP_mono (hc m a g' h1 (hI _ _ _ h2 ha)) fun _ _ h => ⟨h.1, h2.trans h.2.1, h.2.2⟩

include hI in
theorem forEntries_s {sub coll : Coll A} (hsub : CollS I sub) (hc : CollS I coll) (l : List (ℕ × Entry)) (a : A)
    {g : Gh} (hg : Fine g) (ha : I g a) :
    WP (fun x g' => Fine g' ∧ Adv g g' ∧ x.1 = g'.sess ∧ (x.2.2 = .ok → I g' x.2.1)) (forEntries sub coll l g.sess a) g := by
  induction l generalizing a g with
  | nil => exact ⟨hg, Adv.refl _, rfl, fun _ => ha⟩
  | cons x l ih =>
    obtain ⟨e, en⟩ := x
    refine WP_bind (Q := fun x g' => Fine g' ∧ Adv g g' ∧ x.1 = g'.sess ∧ (x.2.2 = .ok → I g' x.2.1)) ?_ ?_
    · split
      · exact hsub _ _ _ hg ha
      · exact collect_s hI hc _ _ _ hg ha
      · exact ⟨hg, Adv.refl _, rfl, fun _ => ha⟩
    · rintro ⟨s1, a', st⟩ g1 ⟨h1, h2, h3, h4⟩
      simp only at h3
      subst h3
      cases st with
      | ok => exact WP_mono (ih a' h1 (h4 rfl)) fun _ _ h => ⟨h.1, h2.trans h.2.1, h.2.2⟩
      | err => exact ⟨h1, h2, rfl, fun h => nomatch h⟩
      | panic => exact ⟨h1, h2, rfl, fun h => nomatch h⟩
      | timeout => exact ⟨h1, h2, rfl, fun h => nomatch h⟩

include hI in
theorem traverse_s {coll : Coll A} (hc : CollS I coll) (fuel : ℕ) : CollS I (traverse coll fuel) := by
  induction fuel with
  | zero => exact fun d a g hg ha => ⟨hg, Adv.refl _, rfl, fun _ => ha⟩
  | succ fuel ih => exact fun d a g hg ha l => forEntries_s hI ih hc _ _ hg ha

theorem withSession_s {body : Session → Prog (Session × A × Status)} {g : Gh} (hg : Fine g) (hs : g.sess = [])
    (h : WP (fun x g' => Fine g' ∧ Adv g g' ∧ x.1 = g'.sess ∧ (x.2.2 = .ok → I g' x.2.1)) (body g.sess) g)
    (hI' : ∀ g a, I g a → I { g with sess := [] } a) :
    WP (fun x g' => g'.locks.Nodup ∧ (x.2 = .ok → I g' x.1)) (withSession body) g := by
  unfold withSession
  rw [← hs]
  refine WP_bind h ?_
  rintro ⟨s1, a, st⟩ g1 ⟨h1, -, h3, h4⟩
  refine WP_bind (close_wp h3.symm) ?_
  rintro _ g2 rfl
  exact ⟨h1.nodup, fun e => hI' _ _ (h4 e)⟩

namespace Whole

/-! ### the page so far -/

/-- what is known about an item of the page -/
def PageItem.Good (conv : MValue → Dyn → Option Str) (g : Gh) : PageItem → Prop
  | .link _ => True
  | .scalar mv x => (∃ m, (m, mv) ∈ g.views) ∧ Scalar mv ∧ Took mv.value g (conv mv.value) x
  | .other mv _ => (∃ m, (m, mv) ∈ g.views) ∧ ¬ Scalar mv

theorem PageItem.Good.mono {conv : MValue → Dyn → Option Str} {g g' : Gh} (h : Adv g g') {i : PageItem} (hi : i.Good conv g) :
    i.Good conv g' := by
  cases i with
  | link => trivial
  | scalar mv x => exact ⟨⟨_, h.views hi.1.choose_spec⟩, hi.2.1, hi.2.2.mono h⟩
  | other mv cs => exact ⟨⟨_, h.views hi.1.choose_spec⟩, hi.2⟩

/-- the page so far: `pre`, and then items -/
def PageI (wr : Writer W) (x0 : W) (pre : List Str) (chunks : PageItem → List Str) (conv : MValue → Dyn → Option Str) (g : Gh)
    (x : W) : Prop :=
  ∃ items : List PageItem, wr.all x0 (pre ++ items.flatMap chunks) = (x, .ok) ∧ ∀ i ∈ items, i.Good conv g

section
variable {wr : Writer W} {x0 : W} {pre : List Str} {chunks : PageItem → List Str} {conv : MValue → Dyn → Option Str}

theorem PageI.mono {g g' : Gh} {x : W} (h : Adv g g') (hp : PageI wr x0 pre chunks conv g x) : PageI wr x0 pre chunks conv g' x := by
  obtain ⟨items, h1, h2⟩ := hp
  exact ⟨items, h1, fun i hi => (h2 i hi).mono h⟩

theorem all_ok_append {x x' x'' : W} {a b : List Str} (ha : wr.all x a = (x', .ok)) (hb : wr.all x' b = (x'', .ok)) :
    wr.all x (a ++ b) = (x'', .ok) := by
  rw [all_append, ha]
  exact hb

theorem PageI.snoc {g g' : Gh} {x x' : W} (hp : PageI wr x0 pre chunks conv g x) (h : Adv g g') {i : PageItem} (hi : i.Good conv g')
    (hx : wr.all x (chunks i) = (x', .ok)) : PageI wr x0 pre chunks conv g' x' := by
  obtain ⟨items, h1, h2⟩ := hp.mono h
  refine ⟨items ++ [i], ?_, fun j hj => ?_⟩
  · rw [List.flatMap_append, ← List.append_assoc]
    exact all_ok_append h1 (by simpa using hx)
  · rcases List.mem_append.mp hj with hj | hj
    · exact h2 j hj
    · rw [List.mem_singleton.mp hj]; exact hi
end

/-! ### the text page -/

theorem asTextString_wp {g : Gh} (hg : Fine g) (fm : Fmts) (v : MValue) :
    WP (fun x g' => Fine g' ∧ Adv g g' ∧ x.1 = some g'.sess ∧ ∀ a, x.2 = .ok a → Took v g' (textConv fm v) a)
      (asTextString fm v (some g.sess)) g := by
  unfold asTextString
  split
  · exact ⟨hg, Adv.refl _, rfl, fun a h => nomatch h⟩
  · exact readAs_wp hg _ _

theorem textEmitMetric_wp {g : Gh} (hg : Fine g) (fm : Fmts) (wr : Writer W) (mv : MetricView) (a : W) :
    WP (fun x g' => Fine g' ∧ Adv g g' ∧ x.1 = some g'.sess ∧ (x.2.2 = .ok → ∃ cs, wr.all a cs = (x.2.1, .ok) ∧
      (Scalar mv → ∃ y, cs = [y ++ [10]] ∧ Took mv.value g' (textConv fm mv.value) y))) (textEmitMetric fm wr mv (some g.sess) a) g := by
  unfold textEmitMetric
  split
  · rename_i hd
    split
    · exact ⟨hg, Adv.refl _, rfl, fun h => nomatch h⟩
    · intro x
      cases x with
      | none => exact ⟨hg, Adv.refl _, rfl, fun h => nomatch h⟩
      | some x => exact ⟨hg, Adv.refl _, rfl, fun h => ⟨_, Prod.ext rfl h, fun hs => absurd hd hs.1⟩⟩
  · rename_i hnd
    split
    · rename_i hl
      split
      · exact ⟨hg, Adv.refl _, rfl, fun h => nomatch h⟩
      · intro x
        cases x with
        | none => exact ⟨hg, Adv.refl _, rfl, fun h => nomatch h⟩
        | some x =>
          simp only
          split
          · exact ⟨hg, Adv.refl _, rfl, fun h => nomatch h⟩
          · exact ⟨hg, Adv.refl _, rfl, fun h => ⟨_, Prod.ext rfl h, fun hs => absurd hl hs.2⟩⟩
    · refine WP_bind (asTextString_wp hg fm mv.value) ?_
      rintro ⟨s', o⟩ g' ⟨h1, h2, h3, h4⟩
      cases o with
      | panic => exact ⟨h1, h2, h3, fun h => nomatch h⟩
      | ok x => exact ⟨h1, h2, h3, fun h => ⟨_, Prod.ext rfl h, fun _ => ⟨x, rfl, h4 x rfl⟩⟩⟩

theorem textColl_s (fm : Fmts) (wr : Writer W) (x0 : W) : CollS (PageI wr x0 [] PageItem.text (textConv fm)) (textColl fm wr) := by
  intro m a g hg ha r
  cases r with
  | none => exact ⟨hg.view _ _, adv_view _ _ _, rfl, fun h => nomatch h⟩
  | some mv =>
    have hv := adv_view g m (some mv)
    have hmv : (m, mv) ∈ (g.view m (some mv)).views := by simp [Gh.view]
    cases hw : wr.write a (mv.path ++ [32]) with
    | mk a' e =>
      cases e with
      | some e => simp only [hw]; exact ⟨hg.view _ _, hv, rfl, fun h => nomatch h⟩
      | none =>
        simp only [hw]
        refine WP_bind (textEmitMetric_wp (hg.view m (some mv)) fm wr mv a') ?_
        rintro ⟨s', x, st⟩ g' ⟨h1, h2, h3, h4⟩
        simp only at h3
        subst h3
        have h2' := hv.trans h2
        refine ⟨h1, h2', rfl, fun e => ?_⟩
        obtain ⟨cs, h5, h6⟩ := h4 e
        have one : wr.all a ((mv.path ++ [32]) :: cs) = (x, .ok) := by
          rw [Writer.all, hw]
          exact h5
        by_cases hs : Scalar mv
        · obtain ⟨y, rfl, h7⟩ := h6 hs
          exact ha.snoc h2' (i := .scalar mv y) ⟨⟨m, h2.views hmv⟩, hs, h7⟩ one
        · exact ha.snoc h2' (i := .other mv cs) ⟨⟨m, h2.views hmv⟩, hs⟩ one

/-- a value read from the source of `v` -/
def Had (v : MValue) (g : Gh) (conv : Dyn → Option Str) (a : Str) : Prop :=
  ∃ sc d ss, v.src = some sc ∧ (sc, some d, ss) ∈ g.reads ∧ conv d = some a

theorem evalAlone_wp {g : Gh} (hg : Fine g) (hs : g.sess = []) (v : MValue) :
    WP (fun x g' => g'.locks.Nodup ∧ Adv g g' ∧ ∀ hd, x = .ok hd → (∃ i, hd = .var i ∧ v.src = some (.var i)) ∨
      ∃ d sc ss, v.src = some sc ∧ hd = .val d ∧ (sc, some d, ss) ∈ g'.reads) (evalAlone v) g := by
  unfold evalAlone
  rw [← hs]
  refine WP_bind (evalIn_wp hg v) ?_
  rintro ⟨s1, o⟩ g1 ⟨h1, h2, h3, h4, -⟩
  refine WP_bind (close_wp h3) ?_
  rintro _ g2 rfl
  refine ⟨h1.nodup, ⟨h2.views, h2.reads, h2.ids⟩, fun hd e => ?_⟩
  rcases h4 hd e with h | ⟨d, sc, a, b, c⟩
  · exact .inl h
  · exact .inr ⟨d, sc, _, a, b, c⟩

theorem textAlone_wp {g : Gh} (hg : Fine g) (hs : g.sess = []) (fm : Fmts) (v : MValue) :
    WP (fun x g' => g'.locks.Nodup ∧ Adv g g' ∧ ∀ a, x.2 = .ok a → Had v g' (textConv fm v) a) (asTextString fm v none) g := by
  unfold asTextString
  split
  · exact ⟨hg.nodup, Adv.refl _, fun a h => nomatch h⟩
  · unfold readAs
    refine WP_bind (Q := fun (x : Option Session × Out Handle) g' => g'.locks.Nodup ∧ Adv g g' ∧
      ∀ hd, x.2 = .ok hd → (∃ i, hd = .var i ∧ v.src = some (.var i)) ∨
        ∃ d sc ss, v.src = some sc ∧ hd = .val d ∧ (sc, some d, ss) ∈ g'.reads) (WP_bind (evalAlone_wp hg hs v) fun _ _ h => h) ?_
    rintro ⟨s1, o⟩ g1 ⟨h1, h2, h4⟩
    cases o with
    | panic => exact ⟨h1, h2, fun a h => nomatch h⟩
    | ok hd =>
      refine WP_bind (Q := fun d g' => g'.locks.Nodup ∧ Adv g g' ∧ ∀ d', d = some d' →
        ∃ sc ss, v.src = some sc ∧ (sc, some d', ss) ∈ g'.reads) ?_ ?_
      · rcases h4 hd rfl with ⟨i, rfl, hv⟩ | ⟨d, sc, ss, hv, rfl, hr⟩
        · intro x
          refine ⟨h1, h2.trans (Adv.read _ _ _), fun d' hd => ⟨_, g1.sess, hv, ?_⟩⟩
          rw [← hd]; exact List.mem_cons_self ..
        · exact ⟨h1, h2, fun d' hd => by cases hd; exact ⟨_, _, hv, hr⟩⟩
      · rintro d g' ⟨k1, k2, k4⟩
        cases h : d.bind (fun d => valueToTextString fm d v.valType v.unit v.isPtr) with
        | none => simp only [h]; exact ⟨k1, k2, fun a h => nomatch h⟩
        | some a =>
          simp only [h]
          refine ⟨k1, k2, fun a' ha => ?_⟩
          cases ha
          cases d with
          | none => cases h
          | some d =>
            obtain ⟨sc, ss, e1, e2⟩ := k4 d rfl
            exact ⟨sc, d, ss, e1, e2, h⟩

theorem textEmitAlone_wp {g : Gh} (hg : Fine g) (hs : g.sess = []) (fm : Fmts) (wr : Writer W) (mv : MetricView) (a : W) :
    WP (fun x g' => g'.locks.Nodup ∧ Adv g g' ∧ (x.2.2 = .ok → Scalar mv → ∃ y, wr.all a [y ++ [10]] = (x.2.1, .ok) ∧
      Had mv.value g' (textConv fm mv.value) y)) (textEmitMetric fm wr mv none a) g := by
  unfold textEmitMetric
  split
  · rename_i hd
    split
    · exact ⟨hg.nodup, Adv.refl _, fun h => nomatch h⟩
    · intro x
      cases x with
      | none => exact ⟨hg.nodup, Adv.refl _, fun h => nomatch h⟩
      | some x => exact ⟨hg.nodup, Adv.refl _, fun _ hs => absurd hd hs.1⟩
  · split
    · rename_i hl
      split
      · exact ⟨hg.nodup, Adv.refl _, fun h => nomatch h⟩
      · intro x
        cases x with
        | none => exact ⟨hg.nodup, Adv.refl _, fun h => nomatch h⟩
        | some x =>
          simp only
          split
          · exact ⟨hg.nodup, Adv.refl _, fun h => nomatch h⟩
          · exact ⟨hg.nodup, Adv.refl _, fun _ hs => absurd hl hs.2⟩
    · refine WP_bind (textAlone_wp hg hs fm mv.value) ?_
      rintro ⟨s', o⟩ g' ⟨h1, h2, h4⟩
      cases o with
      | panic => exact ⟨h1, h2, fun h => nomatch h⟩
      | ok x => exact ⟨h1, h2, fun h _ => ⟨x, Prod.ext rfl h, h4 x rfl⟩⟩

/-- what is known at the end of a request for the text page -/
def TextEnd (fm : Fmts) (wr : Writer W) (x0 : W) (g : Gh) (x : W) : Prop :=
  x = (wr.write x0 (lit "*Path does not exist.*")).1 ∨ PageI wr x0 [] PageItem.text (textConv fm) g x ∨
    ∃ m mv, (m, mv) ∈ g.views ∧ (Scalar mv → ∃ y, wr.all x0 [y ++ [10]] = (x, .ok) ∧ Had mv.value g (textConv fm mv.value) y)

theorem textEndpoint_wp (fm : Fmts) (wr : Writer W) (fuel : ℕ) (path : Str) (x0 : W) :
    WP (fun x g' => g'.locks.Nodup ∧ (x.2 = .ok → TextEnd fm wr x0 g' x.1)) (textEndpoint fm wr fuel path x0) Gh.none := by
  refine wp_calm (lookupPath_calm _ _) ?_
  rintro ⟨x, y⟩
  cases y with
  | some m =>
    simp only
    intro r
    cases r with
    | none => exact ⟨List.nodup_nil, fun h => nomatch h⟩
    | some mv =>
      refine WP_bind (textEmitAlone_wp (g := Gh.none.view m (some mv)) (fine_none.view _ _) rfl fm wr mv x0) ?_
      rintro ⟨s', x, st⟩ g' ⟨h1, h2, h3⟩
      exact ⟨h1, fun e => .inr (.inr ⟨m, mv, h2.views (by simp [Gh.view]), h3 e⟩)⟩
  | none =>
    cases x with
    | some d =>
      refine WP_mono (withSession_s (I := PageI wr x0 [] PageItem.text (textConv fm)) fine_none rfl
        (traverse_s (I := PageI wr x0 [] PageItem.text (textConv fm)) (fun _ _ _ => PageI.mono) (textColl_s fm wr x0) fuel d x0 Gh.none fine_none ⟨[], rfl, fun _ h => nomatch h⟩)
        fun _ _ h => h) fun _ _ h => ⟨h.1, fun e => .inr (.inl (h.2 e))⟩
    | none => exact ⟨List.nodup_nil, fun _ => .inl rfl⟩

/-! ### the HTML page -/

theorem asHtmlString_wp {g : Gh} (hg : Fine g) (fm : Fmts) (v : MValue) :
    WP (fun x g' => Fine g' ∧ Adv g g' ∧ x.1 = some g'.sess ∧ ∀ a, x.2 = .ok a → Took v g' (htmlConv fm v) a)
      (asHtmlString fm v (some g.sess)) g := by
  unfold asHtmlString
  split
  · exact ⟨hg, Adv.refl _, rfl, fun a h => nomatch h⟩
  · exact readAs_wp hg _ _

/-- the state of a page: as in `CollS` -/
def Ends (wr : Writer W) (x0 : W) (pre : List Str) (fm : Fmts) (g : Gh) (x : Session × W × Status) (g' : Gh) : Prop :=
  Fine g' ∧ Adv g g' ∧ x.1 = g'.sess ∧ (x.2.2 = .ok → PageI wr x0 pre PageItem.html (htmlConv fm) g' x.2.1)

theorem writing_wp {Q : Session × W × Status → Gh → Prop} {wr : Writer W} {a : W} {cs : List Str} {s : Session}
    {k : W → Prog (Session × W × Status)} {g : Gh} (h1 : ∀ a', wr.all a cs = (a', .ok) → WP Q (k a') g)
    (h2 : ∀ a' st, st ≠ .ok → Q (s, a', st) g) : WP Q (writing wr a cs s k) g := by
  unfold writing
  cases h : wr.all a cs with
  | mk a' st =>
    cases st with
    | ok => exact h1 a' h
    | err => exact h2 _ _ (by simp)
    | panic => exact h2 _ _ (by simp)
    | timeout => exact h2 _ _ (by simp)

theorem htmlMetric_wp {fm : Fmts} {wr : Writer W} {x0 : W} {pre : List Str} {m : ℕ} {mv : MetricView} {a : W} {g : Gh} (hg : Fine g)
    (hm : (m, mv) ∈ g.views) (ha : PageI wr x0 pre PageItem.html (htmlConv fm) g a) :
    WP (Ends wr x0 pre fm g) (htmlMetric fm wr mv g.sess a) g := by
  have bad : ∀ a' st, st ≠ .ok → Ends wr x0 pre fm g (g.sess, a', st) g := fun a' st h => ⟨hg, Adv.refl _, rfl, fun e => absurd e h⟩
  have other : ∀ {cs ds a'} , ¬ Scalar mv → wr.all a (lit "      " :: esc mv.path :: cs) = (a', .ok) →
      Ends wr x0 pre fm g (g.sess, wr.all a' ds) g := by
    intro cs ds a' hns h
    refine ⟨hg, Adv.refl _, rfl, fun e => ?_⟩
    refine ha.snoc (Adv.refl _) (i := .other mv (cs ++ ds)) ⟨⟨m, hm⟩, hns⟩ ?_
    exact all_ok_append h (Prod.ext rfl e)
  unfold htmlMetric
  split
  · rename_i hd
    refine writing_wp (fun a' h => ?_) bad
    split
    · exact bad _ _ (by simp)
    · intro x
      cases x with
      | none => exact bad _ _ (by simp)
      | some x => exact other (fun hs => hs.1 hd) h
  · rename_i hnd
    split
    · rename_i hl
      split
      · exact bad _ _ (by simp)
      · intro x
        cases x with
        | none => exact bad _ _ (by simp)
        | some x =>
          refine writing_wp (fun a' h => ?_) bad
          intro y
          cases y with
          | none => exact bad _ _ (by simp)
          | some y =>
            simp only
            split
            · exact bad _ _ (by simp)
            · exact other (fun hs => hs.2 hl) h
    · rename_i hnl
      refine writing_wp (fun a' h => ?_) bad
      refine WP_bind (asHtmlString_wp hg fm mv.value) ?_
      rintro ⟨s', o⟩ g' ⟨h1, h2, h3, h4⟩
      simp only at h3
      subst h3
      cases o with
      | panic => exact ⟨h1, h2, rfl, fun h => nomatch h⟩
      | ok x =>
        refine ⟨h1, h2, rfl, fun e => ?_⟩
        refine ha.snoc h2 (i := .scalar mv x) ⟨⟨m, h2.views hm⟩, ⟨hnd, hnl⟩, h4 x rfl⟩ ?_
        have e' := all_ok_append h (Prod.ext (x := wr.all a' _) (y := (_, .ok)) rfl e)
        simpa [PageItem.html] using e'

theorem htmlEntry_wp {fm : Fmts} {wr : Writer W} {x0 : W} {pre : List Str} (en : Entry) {a : W} {g : Gh} (hg : Fine g)
    (ha : PageI wr x0 pre PageItem.html (htmlConv fm) g a) : WP (Ends wr x0 pre fm g) (htmlEntry fm wr en g.sess a) g := by
  unfold htmlEntry
  split
  · intro p
    cases p with
    | none => exact ⟨hg, Adv.refl _, rfl, fun h => nomatch h⟩
    | some p => exact ⟨hg, Adv.refl _, rfl, fun e => ha.snoc (Adv.refl _) (i := .link p) trivial (Prod.ext rfl e)⟩
  · rename_i m _ _
    intro r
    cases r with
    | none => exact ⟨hg.view _ _, adv_view _ _ _, rfl, fun h => nomatch h⟩
    | some mv =>
      have hv := adv_view g m (some mv)
      refine WP_mono (htmlMetric_wp (m := m) (hg.view m (some mv)) (by simp [Gh.view]) (ha.mono hv)) fun _ _ h => ?_
      exact ⟨h.1, hv.trans h.2.1, h.2.2⟩
  · exact ⟨hg, Adv.refl _, rfl, fun h => nomatch h⟩

theorem htmlEntries_wp {fm : Fmts} {wr : Writer W} {x0 : W} {pre : List Str} (l : List (ℕ × Entry)) {a : W} {g : Gh} (hg : Fine g)
    (ha : PageI wr x0 pre PageItem.html (htmlConv fm) g a) : WP (Ends wr x0 pre fm g) (htmlEntries fm wr l g.sess a) g := by
  induction l generalizing a g with
  | nil => exact ⟨hg, Adv.refl _, rfl, fun _ => ha⟩
  | cons x l ih =>
    obtain ⟨e, en⟩ := x
    refine WP_bind (htmlEntry_wp en hg ha) ?_
    rintro ⟨s1, a', st⟩ g1 ⟨h1, h2, h3, h4⟩
    simp only at h3
    subst h3
    cases st with
    | ok => exact WP_mono (ih h1 (h4 rfl)) fun _ _ h => ⟨h.1, h2.trans h.2.1, h.2.2⟩
    | err => exact ⟨h1, h2, rfl, fun h => nomatch h⟩
    | panic => exact ⟨h1, h2, rfl, fun h => nomatch h⟩
    | timeout => exact ⟨h1, h2, rfl, fun h => nomatch h⟩

/-- a finished page: items between head and foot -/
def HtmlI (wr : Writer W) (x0 : W) (fm : Fmts) (g : Gh) (x : W) : Prop :=
  ∃ items : List PageItem, wr.all x0 (pageHead :: items.flatMap PageItem.html ++ [pageFoot]) = (x, .ok) ∧
    ∀ i ∈ items, i.Good (htmlConv fm) g

theorem htmlEnd_wp {fm : Fmts} {wr : Writer W} {x0 : W} {g g' : Gh} {x : Session × W × Status} (h : Ends wr x0 [pageHead] fm g x g') :
    WP (fun x g' => Fine g' ∧ Adv g g' ∧ x.1 = g'.sess ∧ (x.2.2 = .ok → HtmlI wr x0 fm g' x.2.1)) (htmlEnd wr x) g' := by
  obtain ⟨s1, a, st⟩ := x
  cases st with
  | ok =>
    refine ⟨h.1, h.2.1, h.2.2.1, fun e => ?_⟩
    obtain ⟨items, h1, h2⟩ := h.2.2.2 rfl
    exact ⟨items, all_ok_append h1 (Prod.ext rfl e), h2⟩
  | err => exact ⟨h.1, h.2.1, h.2.2.1, fun h => nomatch h⟩
  | panic => exact ⟨h.1, h.2.1, h.2.2.1, fun h => nomatch h⟩
  | timeout => exact ⟨h.1, h.2.1, h.2.2.1, fun h => nomatch h⟩

/-- what is known at the end of a request for the HTML page -/
def HtmlEnd (fm : Fmts) (wr : Writer W) (x0 : W) (g : Gh) (x : W) : Prop :=
  x = (wr.write x0 (lit "Path does not exist.")).1 ∨ HtmlI wr x0 fm g x

theorem htmlEndpoint_wp (fm : Fmts) (wr : Writer W) (path : Str) (x0 : W) :
    WP (fun x g' => g'.locks.Nodup ∧ (x.2 = .ok → HtmlEnd fm wr x0 g' x.1)) (htmlEndpoint fm wr path x0) Gh.none := by
  have start : ∀ {a'}, wr.all x0 [pageHead] = (a', .ok) → ∀ g, PageI wr x0 [pageHead] PageItem.html (htmlConv fm) g a' :=
    fun h g => ⟨[], by simpa using h, fun _ h => nomatch h⟩
  refine wp_calm (lookupPath_calm _ _) ?_
  rintro ⟨x, y⟩
  cases y with
  | some m =>
    simp only
    refine WP_mono (withSession_s (I := HtmlI wr x0 fm) fine_none rfl ?_ fun _ _ h => h) fun _ _ h => ⟨h.1, fun e => .inr (h.2 e)⟩
    refine writing_wp (fun a' h => ?_) fun a' st h => ⟨fine_none, Adv.refl _, rfl, fun e => absurd e h⟩
    intro r
    cases r with
    | none => exact ⟨fine_none.view _ _, adv_view _ _ _, rfl, fun h => nomatch h⟩
    | some mv =>
      have hv := adv_view Gh.none m (some mv)
      refine WP_bind (htmlMetric_wp (m := m) (fine_none.view m (some mv)) (by simp [Gh.view]) (start h _)) ?_
      intro x g' h
      exact WP_mono (htmlEnd_wp h) fun _ _ h => ⟨h.1, hv.trans h.2.1, h.2.2⟩
  | none =>
    cases x with
    | some d =>
      refine WP_mono (withSession_s (I := HtmlI wr x0 fm) fine_none rfl ?_ fun _ _ h => h) fun _ _ h => ⟨h.1, fun e => .inr (h.2 e)⟩
      refine writing_wp (fun a' h => ?_) fun a' st h => ⟨fine_none, Adv.refl _, rfl, fun e => absurd e h⟩
      intro l
      refine WP_bind (htmlEntries_wp _ fine_none (start h _)) ?_
      intro x g' h
      exact htmlEnd_wp h
    | none => exact ⟨List.nodup_nil, fun _ => .inl rfl⟩

/-! ### along a run -/

variable {w : World} {tr : List (Item A)} {s : St A} {c : ℕ} {g : Gh}

theorem Past.viewed (hp : Past w c tr g) {m : ℕ} {mv : MetricView} (h : (m, mv) ∈ g.views) : Viewed c tr mv := by
  obtain ⟨it, h1, h2, h3⟩ := hp.views _ h
  exact ⟨it, h1, m, h2, h3⟩

theorem PageItem.Good.seen {conv : MValue → Dyn → Option Str} (hp : Past w c tr g) {i : PageItem} (h : i.Good conv g) : i.Seen c tr := by
  cases i with
  | link => trivial
  | scalar mv x => exact ⟨hp.viewed h.1.choose_spec, h.2.1⟩
  | other mv cs => exact ⟨hp.viewed h.1.choose_spec, h.2⟩

theorem Past.showsOneCall (hr : Run w tr s) (hp : Past w c tr g) (hn : g.locks.Nodup) {conv : MValue → Dyn → Option Str}
    {V : List (MetricView × Str)} (hV : ∀ v ∈ V, Took v.1.value g (conv v.1.value) v.2) {r : ℕ} (hv : ∃ v ∈ V, v.1.value.region = some r) :
    ShowsOneCall w c tr r conv V := by
  have hnd : (tooks c tr).Nodup := by rw [hp.locks]; exact List.nodup_reverse.mpr hn
  have tell : ∀ v ∈ V, v.1.value.region = some r → ∃ sc d t a u b1 rd b2 x, v.1.value.src = some sc ∧
      tr = a ++ u :: (b1 ++ rd :: b2) ∧ Updated r t u ∧ Quiet r b1 ∧ x ∈ b1 ∧ (∃ cl, x.lab = .took c r cl t) ∧
      (∃ cmd, rd.lab = .own c cmd) ∧ current w rd.pre sc = some d ∧ conv v.1.value d = some v.2 := by
    intro v hv hreg
    obtain ⟨sc, d, ss, h1, h2, h3, h4⟩ := hV v hv
    obtain ⟨t, h5⟩ := h4 r hreg
    obtain ⟨a, rd, b, k1, k2, k3, k4⟩ := hp.reads _ h2
    obtain ⟨a', u, b', rfl, e1, e2, x, e3, e4⟩ := k4 r t h5
    exact ⟨sc, d, t, a', u, b', rd, b, x, h1, by simpa using k1, e1, e2, e3, e4, k2, k3, h3⟩
  obtain ⟨v, hv, hreg⟩ := hv
  obtain ⟨sc, d, t, a, u, b1, rd, b2, x, h1, h3, h4, h5, h6, ⟨cl, h7⟩, -⟩ := tell v hv hreg
  obtain ⟨a', y, l, rfl, hcall⟩ := (h3 ▸ hr).isCall h4
  rw [← h3] at hcall
  refine ⟨a', y, l, u, b1 ++ rd :: b2, t, hcall, fun v' hv' hreg' => ?_⟩
  obtain ⟨sc', d', t', a'', u', b1', rd', b2', x', k1, k3, k4, k5, k6, ⟨cl', k7⟩, k8, k9, k10⟩ := tell v' hv' hreg'
  obtain ⟨p, q, rfl⟩ := List.append_of_mem h6
  obtain ⟨p', q', rfl⟩ := List.append_of_mem k6
  obtain ⟨e1, rfl, e2⟩ := split_unique (y := r) (a := (a' ++ y :: l) ++ u :: p) (a' := a'' ++ u' :: p') (x := x) (x' := x')
    (b := q ++ rd :: b2) (b' := q' ++ rd' :: b2') hnd (by simp [h3]) (by simp [k3]) (by simp [h7]) (by simp [k7])
  obtain ⟨rfl, rfl, rfl⟩ := last_unique rfl e1 h4 k4 (fun y hy => h5 y (List.mem_append_left _ hy))
    (fun y hy => k5 y (List.mem_append_left _ hy))
  rw [h7] at k7
  cases k7
  have hpost : OnlyUpdate w r sc' (p ++ x :: q') → current w u.post sc' = some d' := fun ho => by
    rw [hr.unchanged k3 k5 ho, k9]
  refine ⟨sc', d', p ++ x :: q', rd', b2', k1, by simp [e2], ⟨x, by simp, cl, h7⟩, k5, k8, k9, k10, hpost, ?_⟩
  rintro pr X hd hX ho i hi rfl
  have hpost := hpost fun z hz => ho i hi z (by
    have e3 : p ++ x :: q ++ rd :: b2 = (p ++ x :: q') ++ rd' :: b2' := by simp [e2]
    rw [e3]
    simp only [List.mem_append, List.mem_cons] at hz ⊢
    tauto)
  have hsp := hcall.split
  rw [hsp] at hr
  obtain ⟨s0, e0, hpt⟩ := Path.last hr
  obtain ⟨s1, hp1, hp2⟩ := hpt.split
  have hag := hd.agree (τ := y.post) hp1 hX (fun i hi z hz => ho i hi z (by simp [hz])) (by rw [e0]; exact fun _ _ => rfl)
  have hag := hag i hi
  rw [← hag]
  cases hp2 with
  | cons hs _ =>
    have hm := hs.mem
    have hue : u.post = u.pre := by
      have hne : u.evs ≠ [] := by
        obtain ⟨f, hf⟩ := h4
        intro e
        rw [e] at hf
        cases hf
      obtain ⟨f, hf⟩ := h4
      cases hs <;> first | rfl | exact absurd rfl hne | simp at hf
    rw [← hm.1, ← hue]
    exact hpost

end Whole
end Tricorder
