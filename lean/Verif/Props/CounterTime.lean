import Verif.Proof.CounterTime
/-!
# C117: a running total of time never appears to fall on HTML pages
-/

namespace Tricorder.Whole
open Go _root_.Spec Tricorder.Spec Tree

variable {A W W' : Type} {w : World}

/-- **C117 (one page)** An HTML page that begins at `x` and is finished at the end, with any status.  It says that the path does not exist,
or it consists of complete items and, if it breaks off, an incomplete one.  Of two complete items that show the same total,
the lower one does not show a shorter time; each shows a value that the total had during the request.  If the times are not negative,
what the texts stand for does not fall either, although something is cut off. -/
theorem C117_page {a b : List (Item A)} {x : Item A} {s : St A} (hr : Run w (a ++ x :: b) s) {c : ℕ} {fm : Fmts} {wr : Writer W}
    {path : Str} {q : List Str} (hq : Components path q) {x0 : W} {f : W × Status → A}
    (hx : x.lab = .spawn c ((htmlEndpoint fm wr path x0).bind fun r => .ret (f r))) {ans : A} {held : List (ℕ × ℕ)}
    (hd : s.procs[c]? = some ⟨.run (.ret ans), held⟩) {sc : Src} (hc : TimeTotal w sc (a ++ x :: b)) :
    ∃ x1 st, ans = f (x1, st) ∧ ((∃ U, HtmlPage w fm wr (During b s.mem) q x0 x1 st U ∧
        U.Pairwise (TimesNotFalling s.mem.tree s.mem.tree sc) ∧ ∀ u ∈ U, ∀ m, u.1.2 = .metric m → TotalIs s.mem.tree m sc →
          ∃ p p' z, b = p ++ p' ∧ GivesTime w sc (a ++ x :: p) z ∧ TimeItem s.mem.tree m z u.2) ∨
      x1 = (wr.write x0 (lit "Path does not exist.")).1) := by
  obtain ⟨x1, st, h1, h2⟩ := time_items (q' := []) hr hq hx hd (by simpa using hc)
  refine ⟨x1, st, h1, h2.imp ?_ fun h => h⟩
  rintro ⟨U, g1, g2, g3⟩
  refine ⟨U, g1, g2, fun u hu m hm hk => ?_⟩
  obtain ⟨p, p', z, e1, e2, e3⟩ := g3 u hu m hm hk
  exact ⟨p, p', z, e1, by simpa using e2, e3.item⟩

/-- **C117 (asking again)** An HTML page is asked for, and when it is finished another one, of the same path or of any other.  If both
paths exist, an item of the second page that shows a total does not show a shorter time than an item of the first page that
shows the same total. -/
theorem C117_again {a b c d : List (Item A)} {x y : Item A} {s1 s2 : St A} (r1 : Run w (a ++ x :: b) s1)
    (r2 : Run w (a ++ x :: b ++ c ++ y :: d) s2) {i i' : ℕ} {fm fm' : Fmts} {wr : Writer W} {wr' : Writer W'}
    {path path' : Str} {q q' : List Str} (hq : Components path q) (hq' : Components path' q')
    {x0 : W} {y0 : W'} {f : W × Status → A} {f' : W' × Status → A}
    (hx : x.lab = .spawn i ((htmlEndpoint fm wr path x0).bind fun r => .ret (f r)))
    (hy : y.lab = .spawn i' ((htmlEndpoint fm' wr' path' y0).bind fun r => .ret (f' r))) {ans ans' : A} {held held' : List (ℕ × ℕ)}
    (h1 : s1.procs[i]? = some ⟨.run (.ret ans), held⟩) (h2 : s2.procs[i']? = some ⟨.run (.ret ans'), held'⟩)
    {sc : Src} (hc : TimeTotal w sc (a ++ x :: b ++ c ++ y :: d)) :
    ∃ x1 st y1 st', ans = f (x1, st) ∧ ans' = f' (y1, st') ∧ (x1 = (wr.write x0 (lit "Path does not exist.")).1 ∨
      y1 = (wr'.write y0 (lit "Path does not exist.")).1 ∨
      ∃ U V, HtmlPage w fm wr (During b s1.mem) q x0 x1 st U ∧ HtmlPage w fm' wr' (During d s2.mem) q' y0 y1 st' V ∧
        ∀ u ∈ U, ∀ v ∈ V, TimesNotFalling s1.mem.tree s2.mem.tree sc u v) := by
  obtain ⟨x1, st, g1, g2⟩ := time_items (q' := c ++ y :: d) r1 hq hx h1 (by simpa using hc)
  obtain ⟨y1, st', g3, g4⟩ := time_items (q' := []) r2 hq' hy h2 (by simpa using hc)
  refine ⟨x1, st, y1, st', g1, g3, ?_⟩
  rcases g2 with ⟨U, u1, -, u2⟩ | g2
  · rcases g4 with ⟨V, v1, -, v2⟩ | g4
    · refine .inr (.inr ⟨U, V, u1, v1, ?_⟩)
      intro u hu v hv
      refine times_notFalling (fm := fm) (fm' := fm') ?_
      intro m n hm hn hk hk'
      obtain ⟨p, p', z, rfl, e1, e2⟩ := u2 u hu m hm hk
      obtain ⟨o, o', z', rfl, e3, e4⟩ := v2 v hv n hn hk'
      exact ⟨z, z', e2, e4, hc.grows (a ++ [x] ++ p) (p' ++ c ++ y :: o) o' z z' (by simp) e1 (by simpa using e3)⟩
    · exact .inr (.inl g4)
  · exact .inl g2

/-! ### Examples

A variable of type time.Duration is 9999 nanoseconds and is registered at /c and at /d.  The application sets it to 3599.9999 seconds, between
the items of a page. -/

/-- what it is after `i` of the steps is what it is after `j` of them, or less -/
def exLonger {A : Type} (tr : List (Item A)) (i j : ℕ) : Bool :=
  match exNow (tr.take i), exNow (tr.take j) with
  | some (.scalar none (.duration x)), some (.scalar none (.duration y)) => decide (x ≤ y) && decide (InI64 y)
  | none, some (.scalar none (.duration y)) => decide (InI64 y)
  | none, none => true
  | _, _ => false

def exLengthens {A : Type} (tr : List (Item A)) : Bool :=
  (List.range (tr.length + 1)).all fun j => (List.range (j + 1)).all fun i => exLonger tr i j

theorem exLengthens_total {A : Type} {tr : List (Item A)} (h : exLengthens tr = true) : TimeTotal exW (.var 0) tr := by
  have hh : ∀ p l q, tr = p ++ l ++ q → exLonger tr p.length (p ++ l).length = true ∧ tr.take p.length = p ∧
      tr.take (p ++ l).length = p ++ l := by
    rintro p l q rfl
    refine ⟨?_, by simp, List.take_left' rfl⟩
    have := List.all_eq_true.mp h (p ++ l).length (by simp; omega)
    exact List.all_eq_true.mp this p.length (by simp; omega)
  constructor
  · intro p q d e hd
    obtain ⟨h1, h2, -⟩ := hh p [] q (by simpa using e)
    rw [List.append_nil] at h1
    unfold exLonger at h1
    rw [h2, show exNow p = some d from hd] at h1
    split at h1 <;> simp_all
  · intro p l q x y e hx hy
    obtain ⟨h1, h2, h3⟩ := hh p l q e
    unfold exLonger at h1
    rw [h2, h3, show exNow p = some _ from hx, show exNow (p ++ l) = some _ from hy] at h1
    split at h1 <;> simp_all

/-- all metrics show variable 0, as time.Duration -/
def exTime0 (T : Tree MValue) : Bool :=
  (List.range T.metrics.length).all fun i => match metricView T i with
    | some mv => decide (mv.value.src = some (.var 0) ∧ mv.value.valType = .goDuration)
    | none => true

theorem exTime0_is {T : Tree MValue} (h : exTime0 T = true) (id : ℕ) : TotalIs T id (.var 0) := by
  intro mv h1
  have hlt : id < T.metrics.length := by
    by_contra hge
    unfold metricView at h1
    rw [List.getElem?_eq_none (by omega)] at h1
    cases h1
  have := List.all_eq_true.mp h id (by simpa using hlt)
  rw [h1] at this
  exact of_decide_eq_true this

def exTotalSetup : Prog (Option (Str × Status)) :=
  .op (.newVar (.scalar none (.duration 9999))) fun (_ : ℕ) =>
    (apiRegisterMetric exW.fnTy 0 (lit "/c") (.ptr 0) (some 0) .second []).bind fun _ =>
      (apiRegisterMetric exW.fnTy 0 (lit "/d") (.ptr 0) (some 0) .millisecond []).bind fun _ => .ret none

def exTotalWrite (z : ℤ) : Prog (Option (Str × Status)) := .op (.writeVar 0 (.scalar none (.duration z))) fun _ => .ret none

def exTotalOf (u v : String) : Str :=
  pageHead ++ lit "      /c " ++ lit u ++ lit " <span class=\"parens\">(duration: ; unit: Seconds)</span><br>\n      /d " ++ lit v ++
    lit " <span class=\"parens\">(duration: ; unit: Milliseconds)</span><br>\n" ++ pageFoot

def exTotalHtml1 : List (Move (Option (Str × Status))) :=
  (.spawn exTotalSetup :: gos 0 5) ++ .spawn (exHtmlAt (lit "/")) ::
    (gos 1 2 ++ taking 1 0 0 [] ⟨100, 0⟩ ++ gos 1 1 ++ .spawn (exTotalWrite 3599999900000) :: (gos 2 1 ++ gos 1 2 ++ releasing 1 0 0))

def exTotalHtml : Option (Option (Str × Bool) × Bool × Bool) :=
  (playW exW exTotalHtml1 [] (start _)).map fun x => (exPageText x.2 1, exLengthens x.1, exTime0 x.2.mem.tree)

/-- the page shows 9999ns at /c and 59m 59.999s at /d; the hypotheses of `C117_page` hold of it -/
example : ∃ (a b : List (Item (Option (Str × Status)))) (x : Item (Option (Str × Status))) (s : St (Option (Str × Status)))
    (U : List ((Str × Node) × List Str)), Run exW (a ++ x :: b) s ∧ TimeTotal exW (.var 0) (a ++ x :: b) ∧
      (∀ m, TotalIs s.mem.tree m (.var 0)) ∧
      exWriter.all [] (pageHead :: U.flatMap Prod.snd ++ [pageFoot]) = (exTotalOf "9999ns" "59m 59.999s", .ok) ∧
      U.Pairwise (TimesNotFalling s.mem.tree s.mem.tree (.var 0)) := by
  have h : exTotalHtml = some (some (exTotalOf "9999ns" "59m 59.999s", true), true, true) := by decide +kernel
  obtain ⟨⟨tr, s⟩, h1, h2⟩ := Option.map_eq_some_iff.mp h
  simp only [Prod.mk.injEq] at h2
  obtain ⟨e1, e2, e3⟩ := h2
  have r1 := playW_run .nil h1
  obtain ⟨a, x, b, rfl, hx⟩ := playW_asked (ms := .spawn exTotalSetup :: gos 0 5) h1
  rw [List.nil_append] at r1 e2
  have hc : Components (lit "/") [] := C01_components (lit "/")
  obtain ⟨x1, st, e, h⟩ := C117_page r1 hc (f := some) hx (exPageText_eq e1) (exLengthens_total e2)
  cases e
  rcases h with ⟨U, u1, u2, -⟩ | k
  · exact ⟨a, b, x, s, U, r1, exLengthens_total e2, exTime0_is e3, u1.whole, u2⟩
  · exact absurd k (by decide +kernel)

def exTotal0 : List (Move (Option (Str × Status))) := .spawn exTotalSetup :: gos 0 5

def exTotalHtmls : Option (List (Option (Str × Bool)) × List Bool) :=
  (playW exW exTotal0 [] (start _)).bind fun x0 => (playW exW (exAgainHtml 1 ⟨100, 0⟩ 0) x0.1 x0.2).bind fun x1 =>
    (playW exW (.spawn (exTotalWrite 3599999900000) :: gos 2 1) x1.1 x1.2).bind fun x2 =>
      (playW exW (exAgainHtml 3 ⟨200, 0⟩ 1) x2.1 x2.2).map fun x3 =>
        ([exPageText x1.2 1, exPageText x3.2 3], [exTime0 x1.2.mem.tree, exTime0 x3.2.mem.tree, exLengthens x3.1])

/-- the pages show 9999ns and 59m 59.999s twice each; the hypotheses of `C117_again` hold of them -/
example : ∃ (U V : List ((Str × Node) × List Str)) (T T' : Tree MValue), U ≠ [] ∧ V ≠ [] ∧
    (∀ m, TotalIs T m (.var 0)) ∧ (∀ m, TotalIs T' m (.var 0)) ∧
    exWriter.all [] (pageHead :: U.flatMap Prod.snd ++ [pageFoot]) = (exTotalOf "9999ns" "9999ns", .ok) ∧
    exWriter.all [] (pageHead :: V.flatMap Prod.snd ++ [pageFoot]) = (exTotalOf "59m 59.999s" "59m 59.999s", .ok) ∧
    ∀ u ∈ U, ∀ v ∈ V, TimesNotFalling T T' (.var 0) u v := by
  have h : exTotalHtmls = some ([some (exTotalOf "9999ns" "9999ns", true), some (exTotalOf "59m 59.999s" "59m 59.999s", true)], [true, true, true]) := by
    decide +kernel
  obtain ⟨⟨tr0, s0⟩, h0, h⟩ := Option.bind_eq_some_iff.mp h
  obtain ⟨⟨tr1, s1⟩, h1, h⟩ := Option.bind_eq_some_iff.mp h
  obtain ⟨⟨tr2, s2⟩, h2, h⟩ := Option.bind_eq_some_iff.mp h
  obtain ⟨⟨tr3, s3⟩, h3, h⟩ := Option.map_eq_some_iff.mp h
  simp only [Prod.mk.injEq, List.cons.injEq, and_true] at h
  obtain ⟨⟨e1, e2⟩, e3, e4, e5⟩ := h
  have r1 := playW_run (playW_run .nil h0) h1
  have r3 := playW_run (playW_run r1 h2) h3
  have l0 := playW_length h0
  have l1 := playW_length h1
  have l2 := playW_length h2
  obtain ⟨l, x, b, rfl, hx⟩ := playW_asked (ms := []) h1
  obtain ⟨c, rfl, -⟩ := playW_path h2
  obtain ⟨c', y, d, rfl, hy⟩ := playW_asked (ms := []) h3
  rw [l0] at hx
  rw [l2, l1, l0] at hy
  have hx' : x.lab = .spawn 1 (exHtmlAt (lit "/")) := hx
  have hy' : y.lab = .spawn 3 (exHtmlAt (lit "/")) := hy
  have hc : Components (lit "/") [] := C01_components (lit "/")
  obtain ⟨x1, st, y1, st', g1, g2, g3⟩ := C117_again (c := c ++ c') r1 (by simpa using r3) hc hc (f := some) (f' := some) hx' hy'
    (exPageText_eq e1) (exPageText_eq e2) (exLengthens_total (by simpa using e5))
  cases g1
  cases g2
  rcases g3 with g | g | ⟨U, V, k1, k2, k3⟩
  · exact absurd g (by decide +kernel)
  · exact absurd g (by decide +kernel)
  · refine ⟨U, V, _, _, ?_, ?_, exTime0_is e3, exTime0_is e4, k1.whole, k2.whole, k3⟩
    · rintro rfl
      exact absurd k1.whole (by decide +kernel)
    · rintro rfl
      exact absurd k2.whole (by decide +kernel)

end Tricorder.Whole
