import Verif.Proof.CounterHtml
import Verif.Props.CounterPage
/-!
# C114: a counter never appears to fall on HTML pages
-/

namespace Tricorder.Whole
open Go _root_.Spec Tricorder.Spec Tree

variable {A W W' : Type} {w : World}

/-- **C114 (one page)** An HTML page that begins at `x` and is finished at the end, with any status.  It says that the path does not exist,
or it consists of complete items and, if it breaks off, an incomplete one.  Of two complete items that show the same counter,
the lower one does not show a smaller number; each shows a value that the counter had during the request.  Numbers with a unit are
shown in the short form, which is rounded: if both items have the same unit, what they stand for does not fall either. -/
theorem C114_page {a b : List (Item A)} {x : Item A} {s : St A} (hr : Run w (a ++ x :: b) s) {c : ℕ} {fm : Fmts} {wr : Writer W}
    {path : Str} {q : List Str} (hq : Components path q) {x0 : W} {f : W × Status → A}
    (hx : x.lab = .spawn c ((htmlEndpoint fm wr path x0).bind fun r => .ret (f r))) {ans : A} {held : List (ℕ × ℕ)}
    (hd : s.procs[c]? = some ⟨.run (.ret ans), held⟩) {sc : Src} {k : IntKind} (hc : Counter w sc k (a ++ x :: b)) :
    ∃ x1 st, ans = f (x1, st) ∧ ((∃ U, HtmlPage w fm wr (During b s.mem) q x0 x1 st U ∧
        U.Pairwise (ItemsNotFalling s.mem.tree s.mem.tree sc k) ∧ ∀ u ∈ U, ∀ m, u.1.2 = .metric m → CounterIs s.mem.tree m sc k →
          ∃ p p' z, b = p ++ p' ∧ GivesInt w sc (a ++ x :: p) z ∧ ItemOf s.mem.tree m z u.2) ∨
      x1 = (wr.write x0 (lit "Path does not exist.")).1) := by
  obtain ⟨x1, st, h1, h2⟩ := html_items (q' := []) hr hq hx hd (by simpa using hc)
  refine ⟨x1, st, h1, h2.imp ?_ fun h => h⟩
  rintro ⟨U, g1, g2, g3⟩
  refine ⟨U, g1, g2, fun u hu m hm hk => ?_⟩
  obtain ⟨p, p', z, e1, e2, e3⟩ := g3 u hu m hm hk
  exact ⟨p, p', z, e1, by simpa using e2, e3.item⟩

/-- **C114 (asking again)** An HTML page is asked for, and when it is finished another one, of the same path or of any other.  If both
paths exist, an item of the second page that shows a counter does not show a smaller number than an item of the first page that
shows the same counter. -/
theorem C114_again {a b c d : List (Item A)} {x y : Item A} {s1 s2 : St A} (r1 : Run w (a ++ x :: b) s1)
    (r2 : Run w (a ++ x :: b ++ c ++ y :: d) s2) {i i' : ℕ} {fm fm' : Fmts} {wr : Writer W} {wr' : Writer W'}
    {path path' : Str} {q q' : List Str} (hq : Components path q) (hq' : Components path' q')
    {x0 : W} {y0 : W'} {f : W × Status → A} {f' : W' × Status → A}
    (hx : x.lab = .spawn i ((htmlEndpoint fm wr path x0).bind fun r => .ret (f r)))
    (hy : y.lab = .spawn i' ((htmlEndpoint fm' wr' path' y0).bind fun r => .ret (f' r))) {ans ans' : A} {held held' : List (ℕ × ℕ)}
    (h1 : s1.procs[i]? = some ⟨.run (.ret ans), held⟩) (h2 : s2.procs[i']? = some ⟨.run (.ret ans'), held'⟩)
    {sc : Src} {k : IntKind} (hc : Counter w sc k (a ++ x :: b ++ c ++ y :: d)) :
    ∃ x1 st y1 st', ans = f (x1, st) ∧ ans' = f' (y1, st') ∧ (x1 = (wr.write x0 (lit "Path does not exist.")).1 ∨
      y1 = (wr'.write y0 (lit "Path does not exist.")).1 ∨
      ∃ U V, HtmlPage w fm wr (During b s1.mem) q x0 x1 st U ∧ HtmlPage w fm' wr' (During d s2.mem) q' y0 y1 st' V ∧
        ∀ u ∈ U, ∀ v ∈ V, ItemsNotFalling s1.mem.tree s2.mem.tree sc k u v) := by
  obtain ⟨x1, st, g1, g2⟩ := html_items (q' := c ++ y :: d) r1 hq hx h1 (by simpa using hc)
  obtain ⟨y1, st', g3, g4⟩ := html_items (q' := []) r2 hq' hy h2 (by simpa using hc)
  refine ⟨x1, st, y1, st', g1, g3, ?_⟩
  rcases g2 with ⟨U, u1, -, u2⟩ | g2
  · rcases g4 with ⟨V, v1, -, v2⟩ | g4
    · refine .inr (.inr ⟨U, V, u1, v1, ?_⟩)
      intro u hu v hv
      refine notFalling (fm := fm) (fm' := fm') ?_
      intro m n hm hn hk hk'
      obtain ⟨p, p', z, rfl, e1, e2⟩ := u2 u hu m hm hk
      obtain ⟨o, o', z', rfl, e3, e4⟩ := v2 v hv n hn hk'
      exact ⟨z, z', e2, e4, hc.grows (a ++ [x] ++ p) (p' ++ c ++ y :: o) o' z z' (by simp) e1 (by simpa using e3)⟩
    · exact .inr (.inl g4)
  · exact .inl g2

/-! ### Examples

The counter of C107, on HTML pages: it is set to 7000 between the items of a page. -/

def exHtmlAt (path : Str) : Prog (Option (Str × Status)) := (htmlEndpoint exFm exWriter path []).bind fun r => .ret (some r)

def exHtmlOf (u v : String) : Str :=
  pageHead ++ lit "      /c " ++ lit u ++ lit " <span class=\"parens\">(int64: )</span><br>\n      /d " ++ lit v ++
    lit " <span class=\"parens\">(int64: )</span><br>\n" ++ pageFoot

def exCounterHtml1 : List (Move (Option (Str × Status))) :=
  (.spawn exPageCounter :: gos 0 5) ++ .spawn (exHtmlAt (lit "/")) ::
    (gos 1 2 ++ taking 1 0 0 [] ⟨100, 0⟩ ++ gos 1 1 ++ .spawn (exPageWrite 7000) :: (gos 2 1 ++ gos 1 2 ++ releasing 1 0 0))

def exCounterHtml : Option (Option (Str × Bool) × Bool × Bool) :=
  (playW exW exCounterHtml1 [] (start _)).map fun x => (exPageText x.2 1, exClimbs x.1, exInt0 x.2.mem.tree)

/-- a page that is complete has its items between head and foot -/
theorem HtmlPage.whole {W : Type} {fm : Fmts} {wr : Writer W} {S : State → Prop} {q : List Str} {x0 x1 : W}
    {U : List ((Str × Node) × List Str)} (h : HtmlPage w fm wr S q x0 x1 .ok U) :
    wr.all x0 (pageHead :: U.flatMap Prod.snd ++ [pageFoot]) = (x1, .ok) := by
  cases h with
  | head _ _ h => exact absurd rfl h
  | dir _ _ _ h h' =>
    rcases h' with ⟨-, h'⟩ | ⟨h', -⟩
    · exact all_ok_app h h'
    · exact absurd rfl h'
  | metric _ h h' =>
    rcases h' with ⟨-, h'⟩ | ⟨h', -⟩
    · exact all_ok_app h h'
    · exact absurd rfl h'

/-- the page shows 5 at /c and 7,000 at /d; the hypotheses of `C114_page` hold of it -/
example : ∃ (a b : List (Item (Option (Str × Status)))) (x : Item (Option (Str × Status))) (s : St (Option (Str × Status)))
    (U : List ((Str × Node) × List Str)), Run exW (a ++ x :: b) s ∧ Counter exW (.var 0) .int64 (a ++ x :: b) ∧
      (∀ m, CounterIs s.mem.tree m (.var 0) .int64) ∧
      exWriter.all [] (pageHead :: U.flatMap Prod.snd ++ [pageFoot]) = (exHtmlOf "5" "7,000", .ok) ∧
      U.Pairwise (ItemsNotFalling s.mem.tree s.mem.tree (.var 0) .int64) := by
  have h : exCounterHtml = some (some (exHtmlOf "5" "7,000", true), true, true) := by decide +kernel
  obtain ⟨⟨tr, s⟩, h1, h2⟩ := Option.map_eq_some_iff.mp h
  simp only [Prod.mk.injEq] at h2
  obtain ⟨e1, e2, e3⟩ := h2
  have r1 := playW_run .nil h1
  obtain ⟨a, x, b, rfl, hx⟩ := playW_asked (ms := .spawn exPageCounter :: gos 0 5) h1
  rw [List.nil_append] at r1 e2
  have hc : Components (lit "/") [] := C01_components (lit "/")
  obtain ⟨x1, st, e, h⟩ := C114_page r1 hc (f := some) hx (exPageText_eq e1) (exClimbs_counter e2)
  cases e
  rcases h with ⟨U, u1, u2, -⟩ | k
  · exact ⟨a, b, x, s, U, r1, exClimbs_counter e2, exInt0_is e3, u1.whole, u2⟩
  · exact absurd k (by decide +kernel)

def exAgainHtml (c : ℕ) (t : Time) (h : ℕ) : List (Move (Option (Str × Status))) :=
  .spawn (exHtmlAt (lit "/")) :: (gos c 2 ++ taking c 0 h [] t ++ gos c 3 ++ releasing c 0 h)

def exAgainHtmls : Option (List (Option (Str × Bool)) × List Bool) :=
  (playW exW exAgain0 [] (start _)).bind fun x0 => (playW exW (exAgainHtml 1 ⟨100, 0⟩ 0) x0.1 x0.2).bind fun x1 =>
    (playW exW (.spawn (exPageWrite 7000) :: gos 2 1) x1.1 x1.2).bind fun x2 =>
      (playW exW (exAgainHtml 3 ⟨200, 0⟩ 1) x2.1 x2.2).map fun x3 =>
        ([exPageText x1.2 1, exPageText x3.2 3], [exInt0 x1.2.mem.tree, exInt0 x3.2.mem.tree, exClimbs x3.1])

/-- the pages show 5 and 7,000 twice each; the hypotheses of `C114_again` hold of them -/
example : ∃ (U V : List ((Str × Node) × List Str)) (T T' : Tree MValue), U ≠ [] ∧ V ≠ [] ∧
    (∀ m, CounterIs T m (.var 0) .int64) ∧ (∀ m, CounterIs T' m (.var 0) .int64) ∧
    exWriter.all [] (pageHead :: U.flatMap Prod.snd ++ [pageFoot]) = (exHtmlOf "5" "5", .ok) ∧
    exWriter.all [] (pageHead :: V.flatMap Prod.snd ++ [pageFoot]) = (exHtmlOf "7,000" "7,000", .ok) ∧
    ∀ u ∈ U, ∀ v ∈ V, ItemsNotFalling T T' (.var 0) .int64 u v := by
  have h : exAgainHtmls = some ([some (exHtmlOf "5" "5", true), some (exHtmlOf "7,000" "7,000", true)], [true, true, true]) := by
    decide +kernel
  obtain ⟨⟨tr0, s0⟩, h0, h⟩ := Option.bind_eq_some_iff.mp h
  obtain ⟨⟨tr1, s1⟩, h1, h⟩ := Option.bind_eq_some_iff.mp h
  obtain ⟨⟨tr2, s2⟩, h2, h⟩ := Option.bind_eq_some_iff.mp h
  obtain ⟨⟨tr3, s3⟩, h3, h⟩ := Option.map_eq_some_iff.mp h
  simp only [Prod.mk.injEq, List.cons.injEq, and_true] at h
  obtain ⟨⟨e1, e2⟩, e3, e4, e5⟩ := h
  have r1 := playW_run (playW_run .nil h0) h1
  have r3 := playW_run (playW_run r1 h2) h3
  have l0 := playW_length h0
  have l1 := playW_length h1
  have l2 := playW_length h2
  obtain ⟨l, x, b, rfl, hx⟩ := playW_asked (ms := []) h1
  obtain ⟨c, rfl, -⟩ := playW_path h2
  obtain ⟨c', y, d, rfl, hy⟩ := playW_asked (ms := []) h3
  rw [l0] at hx
  rw [l2, l1, l0] at hy
  have hx' : x.lab = .spawn 1 (exHtmlAt (lit "/")) := hx
  have hy' : y.lab = .spawn 3 (exHtmlAt (lit "/")) := hy
  have hc : Components (lit "/") [] := C01_components (lit "/")
  obtain ⟨x1, st, y1, st', g1, g2, g3⟩ := C114_again (c := c ++ c') r1 (by simpa using r3) hc hc (f := some) (f' := some) hx' hy'
    (exPageText_eq e1) (exPageText_eq e2) (exClimbs_counter (by simpa using e5))
  cases g1
  cases g2
  rcases g3 with g | g | ⟨U, V, k1, k2, k3⟩
  · exact absurd g (by decide +kernel)
  · exact absurd g (by decide +kernel)
  · refine ⟨U, V, _, _, ?_, ?_, exInt0_is e3, exInt0_is e4, k1.whole, k2.whole, k3⟩
    · rintro rfl
      exact absurd k1.whole (by decide +kernel)
    · rintro rfl
      exact absurd k2.whole (by decide +kernel)

end Tricorder.Whole
