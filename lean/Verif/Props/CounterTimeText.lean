import Verif.Proof.CounterTimeText
import Verif.Props.CounterTime
/-!
# C118: a running total of time never appears to fall on text pages
-/

namespace Tricorder.Whole
open Go _root_.Spec Tricorder.Spec Tree

variable {A W W' : Type} {w : World}

/-- **C118 (one page)** A text page that begins at `x` and is finished at the end, with any status.  If the path is that of a directory,
the page consists of complete lines and, if it breaks off, an incomplete one.  Of two complete lines that show the same total, the
lower one does not show a shorter time. -/
theorem C118_page {a b : List (Item A)} {x : Item A} {s : St A} (hr : Run w (a ++ x :: b) s) {c fuel : ℕ} {fm : Fmts} {wr : Writer W}
    {path : Str} {q : List Str} (hq : Components path q) {x0 : W} {f : W × Status → A}
    (hx : x.lab = .spawn c ((textEndpoint fm wr fuel path x0).bind fun r => .ret (f r))) {ans : A} {held : List (ℕ × ℕ)}
    (hd : s.procs[c]? = some ⟨.run (.ret ans), held⟩) {sc : Src} (hc : TimeTotal w sc (a ++ x :: b)) :
    let S := During b s.mem;
    ∃ x1 st, ans = f (x1, st) ∧
      ((∃ d, SeenDir S 0 q d ∧ ∃ (L : List (List Str)) (x2 : W) (cs : List Str), wr.all x0 L.flatten = (x2, .ok) ∧
        LastLine w fm s.mem.tree S cs ∧ (wr.all x2 cs).1 = x1 ∧ (st = .ok → cs = []) ∧
        L.Pairwise (LinesNotFalling s.mem.tree sc)) ∨
      (∃ m, Seen S 0 q m) ∨ x1 = (wr.write x0 (lit "*Path does not exist.*")).1) := by
  intro S
  obtain ⟨x1, st, e, h⟩ := C111_lines hr hq hx hd
  refine ⟨x1, st, e, ?_⟩
  rcases h with ⟨d, g1, L, ks, x2, cs, g2, g3, g4, g5, g6, g7⟩ | ⟨m, cs, g1, -⟩ | g1
  · refine .inl ⟨d, g1, L, x2, cs, g4, g5, g6, g7, forall₂_pairwise g3 g2 ?_⟩
    rintro l l' i j ⟨-, hl⟩ ⟨-, hl'⟩ hij p p' e e' hp hp' hk hk'
    have hj : b.take j = b.take i ++ (b.drop i).take (j - i) := by
      rw [← List.take_add]; congr 1; omega
    obtain ⟨u, u1, u2⟩ := line_time (q := b.drop i) hl hp hk (by
      rw [List.append_assoc, List.cons_append, List.take_append_drop]; exact hc)
    obtain ⟨v, v1, v2⟩ := line_time (q := b.drop j) hl' hp' hk' (by
      rw [List.append_assoc, List.cons_append, List.take_append_drop]; exact hc)
    refine ⟨u, v, u2, v2, hc.grows (a ++ x :: b.take i) ((b.drop i).take (j - i)) (b.drop j) u v ?_ u1 ?_⟩
    · rw [List.append_assoc, List.append_assoc, List.cons_append, ← List.append_assoc (b.take i), ← hj, List.take_append_drop]
    · rw [List.append_assoc, List.cons_append, ← hj]
      exact v1
  · exact .inr (.inl ⟨m, g1⟩)
  · exact .inr (.inr g1)

/-- **C118 (asking again)** The text page of a total is asked for, and later that of the same total, at the same or at another path
at which it is registered.  If there is no panic, the pages are one line each with a time in decimal, exactly, in the unit of the metric, as far as the
writers take it, and the second time is not shorter; nor is what the total gives in between shorter than the first or longer
than the second. -/
theorem C118_again {a b c d : List (Item A)} {x y : Item A} {s1 s2 : St A} (r1 : Run w (a ++ x :: b) s1)
    (r2 : Run w (a ++ x :: b ++ c ++ y :: d) s2) {i i' fuel fuel' : ℕ} {fm fm' : Fmts} {wr : Writer W} {wr' : Writer W'}
    {path path' : Str} {q q' : List Str} (hq : Components path q) (hq' : Components path' q')
    {x0 : W} {y0 : W'} {f : W × Status → A} {f' : W' × Status → A}
    (hx : x.lab = .spawn i ((textEndpoint fm wr fuel path x0).bind fun r => .ret (f r)))
    (hy : y.lab = .spawn i' ((textEndpoint fm' wr' fuel' path' y0).bind fun r => .ret (f' r))) {ans ans' : A} {held held' : List (ℕ × ℕ)}
    (h1 : s1.procs[i]? = some ⟨.run (.ret ans), held⟩) (h2 : s2.procs[i']? = some ⟨.run (.ret ans'), held'⟩) {m m' : ℕ}
    (hm : Stable (During b s1.mem) 0 q m) (hm' : Stable (During d s2.mem) 0 q' m') {sc : Src} {e e' : MUnit}
    (hk : TotalIn s1.mem.tree m sc e) (hk' : TotalIn s2.mem.tree m' sc e') (hc : TimeTotal w sc (a ++ x :: b ++ c ++ y :: d)) :
    ∃ x1 st y1 st', ans = f (x1, st) ∧ ans' = f' (y1, st') ∧ ((x1 = x0 ∧ st = .panic) ∨ (y1 = y0 ∧ st' = .panic) ∨
      ∃ u v t t', Denotes9 t (u * perSecond e) ∧ Denotes9 t' (v * perSecond e') ∧ wr.all x0 [t ++ lit "\n"] = (x1, st) ∧ wr'.all y0 [t' ++ lit "\n"] = (y1, st') ∧
        u ≤ v ∧ ∀ p p' z, c = p ++ p' → GivesTime w sc (a ++ x :: b ++ p) z → u ≤ z ∧ z ≤ v) := by
  have e1 := C01_components_unique hq
  have e2 := C01_components_unique hq'
  subst e1 e2
  obtain ⟨x1, st, g1, g2⟩ := text_total (q := c ++ y :: d) r1 hx h1 hm hk (by simpa using hc)
  obtain ⟨y1, st', g3, g4⟩ := text_total (q := []) r2 hy h2 hm' hk' (by simpa using hc)
  refine ⟨x1, st, y1, st', g1, g3, ?_⟩
  rcases g2 with g2 | ⟨p, p', u, t, rfl, u1, u2, u3⟩
  · exact .inl g2
  rcases g4 with g4 | ⟨o, o', v, t', rfl, v1, v2, v3⟩
  · exact .inr (.inl g4)
  refine .inr (.inr ⟨u, v, t, t', u2, v2, u3, v3, ?_, ?_⟩)
  · exact hc.grows (a ++ x :: p) (p' ++ c ++ y :: o) o' u v (by simp) u1 (by simpa using v1)
  · rintro c1 c2 z rfl hz
    exact ⟨hc.grows (a ++ x :: p) (p' ++ c1) (c2 ++ y :: (o ++ o')) u z (by simp) u1 (by simpa using hz),
      hc.grows (a ++ x :: (p ++ p') ++ c1) (c2 ++ y :: o) o' z v (by simp) hz (by simpa using v1)⟩

/-! ### Examples

The total of C117, on text pages. -/

/-- the unit at /c is second, that at other paths millisecond -/
def exUnit (p : Str) : MUnit := if p = lit "/c" then .second else .millisecond

/-- all metrics show variable 0, as time.Duration; metric 0 is at /c -/
def exUnits (T : Tree MValue) : Bool :=
  (List.range T.metrics.length).all fun i => match metricView T i with
    | some mv => decide ((mv.value.src = some (.var 0) ∧ mv.value.valType = .goDuration ∧ mv.value.unit = exUnit mv.path) ∧
        (mv.path = lit "/c" ↔ i = 0))
    | none => true

theorem exUnits_is {T : Tree MValue} (h : exUnits T = true) {id : ℕ} {mv : MetricView} (h1 : metricView T id = some mv) :
    (mv.value.src = some (.var 0) ∧ mv.value.valType = .goDuration ∧ mv.value.unit = exUnit mv.path) ∧ (mv.path = lit "/c" ↔ id = 0) := by
  have hlt : id < T.metrics.length := by
    by_contra hge
    unfold metricView at h1
    rw [List.getElem?_eq_none (by omega)] at h1
    cases h1
  have := List.all_eq_true.mp h id (by simpa using hlt)
  rw [h1] at this
  exact of_decide_eq_true this

theorem exUnits_at {T : Tree MValue} (h : exUnits T = true) (p : Str) : TotalAt T p (.var 0) (exUnit p) := by
  rintro id mv h1 rfl
  exact (exUnits_is h h1).1

theorem exUnits_in {T : Tree MValue} (h : exUnits T = true) (id : ℕ) : TotalIn T id (.var 0) (if id = 0 then .second else .millisecond) := by
  intro mv h1
  obtain ⟨⟨a, b, c⟩, d⟩ := exUnits_is h h1
  refine ⟨a, b, c.trans ?_⟩
  unfold exUnit
  by_cases hi : id = 0
  · rw [if_pos hi, if_pos (d.mpr hi)]
  · rw [if_neg hi, if_neg (fun e => hi (d.mp e))]

def exTotalPage1 : List (Move (Option (Str × Status))) :=
  (.spawn exTotalSetup :: gos 0 5) ++ .spawn (exTextAt (lit "/")) ::
    (gos 1 3 ++ taking 1 0 0 [] ⟨100, 0⟩ ++ gos 1 2 ++ .spawn (exTotalWrite 3599999900000) :: (gos 2 1 ++ gos 1 2 ++ releasing 1 0 0))

def exTotalPage : Option (Option (Str × Bool) × Bool × Bool) :=
  (playW exW exTotalPage1 [] (start _)).map fun x => (exPageText x.2 1, exLengthens x.1, exUnits x.2.mem.tree)

/-- the page shows 0.000009999 seconds at /c and 3599999.900000000 milliseconds at /d; the hypotheses of `C118_page` hold of it -/
example : ∃ (a b : List (Item (Option (Str × Status)))) (x : Item (Option (Str × Status))) (s : St (Option (Str × Status)))
    (L : List (List Str)), Run exW (a ++ x :: b) s ∧ TimeTotal exW (.var 0) (a ++ x :: b) ∧
      (∀ p, TotalAt s.mem.tree p (.var 0) (exUnit p)) ∧ exWriter.all [] L.flatten = (lit "/c 0.000009999\n/d 3599999.900000000\n", .ok) ∧
      L.Pairwise (LinesNotFalling s.mem.tree (.var 0)) := by
  have h : exTotalPage = some (some (lit "/c 0.000009999\n/d 3599999.900000000\n", true), true, true) := by decide +kernel
  obtain ⟨⟨tr, s⟩, h1, h2⟩ := Option.map_eq_some_iff.mp h
  simp only [Prod.mk.injEq] at h2
  obtain ⟨e1, e2, e3⟩ := h2
  have r1 := playW_run .nil h1
  obtain ⟨a, x, b, rfl, hx⟩ := playW_asked (ms := .spawn exTotalSetup :: gos 0 5) h1
  rw [List.nil_append] at r1 e2
  have hc : Components (lit "/") [] := C01_components (lit "/")
  obtain ⟨x1, st, e, h⟩ := C118_page r1 hc (f := some) hx (exPageText_eq e1) (exLengthens_total e2)
  cases e
  rcases h with ⟨d, -, L, x2, cs, u1, -, u3, u4, u5⟩ | ⟨m, k⟩ | k
  · rw [u4 rfl] at u3
    change x2 = _ at u3
    subst u3
    exact ⟨a, b, x, s, L, r1, exLengthens_total e2, exUnits_at e3, u1, u5⟩
  · cases k
  · exact absurd k (by decide +kernel)

def exTotalPages : Option (List (Option (Str × Bool)) × List Bool) :=
  (playW exW exTotal0 [] (start _)).bind fun x0 => (playW exW exAgain1 x0.1 x0.2).bind fun x1 =>
    (playW exW (.spawn (exTotalWrite 3599999900000) :: gos 2 1) x1.1 x1.2).bind fun x2 => (playW exW exAgain3 x2.1 x2.2).map fun x3 =>
      ([exPageText x1.2 1, exPageText x3.2 3], [exUnits x1.2.mem.tree, exUnits x3.2.mem.tree,
        exAlways (x1.1.drop x0.1.length) x1.2 (lit "c") 0, exAlways (x3.1.drop x2.1.length) x3.2 (lit "d") 1, exLengthens x3.1])

/-- the pages show 0.000009999 seconds and 3599999.900000000 milliseconds; the hypotheses of `C118_again` hold of them -/
example : ∃ (x1 y1 : Str) (st st' : Status) (u v : ℤ) (t t' : Str), (x1, st) = (lit "0.000009999\n", .ok) ∧ (y1, st') = (lit "3599999.900000000\n", .ok) ∧
    Denotes9 t (u * perSecond .second) ∧ Denotes9 t' (v * perSecond .millisecond) ∧ exWriter.all [] [t ++ lit "\n"] = (x1, st) ∧ exWriter.all [] [t' ++ lit "\n"] = (y1, st') ∧
    u ≤ v := by
  have h : exTotalPages = some ([some (lit "0.000009999\n", true), some (lit "3599999.900000000\n", true)], [true, true, true, true, true]) := by
    decide +kernel
  obtain ⟨⟨tr0, s0⟩, h0, h⟩ := Option.bind_eq_some_iff.mp h
  obtain ⟨⟨tr1, s1⟩, h1, h⟩ := Option.bind_eq_some_iff.mp h
  obtain ⟨⟨tr2, s2⟩, h2, h⟩ := Option.bind_eq_some_iff.mp h
  obtain ⟨⟨tr3, s3⟩, h3, h⟩ := Option.map_eq_some_iff.mp h
  simp only [Prod.mk.injEq, List.cons.injEq, and_true] at h
  obtain ⟨⟨e1, e2⟩, e3, e4, e5, e6, e7⟩ := h
  have r1 := playW_run (playW_run .nil h0) h1
  have r3 := playW_run (playW_run r1 h2) h3
  have l0 := playW_length h0
  have l1 := playW_length h1
  have l2 := playW_length h2
  obtain ⟨l, x, b, rfl, hx⟩ := playW_asked (ms := []) h1
  obtain ⟨c, rfl, -⟩ := playW_path h2
  obtain ⟨c', y, d, rfl, hy⟩ := playW_asked (ms := []) h3
  rw [l0] at hx
  rw [l2, l1, l0] at hy
  have hx' : x.lab = .spawn 1 (exTextAt (lit "/c")) := hx
  have hy' : y.lab = .spawn 3 (exTextAt (lit "/d")) := hy
  have hc1 : Components (lit "/c") [lit "c"] := C01_components (lit "/c")
  have hc2 : Components (lit "/d") [lit "d"] := C01_components (lit "/d")
  have hs1 : Stable (During b s1.mem) 0 [lit "c"] 0 := exAlways_stable e5 fun it hit => mem_drop hit
  have hs2 : Stable (During d s3.mem) 0 [lit "d"] 1 := exAlways_stable e6 fun it hit => mem_drop hit
  obtain ⟨x1, st, y1, st', g1, g2, g3⟩ := C118_again (c := c ++ c') r1 (by simpa using r3) hc1 hc2 (f := some) (f' := some) hx' hy'
    (exPageText_eq e1) (exPageText_eq e2) hs1 hs2 (exUnits_in e3 0) (exUnits_in e4 1) (exLengthens_total (by simpa using e7))
  cases g1
  cases g2
  rcases g3 with ⟨g, -⟩ | ⟨g, -⟩ | ⟨u, v, t, t', k1, k2, k3, k4, k5, -⟩
  · cases g
  · cases g
  · exact ⟨_, _, _, _, u, v, t, t', rfl, rfl, k1, k2, k3, k4, k5⟩

end Tricorder.Whole
