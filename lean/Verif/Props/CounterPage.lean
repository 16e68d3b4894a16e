import Verif.Proof.CounterPage
import Verif.Props.Counter
import Verif.Props.TextOrder
/-!
# C113: a counter never appears to fall on text pages
-/

namespace Tricorder.Whole
open Go _root_.Spec Tricorder.Spec Tree

variable {A W W' : Type} {w : World}

/-- **C113 (one page)** A text page that begins at `x` and is finished at the end, with any status.  If the path is that of a directory,
the page consists of complete lines and, if it breaks off, an incomplete one.  Of two complete lines that show the same counter, the
lower one does not show a smaller number. -/
theorem C113_page {a b : List (Item A)} {x : Item A} {s : St A} (hr : Run w (a ++ x :: b) s) {c fuel : ℕ} {fm : Fmts} {wr : Writer W}
    {path : Str} {q : List Str} (hq : Components path q) {x0 : W} {f : W × Status → A}
    (hx : x.lab = .spawn c ((textEndpoint fm wr fuel path x0).bind fun r => .ret (f r))) {ans : A} {held : List (ℕ × ℕ)}
    (hd : s.procs[c]? = some ⟨.run (.ret ans), held⟩) {sc : Src} {k : IntKind} (hc : Counter w sc k (a ++ x :: b)) :
    let S := During b s.mem;
    ∃ x1 st, ans = f (x1, st) ∧
      ((∃ d, SeenDir S 0 q d ∧ ∃ (L : List (List Str)) (x2 : W) (cs : List Str), wr.all x0 L.flatten = (x2, .ok) ∧
        LastLine w fm s.mem.tree S cs ∧ (wr.all x2 cs).1 = x1 ∧ (st = .ok → cs = []) ∧
        L.Pairwise (NotFalling s.mem.tree sc k)) ∨
      (∃ m, Seen S 0 q m) ∨ x1 = (wr.write x0 (lit "*Path does not exist.*")).1) := by
  intro S
  obtain ⟨x1, st, e, h⟩ := C111_lines hr hq hx hd
  refine ⟨x1, st, e, ?_⟩
  rcases h with ⟨d, g1, L, ks, x2, cs, g2, g3, g4, g5, g6, g7⟩ | ⟨m, cs, g1, -⟩ | g1
  · refine .inl ⟨d, g1, L, x2, cs, g4, g5, g6, g7, forall₂_pairwise g3 g2 ?_⟩
    rintro l l' i j ⟨-, hl⟩ ⟨-, hl'⟩ hij p p' hp hp' hk hk'
    have hj : b.take j = b.take i ++ (b.drop i).take (j - i) := by
      rw [← List.take_add]; congr 1; omega
    obtain ⟨u, u1, u2⟩ := line_int (q := b.drop i) hl hp hk (by
      rw [List.append_assoc, List.cons_append, List.take_append_drop]; exact hc)
    obtain ⟨v, v1, v2⟩ := line_int (q := b.drop j) hl' hp' hk' (by
      rw [List.append_assoc, List.cons_append, List.take_append_drop]; exact hc)
    refine ⟨u, v, u2, v2, hc.grows (a ++ x :: b.take i) ((b.drop i).take (j - i)) (b.drop j) u v ?_ u1 ?_⟩
    · rw [List.append_assoc, List.append_assoc, List.cons_append, ← List.append_assoc (b.take i), ← hj, List.take_append_drop]
    · rw [List.append_assoc, List.cons_append, ← hj]
      exact v1
  · exact .inr (.inl ⟨m, g1⟩)
  · exact .inr (.inr g1)

/-- **C113 (asking again)** The text page of a counter is asked for, and later that of the same counter, at the same or at another path
at which it is registered.  If there is no panic, the pages are one line each with an integer in decimal, as far as the
writers take it, and the second one is not smaller; nor is what the counter gives in between smaller than the first or greater
than the second. -/
theorem C113_again {a b c d : List (Item A)} {x y : Item A} {s1 s2 : St A} (r1 : Run w (a ++ x :: b) s1)
    (r2 : Run w (a ++ x :: b ++ c ++ y :: d) s2) {i i' fuel fuel' : ℕ} {fm fm' : Fmts} {wr : Writer W} {wr' : Writer W'}
    {path path' : Str} {q q' : List Str} (hq : Components path q) (hq' : Components path' q')
    {x0 : W} {y0 : W'} {f : W × Status → A} {f' : W' × Status → A}
    (hx : x.lab = .spawn i ((textEndpoint fm wr fuel path x0).bind fun r => .ret (f r)))
    (hy : y.lab = .spawn i' ((textEndpoint fm' wr' fuel' path' y0).bind fun r => .ret (f' r))) {ans ans' : A} {held held' : List (ℕ × ℕ)}
    (h1 : s1.procs[i]? = some ⟨.run (.ret ans), held⟩) (h2 : s2.procs[i']? = some ⟨.run (.ret ans'), held'⟩) {m m' : ℕ}
    (hm : Stable (During b s1.mem) 0 q m) (hm' : Stable (During d s2.mem) 0 q' m') {sc : Src} {k : IntKind}
    (hk : CounterIs s1.mem.tree m sc k) (hk' : CounterIs s2.mem.tree m' sc k) (hc : Counter w sc k (a ++ x :: b ++ c ++ y :: d)) :
    ∃ x1 st y1 st', ans = f (x1, st) ∧ ans' = f' (y1, st') ∧ ((x1 = x0 ∧ st = .panic) ∨ (y1 = y0 ∧ st' = .panic) ∨
      ∃ u v t t', DenotesInt t u ∧ DenotesInt t' v ∧ wr.all x0 [t ++ lit "\n"] = (x1, st) ∧ wr'.all y0 [t' ++ lit "\n"] = (y1, st') ∧
        u ≤ v ∧ ∀ p p' z, c = p ++ p' → GivesInt w sc (a ++ x :: b ++ p) z → u ≤ z ∧ z ≤ v) := by
  have e1 := C01_components_unique hq
  have e2 := C01_components_unique hq'
  subst e1 e2
  obtain ⟨x1, st, g1, g2⟩ := text_counter (q := c ++ y :: d) r1 hx h1 hm hk (by simpa using hc)
  obtain ⟨y1, st', g3, g4⟩ := text_counter (q := []) r2 hy h2 hm' hk' (by simpa using hc)
  refine ⟨x1, st, y1, st', g1, g3, ?_⟩
  rcases g2 with g2 | ⟨p, p', u, t, rfl, u1, u2, u3⟩
  · exact .inl g2
  rcases g4 with g4 | ⟨o, o', v, t', rfl, v1, v2, v3⟩
  · exact .inr (.inl g4)
  refine .inr (.inr ⟨u, v, t, t', u2, v2, u3, v3, ?_, ?_⟩)
  · exact hc.grows (a ++ x :: p) (p' ++ c ++ y :: o) o' u v (by simp) u1 (by simpa using v1)
  · rintro c1 c2 z rfl hz
    exact ⟨hc.grows (a ++ x :: p) (p' ++ c1) (c2 ++ y :: (o ++ o')) u z (by simp) u1 (by simpa using hz),
      hc.grows (a ++ x :: (p ++ p') ++ c1) (c2 ++ y :: o) o' z v (by simp) hz (by simpa using v1)⟩

/-! ### Examples

The counter of C107, on text pages: it is set to 7 between the lines of a page. -/

def exPageCounter : Prog (Option (Str × Status)) := exCounterSetup.bind fun _ => .ret none
def exPageWrite (z : ℤ) : Prog (Option (Str × Status)) := (exCounterWrite z).bind fun _ => .ret none
def exTextAt (path : Str) : Prog (Option (Str × Status)) := (textEndpoint exFm exWriter 3 path []).bind fun r => .ret (some r)

def exCounterPage1 : List (Move (Option (Str × Status))) :=
  (.spawn exPageCounter :: gos 0 5) ++ .spawn (exTextAt (lit "/")) ::
    (gos 1 3 ++ taking 1 0 0 [] ⟨100, 0⟩ ++ gos 1 2 ++ .spawn (exPageWrite 7) :: (gos 2 1 ++ gos 1 2 ++ releasing 1 0 0))

/-- all metrics show variable 0, as int64 -/
def exInt0 (T : Tree MValue) : Bool :=
  (List.range T.metrics.length).all fun i => match metricView T i with
    | some mv => decide (mv.value.src = some (.var 0) ∧ mv.value.valType = .int64)
    | none => true

theorem exInt0_is {T : Tree MValue} (h : exInt0 T = true) (id : ℕ) : CounterIs T id (.var 0) .int64 := by
  intro mv h1
  have hlt : id < T.metrics.length := by
    by_contra hge
    unfold metricView at h1
    rw [List.getElem?_eq_none (by omega)] at h1
    cases h1
  have := List.all_eq_true.mp h id (by simpa using hlt)
  rw [h1] at this
  exact of_decide_eq_true this

def exCounterPage : Option (Option (Str × Bool) × Bool × Bool) :=
  (playW exW exCounterPage1 [] (start _)).map fun x => (exPageText x.2 1, exClimbs x.1, exInt0 x.2.mem.tree)

/-- the page shows 5 at /c and 7 at /d; the hypotheses of `C113_page` hold of it -/
example : ∃ (a b : List (Item (Option (Str × Status)))) (x : Item (Option (Str × Status))) (s : St (Option (Str × Status)))
    (L : List (List Str)), Run exW (a ++ x :: b) s ∧ Counter exW (.var 0) .int64 (a ++ x :: b) ∧
      (∀ p, CounterAt s.mem.tree p (.var 0) .int64) ∧ exWriter.all [] L.flatten = (lit "/c 5\n/d 7\n", .ok) ∧
      L.Pairwise (NotFalling s.mem.tree (.var 0) .int64) := by
  have h : exCounterPage = some (some (lit "/c 5\n/d 7\n", true), true, true) := by decide +kernel
  obtain ⟨⟨tr, s⟩, h1, h2⟩ := Option.map_eq_some_iff.mp h
  simp only [Prod.mk.injEq] at h2
  obtain ⟨e1, e2, e3⟩ := h2
  have r1 := playW_run .nil h1
  obtain ⟨a, x, b, rfl, hx⟩ := playW_asked (ms := .spawn exPageCounter :: gos 0 5) h1
  rw [List.nil_append] at r1 e2
  have hc : Components (lit "/") [] := C01_components (lit "/")
  obtain ⟨x1, st, e, h⟩ := C113_page r1 hc (f := some) hx (exPageText_eq e1) (exClimbs_counter e2)
  cases e
  rcases h with ⟨d, -, L, x2, cs, u1, -, u3, u4, u5⟩ | ⟨m, k⟩ | k
  · rw [u4 rfl] at u3
    change x2 = _ at u3
    subst u3
    exact ⟨a, b, x, s, L, r1, exClimbs_counter e2, fun p id mv g _ => exInt0_is e3 id mv g, u1, u5⟩
  · cases k
  · exact absurd k (by decide +kernel)

/-- the entry `name` of the root is metric `m` before each of the steps -/
def exRootHas (t : Tree MValue) (name : Str) (m : ℕ) : Bool :=
  (t.contents 0).any fun x => decide (x.1 = name) && match t.entries[x.2]? with
    | some en => decide (en.metric = some m)
    | none => false

theorem exRootHas_reaches {t : Tree MValue} {name : Str} {m : ℕ} (h : exRootHas t name m = true) : Reaches t 0 [name] (.metric m) := by
  obtain ⟨⟨n, e⟩, h1, h2⟩ := List.any_eq_true.mp h
  simp only [Bool.and_eq_true, decide_eq_true_eq] at h2
  obtain ⟨rfl, h3⟩ := h2
  split at h3
  · rename_i en he
    exact .metric h1 he (of_decide_eq_true h3)
  · cases h3

def exAlways (l : List (Item (Option (Str × Status)))) (s : St (Option (Str × Status))) (name : Str) (m : ℕ) : Bool :=
  l.all (fun it => exRootHas it.pre.tree name m) && exRootHas s.mem.tree name m

theorem exAlways_stable {l b : List (Item (Option (Str × Status)))} {s : St (Option (Str × Status))} {name : Str} {m : ℕ}
    (h : exAlways l s name m = true) (hb : ∀ it ∈ b, it ∈ l) : Stable (During b s.mem) 0 [name] m := by
  obtain ⟨h1, h2⟩ := Bool.and_eq_true_iff.mp h
  rintro σ (⟨it, hit, rfl⟩ | rfl)
  · exact exRootHas_reaches (List.all_eq_true.mp h1 it (hb it hit))
  · exact exRootHas_reaches h2

def exAgain0 : List (Move (Option (Str × Status))) := .spawn exPageCounter :: gos 0 5

/-- the page of /c -/
def exAgain1 : List (Move (Option (Str × Status))) :=
  .spawn (exTextAt (lit "/c")) :: (gos 1 2 ++ taking 1 0 0 [] ⟨100, 0⟩ ++ releasing 1 0 0 ++ gos 1 1)

/-- the counter is set to 7 -/
def exAgain2 : List (Move (Option (Str × Status))) := .spawn (exPageWrite 7) :: gos 2 1

/-- the page of /d -/
def exAgain3 : List (Move (Option (Str × Status))) :=
  .spawn (exTextAt (lit "/d")) :: (gos 3 2 ++ taking 3 0 1 [] ⟨200, 0⟩ ++ releasing 3 0 1 ++ gos 3 1)

def exAgainPages : Option (List (Option (Str × Bool)) × List Bool) :=
  (playW exW exAgain0 [] (start _)).bind fun x0 => (playW exW exAgain1 x0.1 x0.2).bind fun x1 =>
    (playW exW exAgain2 x1.1 x1.2).bind fun x2 => (playW exW exAgain3 x2.1 x2.2).map fun x3 =>
      ([exPageText x1.2 1, exPageText x3.2 3], [exInt0 x1.2.mem.tree, exInt0 x3.2.mem.tree,
        exAlways (x1.1.drop x0.1.length) x1.2 (lit "c") 0, exAlways (x3.1.drop x2.1.length) x3.2 (lit "d") 1, exClimbs x3.1])

theorem mem_drop {X : Type} {t l b : List X} {y z : X} (hz : z ∈ b) : z ∈ (t ++ l ++ y :: b).drop t.length := by
  rw [List.append_assoc, List.drop_left]
  simp [hz]

/-- the pages show 5 and 7; the hypotheses of `C113_again` hold of them -/
example : ∃ (x1 y1 : Str) (st st' : Status) (u v : ℤ) (t t' : Str), (x1, st) = (lit "5\n", .ok) ∧ (y1, st') = (lit "7\n", .ok) ∧
    DenotesInt t u ∧ DenotesInt t' v ∧ exWriter.all [] [t ++ lit "\n"] = (x1, st) ∧ exWriter.all [] [t' ++ lit "\n"] = (y1, st') ∧
    u ≤ v := by
  have h : exAgainPages = some ([some (lit "5\n", true), some (lit "7\n", true)], [true, true, true, true, true]) := by
    decide +kernel
  obtain ⟨⟨tr0, s0⟩, h0, h⟩ := Option.bind_eq_some_iff.mp h
  obtain ⟨⟨tr1, s1⟩, h1, h⟩ := Option.bind_eq_some_iff.mp h
  obtain ⟨⟨tr2, s2⟩, h2, h⟩ := Option.bind_eq_some_iff.mp h
  obtain ⟨⟨tr3, s3⟩, h3, h⟩ := Option.map_eq_some_iff.mp h
  simp only [Prod.mk.injEq, List.cons.injEq, and_true] at h
  obtain ⟨⟨e1, e2⟩, e3, e4, e5, e6, e7⟩ := h
  have r1 := playW_run (playW_run .nil h0) h1
  have r3 := playW_run (playW_run r1 h2) h3
  have l0 := playW_length h0
  have l1 := playW_length h1
  have l2 := playW_length h2
  obtain ⟨l, x, b, rfl, hx⟩ := playW_asked (ms := []) h1
  obtain ⟨c, rfl, -⟩ := playW_path h2
  obtain ⟨c', y, d, rfl, hy⟩ := playW_asked (ms := []) h3
  rw [l0] at hx
  rw [l2, l1, l0] at hy
  have hx' : x.lab = .spawn 1 (exTextAt (lit "/c")) := hx
  have hy' : y.lab = .spawn 3 (exTextAt (lit "/d")) := hy
  have hc1 : Components (lit "/c") [lit "c"] := C01_components (lit "/c")
  have hc2 : Components (lit "/d") [lit "d"] := C01_components (lit "/d")
  have hs1 : Stable (During b s1.mem) 0 [lit "c"] 0 := exAlways_stable e5 fun it hit => mem_drop hit
  have hs2 : Stable (During d s3.mem) 0 [lit "d"] 1 := exAlways_stable e6 fun it hit => mem_drop hit
  obtain ⟨x1, st, y1, st', g1, g2, g3⟩ := C113_again (c := c ++ c') r1 (by simpa using r3) hc1 hc2 (f := some) (f' := some) hx' hy'
    (exPageText_eq e1) (exPageText_eq e2) hs1 hs2 (exInt0_is e3 0) (exInt0_is e4 1) (exClimbs_counter (by simpa using e7))
  cases g1
  cases g2
  rcases g3 with ⟨g, -⟩ | ⟨g, -⟩ | ⟨u, v, t, t', k1, k2, k3, k4, k5, -⟩
  · cases g
  · cases g
  · exact ⟨_, _, _, _, u, v, t, t', rfl, rfl, k1, k2, k3, k4, k5⟩

end Tricorder.Whole
