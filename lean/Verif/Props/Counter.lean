import Verif.Proof.Counter
import Verif.Props.Order
/-!
# A counter that never falls never appears to fall (C107)
-/

namespace Tricorder.Whole
open Go _root_.Spec

variable {w : World} {json : Bool} {sc : Src} {k : IntKind} {a b c d : List (Item Answer)} {x y : Item Answer} {m n : Metric}

/-- **C107 (asking again)** The answers show the counter as it was at a moment of the first request and at a moment of the second
one, so the second number is not smaller; and it is not smaller than what the counter gave at any moment before the second
request, nor is the first one greater than what it gave at any moment after the first answer. -/
theorem C107_again (h : CounterAsked w json sc k a x b c y d m n) : ∃ u v, ShowsInt m u ∧ ShowsInt n v ∧ u ≤ v ∧
    ∀ p q z, c = p ++ q → GivesInt w sc (a ++ x :: b ++ p) z → u ≤ z ∧ z ≤ v := by
  obtain ⟨s1, r1, a1, f1⟩ := h.first
  obtain ⟨s2, r2, a2, f2⟩ := h.second
  obtain ⟨p, q, rfl, g1⟩ := answered_read r1 a1
  obtain ⟨p', q', rfl, g2⟩ := answered_read r2 a2
  have hc := h.counter
  obtain ⟨u, hu, hm⟩ := readIn_int (q := q ++ c ++ y :: (p' ++ q')) g1 h.kinds.1 f1 (by simpa using hc)
  obtain ⟨v, hv, hn⟩ := readIn_int (q := q') g2 h.kinds.2 f2 (by simpa using hc)
  refine ⟨u, v, hm, hn, hc.grows (a ++ x :: p) (q ++ c ++ y :: p') q' u v (by simp) hu (by simpa using hv), ?_⟩
  rintro p1 q1 z rfl hz
  exact ⟨hc.grows (a ++ x :: p) (q ++ p1) (q1 ++ y :: (p' ++ q')) u z (by simp) hu (by simpa using hz),
    hc.grows (a ++ x :: (p ++ q) ++ p1) (q1 ++ y :: p') q' z v (by simp) hz (by simpa using hv)⟩

/-- **C107 (in one answer)** The same counter at two paths in one listing: the later number is not smaller. -/
theorem C107_listed (h : CounterListed w json sc k a x b m n) : ∃ u v, ShowsInt m u ∧ ShowsInt n v ∧ u ≤ v := by
  obtain ⟨s, c, fuel, path, ms, st, held, A, B, C, hr, hx, hd, rfl, f1, f2⟩ := h.listed
  obtain ⟨p, l, q, rfl, g1, g2⟩ := listed_cut hr hx hd
  have hc := h.counter
  obtain ⟨u, hu, hm⟩ := readIn_int (q := l ++ q) g1 h.kinds.1 f1 (by simpa using hc)
  obtain ⟨v, hv, hn⟩ := readIn_int (q := q) g2 h.kinds.2 f2 (by simpa using hc)
  exact ⟨u, v, hm, hn, hc.grows (a ++ x :: p) l q u v (by simp) hu hv⟩

/-! ### Examples

A variable of type int64 is 5 and is registered at /c and at /d.  The application sets it to 7. -/

/-- what the variable is after these steps -/
def exNow {A : Type} (tr : List (Item A)) : Option Dyn :=
  Tricorder.Spec.current exW (after exW (tr.filterMap memStep) State.init) (.var 0)

/-- what it is after `i` of the steps is what it is after `j` of them, or less -/
def exClimb {A : Type} (tr : List (Item A)) (i j : ℕ) : Bool :=
  match exNow (tr.take i), exNow (tr.take j) with
  | some (.scalar _ (.int .int64 x)), some (.scalar _ (.int .int64 y)) => decide (x ≤ y) && decide (IntKind.int64.InRange y)
  | none, some (.scalar _ (.int .int64 y)) => decide (IntKind.int64.InRange y)
  | none, none => true
  | _, _ => false

def exClimbs {A : Type} (tr : List (Item A)) : Bool :=
  (List.range (tr.length + 1)).all fun j => (List.range (j + 1)).all fun i => exClimb tr i j

theorem exClimbs_counter {A : Type} {tr : List (Item A)} (h : exClimbs tr = true) : Counter exW (.var 0) .int64 tr := by
  have hh : ∀ p l q, tr = p ++ l ++ q → exClimb tr p.length (p ++ l).length = true ∧ tr.take p.length = p ∧
      tr.take (p ++ l).length = p ++ l := by
    rintro p l q rfl
    refine ⟨?_, by simp, List.take_left' rfl⟩
    have := List.all_eq_true.mp h (p ++ l).length (by simp; omega)
    exact List.all_eq_true.mp this p.length (by simp; omega)
  constructor
  · intro p q d e hd
    obtain ⟨h1, h2, -⟩ := hh p [] q (by simpa using e)
    rw [List.append_nil] at h1
    unfold exClimb at h1
    rw [h2, show exNow p = some d from hd] at h1
    split at h1 <;> simp_all
  · intro p l q x y e ⟨nx, kx, hx⟩ ⟨ny, ky, hy⟩
    obtain ⟨h1, h2, h3⟩ := hh p l q e
    unfold exClimb at h1
    rw [h2, h3, show exNow p = some _ from hx, show exNow (p ++ l) = some _ from hy] at h1
    split at h1 <;> simp_all

/-- all metrics show variable 0 -/
def exVar0 (T : Tree MValue) : Bool :=
  (List.range T.metrics.length).all fun i => match metricView T i with
    | some mv => decide (mv.value.src = some (.var 0))
    | none => true

theorem exVar0_source {T : Tree MValue} (h : exVar0 T = true) (path : Str) : FromSource T path (.var 0) := by
  intro id mv h1 _
  have hlt : id < T.metrics.length := by
    by_contra hge
    unfold metricView at h1
    rw [List.getElem?_eq_none (by omega)] at h1
    cases h1
  have := List.all_eq_true.mp h id (by simpa using hlt)
  rw [h1] at this
  exact of_decide_eq_true this

def exCounterSetup : Prog Answer :=
  .op (.newVar (.scalar none (.int .int64 5))) fun (_ : ℕ) =>
    (apiRegisterMetric exW.fnTy 0 (lit "/c") (.ptr 0) (some 0) .none []).bind fun _ =>
      (apiRegisterMetric exW.fnTy 0 (lit "/d") (.ptr 0) (some 0) .none []).bind fun _ => .ret .other

def exCounterWrite (z : ℤ) : Prog Answer := .op (.writeVar 0 (.scalar none (.int .int64 z))) fun _ => .ret .other

/-- it is set to 7 while it is listed: after /c and before /d is read -/
def exCounter1 : List (Move Answer) :=
  (.spawn exCounterSetup :: gos 0 5) ++ .spawn (listCall true 3 (lit "/")) ::
    (gos 1 3 ++ taking 1 0 0 [] ⟨100, 0⟩ ++ gos 1 3 ++ .spawn (exCounterWrite 7) :: (gos 2 1 ++ gos 1 3 ++ releasing 1 0 0))

/-- then it is set to 9, and /c is asked for -/
def exCounter2 : List (Move Answer) :=
  (.spawn (exCounterWrite 9) :: gos 3 1) ++ .spawn (getCall true (lit "/c")) ::
    (gos 4 2 ++ taking 4 0 1 [] ⟨200, 0⟩ ++ gos 4 2 ++ releasing 4 0 1)

def exCounterMsg (path : Str) (z : ℤ) (t : Str) : Metric :=
  { path := path, description := [], unit := .none, kind := .int64, subType := .unknown, bits := 64,
    value := .scalar none (.int .int64 z), timeStamp := .str t, groupId := 0 }

def exSingle : Option (Proc Answer) → Option Metric
  | some ⟨.run (.ret (.single (some (.ok m)))), _⟩ => some m
  | _ => none

theorem exSingle_spec {o : Option (Proc Answer)} {m : Metric} (h : exSingle o = some m) :
    ∃ held, o = some ⟨.run (.ret (.single (some (.ok m)))), held⟩ := by
  unfold exSingle at h
  split at h
  · cases h; exact ⟨_, rfl⟩
  · cases h

def exCounter : Option (List Metric × Option Metric × Bool × Bool × Bool × Bool) :=
  (playW exW exCounter1 [] (start Answer)).bind fun x =>
    (playW exW exCounter2 x.1 x.2).map fun z =>
      (exListed x.2.procs[1]?, exSingle z.2.procs[4]?, exClimbs x.1, exClimbs z.1, exVar0 x.2.mem.tree, exVar0 z.2.mem.tree)

/-- the hypotheses of C107 are met: 5 at /c and 7 at /d in one listing, then 9 at /c -/
theorem exCounter_shows : ∃ a x b c y d, CounterListed exW true (.var 0) .int64 a x b
      (exCounterMsg (lit "/c") 5 (lit "100.000000000")) (exCounterMsg (lit "/d") 7 (lit "100.000000000")) ∧
    CounterAsked exW true (.var 0) .int64 a x b c y d
      (exCounterMsg (lit "/c") 5 (lit "100.000000000")) (exCounterMsg (lit "/c") 9 (lit "200.000000000")) := by
  have h : exCounter = some ([exCounterMsg (lit "/c") 5 (lit "100.000000000"), exCounterMsg (lit "/d") 7 (lit "100.000000000")],
      some (exCounterMsg (lit "/c") 9 (lit "200.000000000")), true, true, true, true) := by
    decide +kernel
  unfold exCounter at h
  obtain ⟨⟨tr1, s1⟩, h1, h2⟩ := Option.bind_eq_some_iff.mp h
  obtain ⟨⟨tr2, s2⟩, h3, h4⟩ := Option.map_eq_some_iff.mp h2
  simp only [Prod.mk.injEq] at h4
  obtain ⟨e1, e2, e3, e4, e5, e6⟩ := h4
  have r1 := playW_run .nil h1
  have r2 := playW_run r1 h3
  have hl := playW_length h1
  obtain ⟨a, x, b, rfl, hx⟩ := playW_asked (ms := .spawn exCounterSetup :: gos 0 5) h1
  obtain ⟨c, y, d, rfl, hy⟩ := playW_asked (ms := .spawn (exCounterWrite 9) :: gos 3 1) h3
  obtain ⟨st1, held1, p1⟩ := exListed_two e1
  obtain ⟨held2, p2⟩ := exSingle_spec e2
  rw [show s1.procs.length = 3 from hl] at hy
  rw [List.nil_append] at r1 e3
  have hy' : y.lab = .spawn 4 (getCall true (lit "/c")) := hy
  refine ⟨a, x, b, c, y, d, ⟨⟨s1, 1, 3, lit "/", _, st1, held1, [], [], [], r1, hx, p1, rfl, exVar0_source e5 _,
      exVar0_source e5 _⟩, ⟨rfl, rfl⟩, exClimbs_counter e3⟩,
    ⟨⟨s1, r1, .listing hx p1 (by simp), exVar0_source e5 _⟩, ⟨s2, by simpa using r2, .single hy' p2, exVar0_source e6 _⟩,
      ⟨rfl, rfl⟩, exClimbs_counter (by simpa using e4)⟩⟩

end Tricorder.Whole
