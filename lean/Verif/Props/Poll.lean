import Verif.Proof.Poll
import Verif.Props.Call
import Verif.Props.Dist
/-!
# Asking twice for a distribution (C92)

A collector that asks again and again wants to know whether a distribution has changed since it last asked.  The documentation of
the field Generation says that it "is incremented by 1 each time this distribution changes".
-/

namespace Tricorder.Whole
open Go _root_.Spec

variable {w : World} {json : Bool} {a b c d : List (Item Answer)} {x y : Item Answer} {m n : Metric}

/-- **C92** If it is not empty in either answer, its Generation has grown by the number of Add, Update and Remove calls on it that
returned normally, between a moment during the first request and a moment during the second one. -/
theorem C92_generation (h : AskedTwice w json a x b c y d m n) : ∃ D E l, m.value = .dist (some D) ∧ n.value = .dist (some E) ∧
    Between b c y d l ∧
    (D.count ≠ 0 → E.count ≠ 0 → E.generation = D.generation + (l.filter (Changes w m.groupId)).length) := by
  obtain ⟨tr, l, i, d1, sn1, sn2, hl, -, hL⟩ := asked_twice h
  exact ⟨_, _, l, hL.val1, hL.val2, hl, hL.generation⟩

/-- **C92** The ranges are the same in both answers. -/
theorem C92_ranges (h : AskedTwice w json a x b c y d m n) : ∃ D E, m.value = .dist (some D) ∧ n.value = .dist (some E) ∧
    bounds E = bounds D := by
  obtain ⟨tr, l, i, d1, sn1, sn2, hl, -, hL⟩ := asked_twice h
  exact ⟨_, _, hL.val1, hL.val2, hL.ranges⟩

/-- **C92** If it is not empty in either answer and Generation is the same, then so are Count, Sum, Average, Min and Max.  If besides
no call panicked over an empty range in the meantime, then the whole value and the time stamp are the same. -/
theorem C92_unchanged (h : AskedTwice w json a x b c y d m n) : ∃ D E, m.value = .dist (some D) ∧ n.value = .dist (some E) ∧
    (D.count ≠ 0 → E.count ≠ 0 → E.generation = D.generation →
      E.count = D.count ∧ E.sum = D.sum ∧ E.average = D.average ∧ E.min = D.min ∧ E.max = D.max ∧
      ((∀ it ∈ b ++ c ++ y :: d, Spoils w m.groupId it = false) → n.value = m.value ∧ n.timeStamp = m.timeStamp)) := by
  obtain ⟨tr, l, i, d1, sn1, sn2, hl, -, hL⟩ := asked_twice h
  refine ⟨_, _, hL.val1, hL.val2, fun h1 h2 hg => ?_⟩
  obtain ⟨e1, e2, e3, e4, e5, e6⟩ := hL.unchanged h1 h2 hg
  refine ⟨e1, e2, e3, e4, e5, fun hsp => e6 fun it hit => hsp it ?_⟩
  obtain ⟨b1, b2, d1', d2, rfl, rfl, rfl⟩ := hl
  simp only [List.mem_append, List.mem_cons] at hit ⊢; tauto

/-- **C92** If the second answer shows a distribution that is not empty and is cumulative, then neither Count nor the count of a range
has gone down, Min has not gone up and Max has not gone down; and if Count is the same, then so are the whole value and the time
stamp. -/
theorem C92_cumulative (h : AskedTwice w json a x b c y d m n) : ∃ D E, m.value = .dist (some D) ∧ n.value = .dist (some E) ∧
    (E.count ≠ 0 → E.isNotCumulative = false →
      D.count ≤ E.count ∧ List.Forall₂ (· ≤ ·) (counts D) (counts E) ∧
      (D.count ≠ 0 → (E.min = D.min ∨ Fl.lt E.min D.min = true) ∧ (E.max = D.max ∨ Fl.lt D.max E.max = true)) ∧
      (E.count = D.count → n.value = m.value ∧ n.timeStamp = m.timeStamp)) := by
  obtain ⟨tr, l, i, d1, sn1, sn2, hl, -, hL⟩ := asked_twice h
  exact ⟨_, _, hL.val1, hL.val2, hL.cumulative⟩

/-! ### Examples

A distribution is made and registered, 0.5 is added, it is listed, there is another call on it, it is listed again. -/

theorem playW_length {A : Type} {ms : List (Move A)} {tr tr' : List (Item A)} {s s' : St A}
    (h : playW w ms tr s = some (tr', s')) : s'.procs.length = s.procs.length + (ms.map Move.spawns).sum := by
  induction ms generalizing tr s with
  | nil => cases h; rfl
  | cons m ms ih =>
    unfold playW at h
    split at h
    · cases h
    · rename_i it s1 hm
      rw [ih h, move_length hm, List.map_cons, List.sum_cons]
      omega

theorem playW_asked {A : Type} {ms ms' : List (Move A)} {p : Prog A} {tr tr' : List (Item A)} {s s' : St A}
    (h : playW w (ms ++ .spawn p :: ms') tr s = some (tr', s')) :
    ∃ l y r, tr' = tr ++ l ++ y :: r ∧ y.lab = .spawn (s.procs.length + (ms.map Move.spawns).sum) p := by
  obtain ⟨tr1, s1, h1, h2⟩ := playW_append h
  obtain ⟨l, rfl, -⟩ := playW_path h1
  obtain ⟨tr2, s2, h3, h4⟩ := playW_append (ms := [.spawn p]) h2
  cases h3
  obtain ⟨r, rfl, -⟩ := playW_path h4
  exact ⟨l, _, r, by rw [List.append_assoc (tr ++ l)]; rfl, by rw [← playW_length h1]⟩

def exPollSetup (nc : Bool) : Prog Answer :=
  .op (.newDist onePieces nc ⟨0, 0⟩) fun (_ : ℕ) =>
    (apiRegisterMetric exW.fnTy 0 (lit "/h") (.dist (some 0)) (some 0) .second []).bind fun _ =>
      .op (.distCall 0 (.add (f64 (1/2)) ⟨1, 0⟩)) fun _ => .ret .other

def exPoll1 (nc : Bool) : List (Move Answer) :=
  (.spawn (exPollSetup nc) :: gos 0 4) ++ .spawn (listCall true 3 (lit "/")) :: gos 1 4
def exPoll2 (c : DCall) : List (Move Answer) :=
  (.spawn (.op (.distCall 0 c) fun _ => .ret .other) :: gos 2 1) ++ .spawn (listCall true 3 (lit "/")) :: gos 3 4

def exListed : Option (Proc Answer) → List Metric
  | some ⟨.run (.ret (.listing ms _)), _⟩ => ms
  | _ => []

theorem exListed_spec {o : Option (Proc Answer)} {m : Metric} (h : exListed o = [m]) :
    ∃ st held, o = some ⟨.run (.ret (.listing [m] st)), held⟩ := by
  unfold exListed at h
  split at h
  · subst h; exact ⟨_, _, rfl⟩
  · cases h

def exBucketed (tr : List (Item Answer)) : Bool :=
  tr.all fun it => match memStep it with
    | some (.newDist pieces _ _) => decide (pieces = onePieces)
    | _ => true

def exPoll (nc : Bool) (c : DCall) : Option (List Metric × List Metric × Bool × ℕ) :=
  (playW exW (exPoll1 nc) [] (start Answer)).bind fun x =>
    (playW exW (exPoll2 c) x.1 x.2).map fun z =>
      (exListed x.2.procs[1]?, exListed z.2.procs[3]?, exBucketed z.1, z.1.length)

/-- the hypotheses of C92 hold of it -/
theorem exPoll_run {nc : Bool} {c : DCall} {m n : Metric} {k : ℕ} (h : exPoll nc c = some ([m], [n], true, k)) (hk : k < 2 ^ 64)
    (hm : m.kind = .dist) (hn : n.kind = .dist) (hg : m.groupId = n.groupId) :
    ∃ a x b c y d, AskedTwice exW true a x b c y d m n ∧
      exBucketed (a ++ x :: b ++ c ++ y :: d) = true := by
  unfold exPoll at h
  obtain ⟨⟨tr1, s1⟩, h1, h2⟩ := Option.bind_eq_some_iff.mp h
  obtain ⟨⟨tr2, s2⟩, h3, h4⟩ := Option.map_eq_some_iff.mp h2
  simp only [Prod.mk.injEq] at h4
  obtain ⟨e1, e2, e3, e4⟩ := h4
  have r1 := playW_run .nil h1
  have r2 := playW_run r1 h3
  have hl := playW_length h1
  obtain ⟨a, x, b, rfl, hx⟩ := playW_asked (ms := .spawn (exPollSetup nc) :: gos 0 4) h1
  obtain ⟨c, y, d, rfl, hy⟩ := playW_asked (ms := .spawn _ :: gos 2 1) h3
  obtain ⟨st1, held1, p1⟩ := exListed_spec e1
  obtain ⟨st2, held2, p2⟩ := exListed_spec e2
  rw [show s1.procs.length = 2 from hl] at hy
  refine ⟨a, x, b, c, y, d, ⟨⟨s1, r1, .listing hx p1 (by simp)⟩, ⟨s2, r2, .listing hy p2 (by simp)⟩, ?_, ?_, ⟨hm, hn⟩, hg⟩,
    by simpa using e3⟩
  · intro it hit pieces nc ts hms
    have := List.all_eq_true.mp e3 it (by simpa using hit)
    rw [hms] at this
    exact ⟨[.fin 1], by rw [of_decide_eq_true this]; decide +kernel⟩
  · refine lt_of_eq_of_lt ?_ (e4 ▸ hk)
    simp

theorem exPoll_asked {nc : Bool} {c : DCall} {m n : Metric} {k : ℕ} (h : exPoll nc c = some ([m], [n], true, k)) (hk : k < 2 ^ 64)
    (hm : m.kind = .dist) (hn : n.kind = .dist) (hg : m.groupId = n.groupId) :
    ∃ a x b c y d, AskedTwice exW true a x b c y d m n := by
  obtain ⟨a, x, b, c, y, d, h1, -⟩ := exPoll_run h hk hm hn hg
  exact ⟨a, x, b, c, y, d, h1⟩

def exPollMsg (nc : Bool) (D : DistMsg) (t : Str) : Metric :=
  { path := lit "/h", description := [], unit := .second, kind := .dist, subType := .unknown, bits := 0,
    value := .dist (some { D with isNotCumulative := nc }), timeStamp := .str t, groupId := 1 }

def exPollOne : DistMsg :=
  { min := .fin (1/2), max := .fin (1/2), average := .fin (1/2), median := .fin (1/2), sum := .fin (1/2), count := 1, generation := 1,
    isNotCumulative := false, ranges := [⟨.fin 0, .fin 1, 1⟩, ⟨.fin 1, .fin 0, 0⟩] }

/-- 2.5 is added in between -/
def exPollTwo : DistMsg :=
  { min := .fin (1/2), max := .fin (5/2), average := .fin (3/2), median := .fin (3/2), sum := .fin 3, count := 2, generation := 2,
    isNotCumulative := false, ranges := [⟨.fin 0, .fin 1, 1⟩, ⟨.fin 1, .fin 0, 1⟩] }

example : ∃ a x b c y d, AskedTwice exW true a x b c y d (exPollMsg false exPollOne (lit "1.000000000"))
    (exPollMsg false exPollTwo (lit "2.000000000")) := by
  have h : exPoll false (.add (f64 (5/2)) ⟨2, 0⟩) =
      some ([exPollMsg false exPollOne (lit "1.000000000")], [exPollMsg false exPollTwo (lit "2.000000000")], true, 17) := by
    decide +kernel
  exact exPoll_asked h (by norm_num) rfl rfl rfl

/-- **C92, the exception is needed**: a distribution that is not cumulative and contains 0.5.  In between, Update panics because no
value is in the range of the old value.  Generation stays at 1, but the first range has two values now, and the time stamp has
changed. -/
theorem C92_spoiled : ∃ a x b c y d, AskedTwice exW true a x b c y d (exPollMsg true exPollOne (lit "1.000000000"))
    (exPollMsg true { exPollOne with ranges := [⟨.fin 0, .fin 1, 2⟩, ⟨.fin 1, .fin 0, 0⟩] } (lit "2.000000000")) := by
  have h : exPoll true (.update (f64 3) (f64 (1/4)) ⟨2, 0⟩) = some ([exPollMsg true exPollOne (lit "1.000000000")],
      [exPollMsg true { exPollOne with ranges := [⟨.fin 0, .fin 1, 2⟩, ⟨.fin 1, .fin 0, 0⟩] } (lit "2.000000000")], true, 17) := by
    decide +kernel
  exact exPoll_asked h (by norm_num) rfl rfl rfl

/-- **C92, nothing about empty distributions**: the value that it contains is removed.  Generation goes from 1 to 0. -/
theorem C92_emptied : ∃ a x b c y d D E, AskedTwice exW true a x b c y d (exPollMsg true exPollOne (lit "1.000000000"))
    (exPollMsg D E (lit "2.000000000")) ∧ E.count = 0 ∧ E.generation = 0 := by
  have h : exPoll true (.remove (f64 (1/2)) ⟨2, 0⟩) = some ([exPollMsg true exPollOne (lit "1.000000000")],
      [exPollMsg false ⟨.fin 0, .fin 0, .fin 0, .fin 0, .fin 0, 0, 0, false, [⟨.fin 0, .fin 1, 0⟩, ⟨.fin 1, .fin 0, 0⟩]⟩
        (lit "2.000000000")], true, 17) := by
    decide +kernel
  obtain ⟨a, x, b, c, y, d, ha⟩ := exPoll_asked h (by norm_num) rfl rfl rfl
  exact ⟨a, x, b, c, y, d, _, _, ha, rfl, rfl⟩

end Tricorder.Whole
