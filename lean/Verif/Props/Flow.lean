import Verif.Proof.Flow
import Verif.Props.Poll
/-!
# What goes into a distribution and what comes out of it between two answers (C105)

A collector that asks again and again takes differences: the counts in the second answer less those in the first one are to say what
was recorded in the meantime.
-/

namespace Tricorder.Whole
open Go _root_.Spec

variable {w : World} {json : Bool} {a b c d : List (Item Answer)} {x y : Item Answer} {m n : Metric}

/-- the runs of the examples of C92, with the endpoints in order too -/
theorem exPoll_flow {nc : Bool} {c : DCall} {m n : Metric} {k : ℕ} (h : exPoll nc c = some ([m], [n], true, k)) (hk : k < 2 ^ 64)
    (hm : m.kind = .dist) (hn : n.kind = .dist) (hg : m.groupId = n.groupId) :
    ∃ a x b c y d, AskedTwice exW true a x b c y d m n ∧ FromAscending (a ++ x :: b ++ c ++ y :: d) := by
  obtain ⟨a, x, b, c, y, d, h1, h2⟩ := exPoll_run h hk hm hn hg
  refine ⟨a, x, b, c, y, d, h1, fun it hit pieces nc ts hms => ?_⟩
  have := List.all_eq_true.mp h2 it hit
  rw [hms] at this
  exact ⟨[.fin 1], by decide +kernel, by rw [of_decide_eq_true this]; decide +kernel⟩

/-- **C105** The count of every range has changed by the number of values in that range that were put in, less those that were taken
out, between a moment during the first request and a moment during the second one; the values put in by calls that panicked over
an empty range included.  Count has changed by the number of Adds less that of Removes, in the same time.  If it is not empty in
either answer, Sum is the sum shown first, with every value added and subtracted in the order of the calls.  If the second answer shows a distribution that is not empty and is cumulative,
nothing was taken out: then the differences of the counts are the histogram of the values added. -/
theorem C105_flow (h : AskedTwice w json a x b c y d m n) (hasc : FromAscending (a ++ x :: b ++ c ++ y :: d)) :
    ∃ D E l, m.value = .dist (some D) ∧ n.value = .dist (some E) ∧ Between b c y d l ∧
    (let moves := l.filterMap (dealing w m.groupId);
      E.count + moves.countP GoesOut = D.count + moves.countP ComesIn ∧
      (∀ (k : ℕ) (r r' : RangeMsg), D.ranges[k]? = some r → E.ranges[k]? = some r' →
        r'.count + (moves.filterMap takenOut).countP (InRange D.ranges k) =
          r.count + (moves.filterMap putIn).countP (InRange D.ranges k)) ∧
      (D.count ≠ 0 → E.count ≠ 0 → E.sum = moves.foldl sumAfter D.sum) ∧
      (E.count ≠ 0 → E.isNotCumulative = false → moves.filterMap takenOut = [])) := by
  obtain ⟨tr, l, i, d1, sn1, sn2, hl, hsub, hL⟩ := asked_twice h
  exact ⟨_, _, l, hL.val1, hL.val2, hl, hL.flow fun it hit => hasc it (hsub it hit)⟩

/-- **C105** Every float64, NaN too, is in exactly one of the ranges shown. -/
theorem C105_one_range (h : AskedTwice w json a x b c y d m n) (hasc : FromAscending (a ++ x :: b ++ c ++ y :: d)) :
    ∃ D, m.value = .dist (some D) ∧ ∀ v, ∃! k, InRange D.ranges k v = true := by
  obtain ⟨tr, l, i, d1, sn1, sn2, hl, hsub, hL⟩ := asked_twice h
  exact ⟨_, hL.val1, hL.one_range fun it hit => hasc it (hsub it hit)⟩

/-! ### Examples -/

/-- 2.5 is added in between to a distribution that has only 0.5: the second range has one value more, the sum goes from 0.5 to 3 -/
example : ∃ a x b c y d, AskedTwice exW true a x b c y d (exPollMsg false exPollOne (lit "1.000000000"))
    (exPollMsg false exPollTwo (lit "2.000000000")) ∧ FromAscending (a ++ x :: b ++ c ++ y :: d) := by
  have h : exPoll false (.add (f64 (5/2)) ⟨2, 0⟩) =
      some ([exPollMsg false exPollOne (lit "1.000000000")], [exPollMsg false exPollTwo (lit "2.000000000")], true, 17) := by
    decide +kernel
  exact exPoll_flow h (by norm_num) rfl rfl rfl

/-- 0.5 is updated to 2.5 in between -/
example : ∃ a x b c y d E, AskedTwice exW true a x b c y d (exPollMsg true exPollOne (lit "1.000000000"))
    (exPollMsg true E (lit "2.000000000")) ∧ FromAscending (a ++ x :: b ++ c ++ y :: d) ∧ counts E = [0, 1] ∧ E.sum = .fin (5/2) := by
  have h : exPoll true (.update (f64 (1/2)) (f64 (5/2)) ⟨2, 0⟩) = some ([exPollMsg true exPollOne (lit "1.000000000")],
      [exPollMsg true ⟨.fin (1/2), .fin (5/2), .fin (5/2), .fin (5/2), .fin (5/2), 1, 2, true,
        [⟨.fin 0, .fin 1, 0⟩, ⟨.fin 1, .fin 0, 1⟩]⟩ (lit "2.000000000")], true, 17) := by
    decide +kernel
  obtain ⟨a, x, b, c, y, d, h1, h2⟩ := exPoll_flow h (by norm_num) rfl rfl rfl
  exact ⟨a, x, b, c, y, d, _, h1, h2, rfl, rfl⟩

/-- The Update that panics puts its new value in: in `C92_spoiled` the count of the first range goes from 1 to 2. -/
example : ([(DOp.update (.fin 3) (.fin (1/4)) ⟨2, 0⟩, some DPanic.badValue)].filterMap putIn).countP
    (InRange exPollOne.ranges 0) = 1 := by decide +kernel

end Tricorder.Whole
