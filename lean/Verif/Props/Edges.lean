import Verif.Proof.Edges
import Verif.Props.Order
/-!
# Min and Max of a distribution between two answers (C108)

The documentation of `Update` and `UpdateMinMax` says that Min only gets smaller and Max only gets larger.  That is so until the
distribution is emptied.
-/

namespace Tricorder.Whole
open Go _root_.Spec

variable {w : World} {json : Bool} {a b c d : List (Item Answer)} {x y : Item Answer} {m n : Metric}

/-- **C108** Between a moment of the first request and a moment of the second one calls were made on the distribution.  If it
contained values all the time, then Min is not greater and Max is not smaller than in the first answer; and (without NaN) Min is
the least and Max the greatest of those in the first answer and of the values that an Add or Update has put in.  If it was empty at
some time, they are the least and the greatest of the values put in since the last time that it was. -/
theorem C108_again (h : AskedTwice w json a x b c y d m n) : ∃ D E l, m.value = .dist (some D) ∧ n.value = .dist (some E) ∧
    Between b c y d l ∧ MinMaxAfter D E (l.filterMap (dealing w m.groupId)) := by
  obtain ⟨tr, l, i, d1, sn1, sn2, hl, -, hL⟩ := asked_twice h
  exact ⟨_, _, l, hL.val1, hL.val2, hl, hL.kept, fun p q => hL.anew⟩

/-- **C108** The same of two entries in one listing. -/
theorem C108_listed (h : ListedTwice w json a x b m n) : ∃ p l q D E, b = p ++ l ++ q ∧ m.value = .dist (some D) ∧
    n.value = .dist (some E) ∧ MinMaxAfter D E (l.filterMap (dealing w m.groupId)) := by
  obtain ⟨p, l, q, i, d1, sn1, sn2, hb, hL⟩ := listed_twice h
  exact ⟨p, l, q, _, _, hb, hL.val1, hL.val2, hL.kept, fun p q => hL.anew⟩

/-! ### Examples -/

/-- two calls in between -/
def exEdges2 (c c' : DCall) : List (Move Answer) :=
  (.spawn (.op (.distCall 0 c) fun _ => .op (.distCall 0 c') fun _ => .ret .other) :: gos 2 2) ++
    .spawn (listCall true 3 (lit "/")) :: gos 3 4

def exEdges (nc : Bool) (c c' : DCall) : Option (List Metric × List Metric × Bool × ℕ) :=
  (playW exW (exPoll1 nc) [] (start Answer)).bind fun x =>
    (playW exW (exEdges2 c c') x.1 x.2).map fun z =>
      (exListed x.2.procs[1]?, exListed z.2.procs[3]?, exBucketed z.1, z.1.length)

theorem exEdges_asked {nc : Bool} {c c' : DCall} {m n : Metric} {k : ℕ} (h : exEdges nc c c' = some ([m], [n], true, k))
    (hk : k < 2 ^ 64) (hm : m.kind = .dist) (hn : n.kind = .dist) (hg : m.groupId = n.groupId) :
    ∃ a x b c y d, AskedTwice exW true a x b c y d m n := by
  unfold exEdges at h
  obtain ⟨⟨tr1, s1⟩, h1, h2⟩ := Option.bind_eq_some_iff.mp h
  obtain ⟨⟨tr2, s2⟩, h3, h4⟩ := Option.map_eq_some_iff.mp h2
  simp only [Prod.mk.injEq] at h4
  obtain ⟨e1, e2, e3, e4⟩ := h4
  have r1 := playW_run .nil h1
  have r2 := playW_run r1 h3
  have hl := playW_length h1
  obtain ⟨a, x, b, rfl, hx⟩ := playW_asked (ms := .spawn (exPollSetup nc) :: gos 0 4) h1
  obtain ⟨c, y, d, rfl, hy⟩ := playW_asked (ms := .spawn _ :: gos 2 2) h3
  obtain ⟨st1, held1, p1⟩ := exListed_spec e1
  obtain ⟨st2, held2, p2⟩ := exListed_spec e2
  rw [show s1.procs.length = 2 from hl] at hy
  refine ⟨a, x, b, c, y, d, ⟨s1, r1, .listing hx p1 (by simp)⟩, ⟨s2, r2, .listing hy p2 (by simp)⟩, ?_, ?_, ⟨hm, hn⟩, hg⟩
  · intro it hit pieces nc ts hms
    have := List.all_eq_true.mp e3 it (by simpa using hit)
    rw [hms] at this
    exact ⟨[.fin 1], by rw [of_decide_eq_true this]; decide +kernel⟩
  · refine lt_of_eq_of_lt ?_ (e4 ▸ hk)
    simp

/-- The distribution contains 0.5.  In between, 2.5 is added and 0.5 is removed: Min stays 0.5, the least value ever. -/
theorem C108_all_time : ∃ a x b c y d, AskedTwice exW true a x b c y d (exPollMsg true exPollOne (lit "1.000000000"))
    (exPollMsg true ⟨.fin (1/2), .fin (5/2), .fin (5/2), .fin (5/2), .fin (5/2), 1, 3, true,
      [⟨.fin 0, .fin 1, 0⟩, ⟨.fin 1, .fin 0, 1⟩]⟩ (lit "3.000000000")) := by
  have h : exEdges true (.add (f64 (5/2)) ⟨2, 0⟩) (.remove (f64 (1/2)) ⟨3, 0⟩) =
      some ([exPollMsg true exPollOne (lit "1.000000000")], [exPollMsg true ⟨.fin (1/2), .fin (5/2), .fin (5/2), .fin (5/2), .fin (5/2), 1, 3,
        true, [⟨.fin 0, .fin 1, 0⟩, ⟨.fin 1, .fin 0, 1⟩]⟩ (lit "3.000000000")], true, 18) := by
    decide +kernel
  exact exEdges_asked h (by norm_num) rfl rfl rfl

/-- **C108, contrary to the documentation** The same in the other order: 0.5 is removed, then 2.5 is added.  Min goes from 0.5 up to
2.5. -/
theorem C108_restart : ∃ a x b c y d, AskedTwice exW true a x b c y d (exPollMsg true exPollOne (lit "1.000000000"))
    (exPollMsg true ⟨.fin (5/2), .fin (5/2), .fin (5/2), .fin (5/2), .fin (5/2), 1, 3, true,
      [⟨.fin 0, .fin 1, 0⟩, ⟨.fin 1, .fin 0, 1⟩]⟩ (lit "3.000000000")) := by
  have h : exEdges true (.remove (f64 (1/2)) ⟨2, 0⟩) (.add (f64 (5/2)) ⟨3, 0⟩) =
      some ([exPollMsg true exPollOne (lit "1.000000000")], [exPollMsg true ⟨.fin (5/2), .fin (5/2), .fin (5/2), .fin (5/2), .fin (5/2), 1, 3,
        true, [⟨.fin 0, .fin 1, 0⟩, ⟨.fin 1, .fin 0, 1⟩]⟩ (lit "3.000000000")], true, 18) := by
    decide +kernel
  exact exEdges_asked h (by norm_num) rfl rfl rfl

/-- the moves of the first run: never empty -/
example : NeverEmpty 1 [(.add (.fin (5/2)) ⟨2, 0⟩, none), (.remove (.fin (1/2)) ⟨3, 0⟩, none)] := by
  intro p q e
  match p, q, e with
  | [], _, _ => decide
  | [_], [_], rfl => decide +kernel
  | [_, _], [], rfl => decide +kernel

/-- those of the second one: empty after the first move, then 2.5 is the only value -/
example : EmptyLast 1 [(.remove (.fin (1/2)) ⟨2, 0⟩, none)] [(.add (.fin (5/2)) ⟨3, 0⟩, none)] ∧
    LeastOf (.fin (5/2)) ([(DOp.add (.fin (5/2)) ⟨3, 0⟩, none)].filterMap reached) := by
  refine ⟨⟨by decide +kernel, ?_⟩, by decide +kernel, by decide +kernel⟩
  intro q1 q2 e hne
  match q1, q2, e with
  | [], _, _ => exact absurd rfl hne
  | [_], [], rfl => decide +kernel

end Tricorder.Whole
