import Verif.Proof.Order
import Verif.Props.Flow
/-!
# The order in which the metrics of one listing are read (C106)

A listing is not a picture of one moment: while it goes on, values change.  But it goes on in the order of its answer.
-/

namespace Tricorder.Whole
open Go _root_.Spec

variable {w : World} {json : Bool} {a b : List (Item Answer)} {x : Item Answer} {m n : Metric}

/-- **C106** For the metrics of a listing that begins at `x` and is finished after the steps `b` there are moments during the request,
none before the one of the metric before it in the answer, such that every metric shows the value that it has at its moment. -/
theorem C106_in_order {s : St Answer} (hr : Run w (a ++ x :: b) s) {c fuel : ℕ} {path : Str}
    (hx : x.lab = .spawn c (listCall json fuel path)) {ms : List Metric} {st : Status} {held : List (ℕ × ℕ)}
    (hd : s.procs[c]? = some ⟨.run (.ret (.listing ms st)), held⟩) :
    ∃ ks : List ℕ, ks.Pairwise (· ≤ ·) ∧ List.Forall₂ (fun m k => k < b.length ∧
      ReadIn w json s.mem.tree (after w ((a ++ x :: b.take k).filterMap memStep) State.init) m) ms ks :=
  listing_order hr hx hd

/-- **C106 (distributions)** The same distribution twice in one answer.  The later entry shows it at the same moment or at a later one:
the ranges are the same; Generation has grown by the number of calls on it that returned normally in between; if Generation is
the same, then so are Count, Sum, Average, Min and Max, and if no call in between panicked over an empty range, everything; and if
it is cumulative, no count is smaller than in the earlier entry. -/
theorem C106_dist (h : ListedTwice w json a x b m n) : ∃ p l q D E, b = p ++ l ++ q ∧ m.value = .dist (some D) ∧
    n.value = .dist (some E) ∧ bounds E = bounds D ∧
    (D.count ≠ 0 → E.count ≠ 0 → E.generation = D.generation + (l.filter (Changes w m.groupId)).length) ∧
    (D.count ≠ 0 → E.count ≠ 0 → E.generation = D.generation →
      E.count = D.count ∧ E.sum = D.sum ∧ E.average = D.average ∧ E.min = D.min ∧ E.max = D.max ∧
      ((∀ it ∈ l, Spoils w m.groupId it = false) → n.value = m.value ∧ n.timeStamp = m.timeStamp)) ∧
    (E.count ≠ 0 → E.isNotCumulative = false →
      D.count ≤ E.count ∧ List.Forall₂ (· ≤ ·) (counts D) (counts E) ∧
      (D.count ≠ 0 → (E.min = D.min ∨ Fl.lt E.min D.min = true) ∧ (E.max = D.max ∨ Fl.lt D.max E.max = true)) ∧
      (E.count = D.count → n.value = m.value ∧ n.timeStamp = m.timeStamp)) := by
  obtain ⟨p, l, q, i, d1, sn1, sn2, hb, hL⟩ := listed_twice h
  exact ⟨p, l, q, _, _, hb, hL.val1, hL.val2, hL.ranges, hL.generation, hL.unchanged, hL.cumulative⟩

/-- **C106 (flow)** The differences between the two entries are what was recorded in between. -/
theorem C106_flow (h : ListedTwice w json a x b m n) (hasc : FromAscending (a ++ x :: b)) :
    ∃ p l q D E, b = p ++ l ++ q ∧ m.value = .dist (some D) ∧ n.value = .dist (some E) ∧
    (let moves := l.filterMap (dealing w m.groupId);
      E.count + moves.countP GoesOut = D.count + moves.countP ComesIn ∧
      (∀ (k : ℕ) (r r' : RangeMsg), D.ranges[k]? = some r → E.ranges[k]? = some r' →
        r'.count + (moves.filterMap takenOut).countP (InRange D.ranges k) =
          r.count + (moves.filterMap putIn).countP (InRange D.ranges k)) ∧
      (D.count ≠ 0 → E.count ≠ 0 → E.sum = moves.foldl sumAfter D.sum) ∧
      (E.count ≠ 0 → E.isNotCumulative = false → moves.filterMap takenOut = [])) := by
  obtain ⟨p, l, q, i, d1, sn1, sn2, hb, hL⟩ := listed_twice h
  refine ⟨p, l, q, _, _, hb, hL.val1, hL.val2, hL.flow fun it hit => hasc it ?_⟩
  rw [hb]
  simp only [List.mem_append, List.mem_cons] at hit ⊢
  tauto

/-- **C106 (lists)** The same list twice in one answer.  Either nothing set the list in between, and both entries say the same:
time stamp, element type, and (if shown with the same unit) values.  Or else the later entry shows what the last step in between
that set the list gave it. -/
theorem C106_list (h : ListListedTwice w json a x b m n) : ∃ p l q, b = p ++ l ++ q ∧
    (∃ cell ts, LastSet w m.groupId (a ++ x :: p) cell ts ∧ ReportsList json m cell ts) ∧
    ((NoSet w m.groupId l ∧ n.timeStamp = m.timeStamp ∧ n.subType = m.subType ∧ (n.unit = m.unit → n.value = m.value)) ∨
      ∃ cell ts, LastSet w m.groupId l cell ts ∧ ReportsList json n cell ts) := by
  obtain ⟨s, c, fuel, path, ms, st, held, A, B, C, hr, hx, hd, rfl⟩ := h.listed
  obtain ⟨p, l, q, rfl, g1, g2⟩ := listed_cut hr hx hd
  obtain ⟨i1, y1, lv1, s1⟩ := readIn_list g1 h.kinds.1
  obtain ⟨i2, y2, lv2, s2⟩ := readIn_list g2 h.kinds.2
  exact ⟨p, l, q, rfl, list_again (q := q) (by simpa using hr) s1 s2 h.kinds.1 h.kinds.2 h.same fun it hit => h.copied it (by
    simp only [List.mem_append, List.mem_cons] at hit ⊢; tauto)⟩

/-! ### Examples

A distribution that contains 0.5 is registered at /h and at /k.  While it is listed, 2.5 is added. -/

def exOrderSetup : Prog Answer :=
  .op (.newDist onePieces false ⟨0, 0⟩) fun (_ : ℕ) =>
    (apiRegisterMetric exW.fnTy 0 (lit "/h") (.dist (some 0)) (some 0) .second []).bind fun _ =>
      (apiRegisterMetric exW.fnTy 0 (lit "/k") (.dist (some 0)) (some 0) .second []).bind fun _ =>
      .op (.distCall 0 (.add (f64 (1/2)) ⟨1, 0⟩)) fun _ => .ret .other

/-- the Add comes after `i` of the steps of the listing -/
def exOrderMoves (i : ℕ) : List (Move Answer) :=
  (.spawn exOrderSetup :: gos 0 6) ++ .spawn (listCall true 3 (lit "/")) ::
    (gos 1 i ++ .spawn (.op (.distCall 0 (.add (f64 (5/2)) ⟨2, 0⟩)) fun _ => .ret .other) :: (gos 2 1 ++ gos 1 (7 - i)))

def exOrder (i : ℕ) : Option (List Metric × Bool × ℕ) :=
  (playW exW (exOrderMoves i) [] (start Answer)).map fun x => (exListed x.2.procs[1]?, exBucketed x.1, x.1.length)

theorem exListed_two {o : Option (Proc Answer)} {m n : Metric} (h : exListed o = [m, n]) :
    ∃ st held, o = some ⟨.run (.ret (.listing [m, n] st)), held⟩ := by
  unfold exListed at h
  split at h
  · subst h; exact ⟨_, _, rfl⟩
  · cases h

/-- the hypotheses of C106 hold of it -/
theorem exOrder_listed {i : ℕ} {m n : Metric} {k : ℕ} (h : exOrder i = some ([m, n], true, k)) (hk : k < 2 ^ 64)
    (hm : m.kind = .dist) (hn : n.kind = .dist) (hg : m.groupId = n.groupId) :
    ∃ a x b, ListedTwice exW true a x b m n ∧ FromAscending (a ++ x :: b) := by
  unfold exOrder at h
  obtain ⟨⟨tr, s⟩, h1, h2⟩ := Option.map_eq_some_iff.mp h
  simp only [Prod.mk.injEq] at h2
  obtain ⟨e1, e2, e3⟩ := h2
  have r1 := playW_run .nil h1
  obtain ⟨a, x, b, rfl, hx⟩ := playW_asked (ms := .spawn exOrderSetup :: gos 0 6) h1
  obtain ⟨st, held, hp⟩ := exListed_two e1
  have made : ∀ it ∈ a ++ x :: b, ∀ pieces nc ts, memStep it = some (.newDist pieces nc ts) →
      ∃ l : List Fl, Ascending l ∧ newArbitraryBucketer l = .ok pieces := by
    intro it hit pieces nc ts hms
    have := List.all_eq_true.mp e2 it (by simpa using hit)
    rw [hms] at this
    exact ⟨[.fin 1], by decide +kernel, by rw [of_decide_eq_true this]; decide +kernel⟩
  refine ⟨a, x, b, ⟨⟨s, 1, 3, lit "/", _, st, held, [], [], [], by simpa using r1, hx, hp, rfl⟩, ⟨hm, hn⟩, hg, ?_, ?_⟩, made⟩
  · exact lt_of_eq_of_lt (by simp) (e3 ▸ hk)
  · intro it hit pieces nc ts hms
    obtain ⟨l, -, hl⟩ := made it hit pieces nc ts hms
    exact ⟨l, hl⟩

/-- **C106, a listing is not a picture of one moment**: one value at /h and two at /k, of the same distribution in one answer. -/
theorem C106_two_moments : ∃ a x b, ListedTwice exW true a x b (exPollMsg false exPollOne (lit "1.000000000"))
    { exPollMsg false exPollTwo (lit "2.000000000") with path := lit "/k" } ∧ FromAscending (a ++ x :: b) := by
  have h : exOrder 4 = some ([exPollMsg false exPollOne (lit "1.000000000"),
      { exPollMsg false exPollTwo (lit "2.000000000") with path := lit "/k" }], true, 17) := by
    decide +kernel
  exact exOrder_listed h (by norm_num) rfl rfl rfl

/-- and if the Add comes after both are read, one value at both -/
example : ∃ a x b, ListedTwice exW true a x b (exPollMsg false exPollOne (lit "1.000000000"))
    { exPollMsg false exPollOne (lit "1.000000000") with path := lit "/k" } ∧ FromAscending (a ++ x :: b) := by
  have h : exOrder 7 = some ([exPollMsg false exPollOne (lit "1.000000000"),
      { exPollMsg false exPollOne (lit "1.000000000") with path := lit "/k" }], true, 17) := by
    decide +kernel
  exact exOrder_listed h (by norm_num) rfl rfl rfl

/-! A list is registered at /l and at /m.  While it is listed, the application overwrites its slice and calls `Change`. -/

def exOrderListSetup : Prog Answer :=
  .op (.newSlice exSlice) fun _ => .op (.newList (.slice 0) true ⟨7, 0⟩) fun _ =>
    (apiRegisterMetric exW.fnTy 0 (lit "/l") (.list (some 0)) (some 0) .none []).bind fun _ =>
      (apiRegisterMetric exW.fnTy 0 (lit "/m") (.list (some 0)) (some 0) .none []).bind fun _ => .ret .other

def exOrderList : Option (List Metric × List (Option Cell × Bool × Time)) :=
  (playW exW ((.spawn exOrderListSetup :: gos 0 4) ++ .spawn (listCall true 3 (lit "/")) ::
    (gos 1 4 ++ .spawn (.op (.writeSlice 0 0 (.float64 (.fin 2))) fun _ => .op (.changeList 0 (.slice 0) true ⟨8, 0⟩) fun _ => .ret .other) ::
      (gos 2 2 ++ gos 1 3))) [] (start Answer)).map fun x => (exListed x.2.procs[1]?, exSets x.1)

example : ∃ a x b, ListListedTwice exW true a x b (exRelistMsg (.fin 1) (lit "7.000000000"))
    { exRelistMsg (.fin 2) (lit "8.000000000") with path := lit "/m" } := by
  have h : exOrderList = some ([exRelistMsg (.fin 1) (lit "7.000000000"),
      { exRelistMsg (.fin 2) (lit "8.000000000") with path := lit "/m" }],
      [(some exSlice, true, ⟨7, 0⟩), (some exSlice2, true, ⟨8, 0⟩)]) := by
    decide +kernel
  unfold exOrderList at h
  obtain ⟨⟨tr, s⟩, h1, h2⟩ := Option.map_eq_some_iff.mp h
  simp only [Prod.mk.injEq] at h2
  obtain ⟨e1, e2⟩ := h2
  have r1 := playW_run .nil h1
  obtain ⟨a, x, b, rfl, hx⟩ := playW_asked (ms := .spawn exOrderListSetup :: gos 0 4) h1
  obtain ⟨st, held, hp⟩ := exListed_two e1
  rw [List.nil_append] at r1 e2
  refine ⟨a, x, b, ⟨s, 1, 3, lit "/", _, st, held, [], [], [], r1, hx, hp, rfl⟩, ⟨rfl, rfl⟩, rfl, ?_⟩
  intro it hit cell m ts hs
  obtain ⟨p, q, hpq⟩ := List.append_of_mem hit
  have hin : (some cell, m, ts) ∈ exSets (a ++ x :: b) := by
    rw [hpq, exSets_append, exSets_cons, exSets_spec hs]; simp
  rw [e2] at hin
  have hok : ∀ v : Fl, Fl.Rep b64 v → Tricorder.Spec.CellOk ⟨none, .scalar ⟨none, .float64⟩, some [.float64 v, .float64 (.fin 2)], false⟩ := by
    refine fun v hv => ⟨⟨none, .float64⟩, rfl, ?_⟩
    intro xs h b hb
    cases h
    simp only [List.mem_cons, List.not_mem_nil, or_false] at hb
    rcases hb with rfl | rfl
    · exact ⟨rfl, hv⟩
    · exact ⟨rfl, by show Fl.Rep b64 (.fin 2); decide +kernel⟩
  simp only [List.mem_cons, Prod.mk.injEq, Option.some.injEq, List.not_mem_nil, or_false] at hin
  rcases hin with ⟨rfl, rfl, -⟩ | ⟨rfl, rfl, -⟩
  · exact ⟨hok (.fin 1) (by decide +kernel), .inl rfl⟩
  · exact ⟨hok (.fin 2) (by decide +kernel), .inl rfl⟩

end Tricorder.Whole
