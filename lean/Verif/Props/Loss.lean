import Verif.Props.Messages
import Verif.Spec.Loss
/-!
# What exactly JSON loses (C43)
-/

namespace Tricorder
open Go Spec

theorem timeAsString_epochFor (t : Time) (u : MUnit) : timeAsString (epochFor t) u = timeAsString t u := by
  unfold epochFor
  split
  · next h =>
    subst h
    unfold timeAsString
    congr 1
  · rfl

theorem epochForBase_ty (b : Base) : (epochForBase b).ty = b.ty := by cases b <;> rfl

theorem epochForBase_valid {b : Base} (h : b.Valid) : (epochForBase b).Valid := by
  cases b <;> try exact h
  rename_i t
  change (epochFor t).Valid
  unfold epochFor
  split
  · decide
  · exact h

theorem epochForBase_not_time {b : Base} (h : b.ty ≠ .time) : epochForBase b = b := by
  cases b <;> first | rfl | exact absurd rfl h

theorem epochForZero_kind (v : Val) : fromGoValueWithSubType (epochForZero v) = fromGoValueWithSubType v := by
  cases v with
  | scalar n b => cases n <;> cases b <;> rfl
  | slice n e es => obtain ⟨en, eb⟩ := e; cases n <;> cases en <;> rfl
  | _ => rfl

theorem epochForZero_ok {v : Val} (h : ValOk v) : ValOk (epochForZero v) := by
  cases v <;> try exact h
  · exact epochForBase_valid h
  · rename_i n e es
    cases es with
    | none => exact h
    | some l =>
      intro b hb
      obtain ⟨b', hb', rfl⟩ := List.mem_map.mp hb
      have := h b' hb'
      exact ⟨(epochForBase_ty b').trans this.1, epochForBase_valid this.2⟩

theorem epochFor_ok {t : Time} (h : TimeRange t) : TimeOk (epochFor t) := by
  unfold epochFor
  split
  · unfold TimeOk TimeRange; decide
  · exact ⟨‹_›, h⟩

theorem epochForZero_times {v : Val} (h : AllTimes TimeRange v) : AllTimes TimeOk (epochForZero v) := by
  cases v <;> try exact h
  · rename_i n b
    cases b <;> try exact h
    exact epochFor_ok h
  · rename_i n e es
    cases es with
    | none => intro t ht; exact nomatch ht
    | some l =>
      intro t ht
      obtain ⟨b, hb, he⟩ := List.mem_map.mp ht
      cases b <;> simp only [epochForBase, reduceCtorEq, Base.time.injEq] at he
      subst he
      exact epochFor_ok (h _ hb)

theorem epochForZero_json {v : Val} {k s : Ty} (u : MUnit) (h : fromGoValueWithSubType v = (k, s)) (hk : k ≠ .unknown) (hv : ValOk v) :
    asJson (epochForZero v) k s u = asJson v k s u := by
  rcases wf_cases h hk with ⟨hp, rfl, hs⟩ | rfl | rfl | rfl
  · have : epochForZero v = v := by
      cases v <;> try rfl
      · rename_i n b
        cases b <;> try rfl
        cases n with
        | none => cases h; cases hp
        | some => cases h; exact absurd rfl hk
      · exact absurd rfl (hs _ _ _)
    rw [this]
  · obtain ⟨b, es, rfl, hb⟩ := wf_list h
    have hes : ∀ x ∈ es.getD [], x.ty = b := fun x hx => (hv x hx).1
    by_cases h2 : b = .time
    · subst h2
      cases hb
      cases es with
      | none => rfl
      | some l =>
        simp only [asJson, epochForZero, Option.map_some, Option.getD_some, Option.some.injEq, Prod.mk.injEq, and_true, Val.slice.injEq,
          List.map_map, true_and]
        refine List.map_congr_left fun x hx => ?_
        have := hes x hx
        cases x <;> cases this
        exact congrArg Base.string (timeAsString_epochFor _ u)
    · have : epochForZero (.slice none ⟨none, b⟩ es) = .slice none ⟨none, b⟩ es := by
        cases es with
        | none => rfl
        | some l =>
          simp only [epochForZero, Option.map_some]
          congr 2
          conv => rhs; rw [← List.map_id l]
          exact List.map_congr_left fun x hx => epochForBase_not_time (by rw [hes x hx]; exact h2)
      rw [this]
  · obtain ⟨rfl, t, rfl⟩ := wf_goTime h
    simp only [asJson, epochForZero, epochForBase, timeAsString_epochFor]
  · obtain ⟨rfl, t, rfl⟩ := wf_goDuration h
    rfl

theorem epochFor_eq {t : Time} : t = epochFor t ↔ t ≠ Time.zero := by
  unfold epochFor
  split
  · next h => subst h; simp only [ne_eq, not_true_eq_false, iff_false]; decide
  · simp [*]

theorem epochForBase_eq {b : Base} : b = epochForBase b ↔ ∀ t, b = .time t → t ≠ Time.zero := by
  cases b <;> simp [epochForBase, epochFor_eq]

theorem sameValue_epochFor (v r : Val) (h : sameValue (epochForZero v) r) : sameValue v r ↔ AllTimes (· ≠ Time.zero) v := by
  cases v with
  | scalar n b =>
    have : r = .scalar n (epochForBase b) := by cases r <;> cases h <;> rfl
    subst this
    have e : sameValue (.scalar n b) (.scalar n (epochForBase b)) ↔ b = epochForBase b := by simp [sameValue]
    rw [e, epochForBase_eq]
    cases b <;> simp [AllTimes]
  | slice n e es =>
    cases r with
    | slice n' e' es' =>
      obtain ⟨rfl, rfl, h3⟩ := h
      have e1 : es'.getD [] = (es.getD []).map epochForBase := by
        rw [← h3]
        cases es <;> rfl
      simp only [sameValue, true_and, AllTimes, e1]
      constructor
      · intro h t ht
        have := List.map_inj_left.mp (((List.map_id _).trans h)) _ ht
        exact epochForBase_eq.mp this t rfl
      · intro h
        conv => lhs; rw [← List.map_id (es.getD [])]
        exact List.map_congr_left fun b hb => epochForBase_eq.mpr fun t e => h t (e ▸ hb)
    | _ => cases h
  | _ => exact iff_of_true h trivial

/-- **C43, exactly** Every well-formed metric whose times lie within 292 million years of 1970 comes back as it was, but with 1970 in
place of the zero time.  So it comes back unchanged exactly if it contains no zero time. -/
theorem C43_exact (m : Metric) (wf : WellFormed m) (ht : AllTimes TimeRange m.value)
    (hts : ∀ t, m.timeStamp = .time t → -9223372036854775808 < t.sec) :
    ∃ j r, m.convertToJson = some j ∧ j.convertToGoRPC = (true, r) ∧ r = { m with value := r.value } ∧
      sameValue (epochForZero m.value) r.value ∧ (sameValue m.value r.value ↔ AllTimes (· ≠ Time.zero) m.value) := by
  have hj := epochForZero_json m.unit wf.kinds wf.known wf.valOk
  have wf' : WellFormed { m with value := epochForZero m.value } :=
    ⟨(epochForZero_kind _).trans wf.kinds, wf.known, epochForZero_ok wf.valOk, wf.ts⟩
  obtain ⟨j, r, h1, h2, -, -, h5, -, h7⟩ := C43_json_roundtrip_partial _ wf' (epochForZero_times ht) hts
  refine ⟨j, r, ?_, h2, h7, h5, sameValue_epochFor _ _ h5⟩
  rw [← h1]
  unfold Metric.convertToJson
  simp only [hj]

/-- a list of a time and the zero time -/
def exampleZero : Metric :=
  { path := lit "/a/b", description := lit "d", unit := .millisecond, kind := .list,
    subType := .goTime, bits := 0,
    value := .slice none ⟨none, .time⟩ (some [.time ⟨-1, 5⟩, .time Time.zero]),
    timeStamp := .time Time.zero, groupId := 3 }

example : WellFormed exampleZero ∧ AllTimes TimeRange exampleZero.value ∧
    (∀ t, exampleZero.timeStamp = .time t → -9223372036854775808 < t.sec) ∧
    epochForZero exampleZero.value = .slice none ⟨none, .time⟩ (some [.time ⟨-1, 5⟩, .time ⟨0, 0⟩]) := by
  refine ⟨⟨by decide, by decide, ?_, Or.inr ⟨_, rfl, by decide⟩⟩, ?_, ?_, by decide⟩
  · intro b hb
    simp at hb
    rcases hb with rfl | rfl <;> exact ⟨rfl, by unfold Base.Valid; decide⟩
  · intro t hb
    simp at hb
    rcases hb with rfl | rfl <;> (unfold TimeRange; decide)
  · intro t e; cases e; decide

end Tricorder
