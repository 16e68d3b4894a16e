import Verif.Spec.Wire
import Verif.Proof.Messages
import Verif.Props.Duration
/-!
# C71: what `ConvertToGoRPC` accepts, and what it makes of it
-/

namespace Tricorder
open Go Spec Dur

theorem parse_coherent {s : Str} {d : Dur} (h : Dur.parse s = some d) :
    Coherent d ∧ -9223372036854775807 ≤ d.sec ∧ d.sec ≤ 9223372036854775807 := by
  obtain ⟨neg, body, n0, n1, whole, frac, -, -, h3, h4, h5, rfl⟩ := (parse_iff s d).1 h
  have hw : whole < 9223372036854775808 := by
    obtain ⟨ds, -, -, ⟨-, rfl, h⟩ | ⟨-, rfl, h⟩⟩ := (parseInt64_iff _ _).1 h3 <;> omega
  have hf : frac < 1000000000 := by
    rcases h5 with ⟨-, rfl⟩ | ⟨fs, -, hd, rfl⟩
    · omega
    · unfold fracOf
      have := numVal_lt _ hd
      simpa using this
  cases neg <;> simp only [Coherent, if_true, if_false, Bool.false_eq_true] <;> omega

theorem parseWithUnit_reads {s : Str} {u : MUnit} {d : Dur} (h : Dur.parseWithUnit s u = some d) :
    Reads s u (ns d) ∧ Coherent d ∧ -9223372036854775807 ≤ d.sec ∧ d.sec ≤ 9223372036854775807 := by
  unfold Dur.parseWithUnit at h
  split at h
  · cases h
  · rename_i e hp
    cases h
    obtain ⟨h1, h2, h3⟩ := parse_coherent hp
    have hi : InI64 e.sec := by unfold InI64; omega
    obtain ⟨h5, h6⟩ := div_spec e _ h1 hi (perSecond_cases u)
    rw [convert_from e u h1 hi]
    refine ⟨⟨_, (C42_exact_language s).1 _ hp, h6⟩, h5, ?_⟩
    have hns : -9223372036854775808 * 1000000000 < ns e ∧ ns e < 9223372036854775808 * 1000000000 := by
      unfold ns; unfold Coherent at h1; omega
    have hq : -9223372036854775808 * 1000000000 < quo (ns e) (perSecond u) ∧
        quo (ns e) (perSecond u) < 9223372036854775808 * 1000000000 := by
      rcases perSecond_cases u with k | k <;> rw [k] <;> rcases le_total 0 (ns e) with h0 | h0
      · rw [quo_nonneg _ h0]; omega
      · rw [quo_neg _ h0]; omega
      · rw [quo_nonneg _ h0]; omega
      · rw [quo_neg _ h0]; omega
    rw [← h6] at hq
    unfold ns at hq; unfold Coherent at h5; omega

theorem parseWithUnit_some {s : Str} (u : MUnit) : (∃ d, Dur.parseWithUnit s u = some d) ↔ Decimal s := by
  unfold Dur.parseWithUnit
  constructor
  · rintro ⟨d, h⟩
    split at h
    · cases h
    · exact ⟨_, (C42_exact_language s).1 _ ‹_›⟩
  · rintro ⟨v, hv⟩
    obtain ⟨d, hd, -⟩ := (C42_exact_language s).2 v hv
    rw [hd]
    exact ⟨_, rfl⟩

theorem stringAsTime_some {s : Str} {u : MUnit} : (stringAsTime s u).isSome ↔ Decimal s := by
  rw [← parseWithUnit_some u, Option.isSome_iff_exists]
  simp [stringAsTime]

theorem stringAsDuration_some {s : Str} {u : MUnit} : (stringAsDuration s u).isSome ↔ Decimal s := by
  rw [← parseWithUnit_some u, Option.isSome_iff_exists]
  simp [stringAsDuration]

theorem stringAsTime_reads {s : Str} {u : MUnit} {t : Time} (h : stringAsTime s u = some t) : Reads s u (instantNs t) := by
  unfold stringAsTime at h
  obtain ⟨d, hd, rfl⟩ := Option.map_eq_some_iff.mp h
  obtain ⟨h1, h2, h3⟩ := parseWithUnit_reads hd
  have : instantNs d.asGoTime = ns d := by
    obtain ⟨sec, nsec⟩ := d
    unfold asGoTime Time.unix instantNs ns
    unfold Coherent at h2
    simp only at *
    split
    · have e1 : quo nsec 1000000000 = 0 := by rw [quo_neg _ (by omega)]; omega
      rw [e1, if_pos (by omega)]
      unfold i64
      simp only
      omega
    · rfl
  rw [this]
  exact h1

theorem stringAsDuration_reads {s : Str} {u : MUnit} {d : ℤ} (h : stringAsDuration s u = some d) :
    ∃ v, Reads s u v ∧ (InI64 v → d = v) := by
  unfold stringAsDuration at h
  obtain ⟨e, he, rfl⟩ := Option.map_eq_some_iff.mp h
  obtain ⟨h1, h2, h3⟩ := parseWithUnit_reads he
  exact ⟨_, h1, fun hv => asGoDuration_eq e hv h2⟩

theorem mapAll_isSome {α β : Type} {f : α → Option β} {l : List α} : (mapAll f l).isSome ↔ ∀ x ∈ l, (f x).isSome := by
  induction l with
  | nil => simp [mapAll]
  | cons x l ih =>
    simp only [mapAll, List.mem_cons, forall_eq_or_imp, ← ih]
    cases f x <;> cases mapAll f l <;> simp

theorem mapAll_forall₂ {α β : Type} {f : α → Option β} {l : List α} {l' : List β} (h : mapAll f l = some l') :
    List.Forall₂ (fun x y => f x = some y) l l' := by
  induction l generalizing l' with
  | nil => cases h; exact .nil
  | cons x l ih =>
    unfold mapAll at h
    split at h
    · cases h
    · split at h
      · cases h
      · cases h
        exact .cons ‹_› (ih ‹_›)

theorem not_decimal_nil : ¬ Decimal [] := by
  rintro ⟨v, neg, inner, ws, tail, fs, h1, -, -, -, -, h, -⟩
  have := congrArg List.length h
  have h2 : ws.length ≠ 0 := by simpa using h1
  simp at this
  omega

theorem valueAsString_some {v : Val} {s : Str} : valueAsString v = some s ↔ v = .scalar none (.string s) := by
  unfold valueAsString
  split
  · simp
  · rename_i h
    constructor
    · intro h; cases h
    · rintro rfl; exact absurd rfl (h _)

theorem valueAsStringSlice_some {v : Val} {ss : List Str} :
    valueAsStringSlice v = some ss ↔ ∃ es, v = .slice none ⟨none, .string⟩ es ∧ ss = (es.getD []).map strOf := by
  unfold valueAsStringSlice
  split
  · constructor
    · intro h; cases h; exact ⟨_, rfl, rfl⟩
    · rintro ⟨es, h, rfl⟩; cases h; rfl
  · rename_i h
    constructor
    · intro h; cases h
    · rintro ⟨es, rfl, -⟩; exact absurd rfl (h _)

theorem decimal_elems {es : List Base} : (∀ s ∈ es.map strOf, Decimal s) ↔ ∀ b ∈ es, ∃ s, b = .string s ∧ Decimal s := by
  simp only [List.mem_map, forall_exists_index, and_imp, forall_apply_eq_imp_iff₂]
  refine forall₂_congr fun b _ => ?_
  cases b <;> simp [strOf, not_decimal_nil]

theorem asGoRPC_isSome (v : Val) (k st : Ty) (u : MUnit) : (asGoRPC v k st u).isSome ↔
    (k = .time ∨ k = .duration → ∃ s, v = .scalar none (.string s) ∧ Decimal s) ∧
    (k = .list → st = .time ∨ st = .duration →
      ∃ es, v = .slice none ⟨none, .string⟩ es ∧ ∀ b ∈ es.getD [], ∃ s, b = .string s ∧ Decimal s) := by
  have scal : ∀ {β : Type} (f : Str → Option β) (g : β → Val × Ty × Ty), (∀ s, (f s).isSome ↔ Decimal s) →
      ((match valueAsString v with | none => none | some s => match f s with | none => none | some d => some (g d)).isSome ↔
        ∃ s, v = .scalar none (.string s) ∧ Decimal s) := by
    intro β f g hf
    cases hv : valueAsString v with
    | none =>
      simp only [Option.isSome_none, Bool.false_eq_true, false_iff, not_exists, not_and]
      rintro s hs -
      rw [valueAsString_some.mpr hs] at hv
      cases hv
    | some s =>
      have := valueAsString_some.mp hv
      subst this
      simp only [Val.scalar.injEq, true_and, Base.string.injEq, exists_eq_left', ← hf]
      cases f s <;> simp
  have lst : ∀ {β : Type} (f : Str → Option β) (g : List β → Val × Ty × Ty), (∀ s, (f s).isSome ↔ Decimal s) →
      ((match valueAsStringSlice v with | none => none | some s => match mapAll f s with | none => none | some d => some (g d)).isSome ↔
        ∃ es, v = .slice none ⟨none, .string⟩ es ∧ ∀ b ∈ es.getD [], ∃ s, b = .string s ∧ Decimal s) := by
    intro β f g hf
    cases hv : valueAsStringSlice v with
    | none =>
      simp only [Option.isSome_none, Bool.false_eq_true, false_iff, not_exists, not_and]
      rintro es hs -
      rw [valueAsStringSlice_some.mpr ⟨es, hs, rfl⟩] at hv
      cases hv
    | some ss =>
      obtain ⟨es, rfl, rfl⟩ := valueAsStringSlice_some.mp hv
      have e : (mapAll f ((es.getD []).map strOf)).isSome ↔ ∀ b ∈ es.getD [], ∃ s, b = .string s ∧ Decimal s := by
        rw [mapAll_isSome, ← decimal_elems]
        simp only [hf]
      simp only [Val.slice.injEq, true_and, exists_eq_left', ← e]
      cases mapAll f ((es.getD []).map strOf) <;> simp
  have k1 := scal (fun s => stringAsDuration s u) (fun d => (.scalar none (.duration d), .goDuration, .unknown))
    fun s => stringAsDuration_some
  have k2 := scal (fun s => stringAsTime s u) (fun d => (.scalar none (.time d), .goTime, .unknown)) fun s => stringAsTime_some
  have k3 := lst (fun s => stringAsDuration s u)
    (fun ds => (.slice none ⟨none, .duration⟩ (some (ds.map .duration)), .list, .goDuration)) fun s => stringAsDuration_some
  have k4 := lst (fun s => stringAsTime s u) (fun ds => (.slice none ⟨none, .time⟩ (some (ds.map .time)), .list, .goTime))
    fun s => stringAsTime_some
  unfold asGoRPC
  split
  · revert k1
    cases valueAsString v with
    | none => intro h; refine Iff.trans h ?_; simp
    | some s => dsimp only; cases stringAsDuration s u <;> (intro h; refine Iff.trans h ?_; simp)
  · revert k2
    cases valueAsString v with
    | none => intro h; refine Iff.trans h ?_; simp
    | some s => dsimp only; cases stringAsTime s u <;> (intro h; refine Iff.trans h ?_; simp)
  · split
    · revert k3
      cases valueAsStringSlice v with
      | none => intro h; refine Iff.trans h ?_; simp
      | some s => dsimp only; cases mapAll (fun s => stringAsDuration s u) s <;> (intro h; refine Iff.trans h ?_; simp)
    · revert k4
      cases valueAsStringSlice v with
      | none => intro h; refine Iff.trans h ?_; simp
      | some s => dsimp only; cases mapAll (fun s => stringAsTime s u) s <;> (intro h; refine Iff.trans h ?_; simp)
    · rename_i h1 h2
      simp
      rintro (rfl | rfl)
      · exact absurd rfl h2
      · exact absurd rfl h1
  · rename_i h1 h2 h3
    simp
    refine ⟨?_, fun h => absurd h h3⟩
    rintro (rfl | rfl)
    · exact absurd rfl h2
    · exact absurd rfl h1

theorem tsToGoRPC_isSome (ts : TS) : (tsToGoRPC ts).isSome ↔
    ts = .nil ∨ (∃ t, ts = .time t) ∨ ts = .str [] ∨ ∃ s, ts = .str s ∧ Decimal s := by
  cases ts with
  | nil => simp [tsToGoRPC]
  | time t => simp [tsToGoRPC]
  | other s => simp [tsToGoRPC]
  | str s =>
    simp only [tsToGoRPC, reduceCtorEq, false_or, TS.str.injEq, exists_false, exists_eq_left', ← stringAsTime_some (s := s) (u := .second)]
    split <;> simp_all

/-- **C71**: `ConvertToGoRPC` succeeds exactly for the metrics whose times, durations and time stamp are text of decimals (or, for
the time stamp, absent, empty or a time already). -/
theorem C71_accepts (m : Metric) : (m.convertToGoRPC).1 = true ↔ Readable m := by
  have h1 := asGoRPC_isSome m.value m.kind m.subType m.unit
  have h2 := tsToGoRPC_isSome m.timeStamp
  have h3 : (m.convertToGoRPC).1 = true ↔ (asGoRPC m.value m.kind m.subType m.unit).isSome ∧ (tsToGoRPC m.timeStamp).isSome := by
    unfold Metric.convertToGoRPC
    cases asGoRPC m.value m.kind m.subType m.unit <;> cases tsToGoRPC m.timeStamp <;> simp
  rw [h3, h1, h2]
  exact ⟨fun h => ⟨h.1.1, h.1.2, h.2⟩, fun h => ⟨⟨h.scalar, h.list⟩, h.ts⟩⟩

/-- **C71**: after a success the metric is in Go RPC form: times and durations are what the text says in the unit of the metric,
cut off to nanoseconds, elements in order; the time stamp is what the text says in seconds; everything else is as before. -/
theorem C71_result {m r : Metric} (h : m.convertToGoRPC = (true, r)) :
    GoForm r ∧ r = { m with value := r.value, kind := r.kind, subType := r.subType, timeStamp := r.timeStamp } ∧
    (m.kind = .time → r.kind = .goTime ∧ ∃ s t, m.value = .scalar none (.string s) ∧ r.value = .scalar none (.time t) ∧
      Reads s m.unit (instantNs t)) ∧
    (m.kind = .duration → r.kind = .goDuration ∧ ∃ s d v, m.value = .scalar none (.string s) ∧
      r.value = .scalar none (.duration d) ∧ Reads s m.unit v ∧ (InI64 v → d = v)) ∧
    (m.kind = .list → r.kind = .list ∧
      (m.subType = .time → r.subType = .goTime ∧ ∃ es ts, m.value = .slice none ⟨none, .string⟩ es ∧
        r.value = .slice none ⟨none, .time⟩ (some (ts.map .time)) ∧
        List.Forall₂ (fun b t => ∃ s, b = .string s ∧ Reads s m.unit (instantNs t)) (es.getD []) ts) ∧
      (m.subType = .duration → r.subType = .goDuration ∧ ∃ es ds, m.value = .slice none ⟨none, .string⟩ es ∧
        r.value = .slice none ⟨none, .duration⟩ (some (ds.map .duration)) ∧
        List.Forall₂ (fun b d => ∃ s v, b = .string s ∧ Reads s m.unit v ∧ (InI64 v → d = v)) (es.getD []) ds) ∧
      (m.subType ≠ .time → m.subType ≠ .duration → r.subType = m.subType ∧ r.value = m.value)) ∧
    (m.kind ≠ .time → m.kind ≠ .duration → m.kind ≠ .list → r.kind = m.kind ∧ r.subType = .unknown ∧ r.value = m.value) ∧
    (m.timeStamp = .nil ∨ m.timeStamp = .str [] → r.timeStamp = .nil) ∧
    (∀ t, m.timeStamp = .time t → r.timeStamp = .time t) ∧
    (∀ s, s ≠ [] → m.timeStamp = .str s → ∃ t, r.timeStamp = .time t ∧ Reads s .second (instantNs t)) := by
  unfold Metric.convertToGoRPC at h
  split at h
  · cases h
  · rename_i v k st hv
    split at h
    · cases h
    · rename_i ts hts
      cases h
      simp only
      have hts' : (ts = .nil ∨ ∃ t, ts = .time t) ∧ (m.timeStamp = .nil ∨ m.timeStamp = .str [] → ts = .nil) ∧
          (∀ t, m.timeStamp = .time t → ts = .time t) ∧
          (∀ s, s ≠ [] → m.timeStamp = .str s → ∃ t, ts = .time t ∧ Reads s .second (instantNs t)) := by
        generalize m.timeStamp = mts at hts
        cases mts with
        | nil => cases hts; simp
        | time t => cases hts; simp
        | other s => cases hts
        | str s =>
          simp only [tsToGoRPC] at hts
          split at hts
          · subst s; cases hts; simp
          · obtain ⟨t, ht, rfl⟩ := Option.map_eq_some_iff.mp hts
            have := stringAsTime_reads ht
            simp_all
            rintro _ - rfl
            exact this
      obtain ⟨t1, t2, t3, t4⟩ := hts'
      unfold asGoRPC at hv
      split at hv
      · rename_i hk
        rw [hk] at *
        split at hv
        · cases hv
        · rename_i s hs
          split at hv
          · cases hv
          · rename_i d hd
            cases hv
            obtain ⟨x, hx, hx'⟩ := stringAsDuration_reads hd
            refine ⟨⟨by simp, by simp, t1⟩, trivial, by simp, fun _ => ⟨rfl, s, d, x, valueAsString_some.mp hs, rfl, hx, hx'⟩,
              by simp, by simp, t2, t3, t4⟩
      · rename_i hk
        rw [hk] at *
        split at hv
        · cases hv
        · rename_i s hs
          split at hv
          · cases hv
          · rename_i d hd
            cases hv
            refine ⟨⟨by simp, by simp, t1⟩, trivial, fun _ => ⟨rfl, s, d, valueAsString_some.mp hs, rfl, stringAsTime_reads hd⟩,
              by simp, by simp, by simp, t2, t3, t4⟩
      · rename_i hk
        rw [hk] at *
        split at hv
        · rename_i hst
          rw [hst] at *
          split at hv
          · cases hv
          · rename_i ss hs
            split at hv
            · cases hv
            · rename_i ds hd
              cases hv
              obtain ⟨es, he, rfl⟩ := valueAsStringSlice_some.mp hs
              refine ⟨⟨by simp, by simp, t1⟩, trivial, by simp, by simp, fun _ => ⟨rfl, by simp, fun _ => ⟨rfl, es, ds, he, rfl, ?_⟩,
                by simp⟩, by simp, t2, t3, t4⟩
              refine (List.forall₂_map_left_iff.mp (mapAll_forall₂ hd)).imp fun b d h => ?_
              obtain ⟨x, hx, hx'⟩ := stringAsDuration_reads h
              have hdec := stringAsDuration_some.mp (by rw [h]; rfl)
              obtain ⟨s, rfl, -⟩ := (decimal_elems (es := [b])).mp (by simpa using hdec) b (by simp)
              exact ⟨s, x, rfl, hx, hx'⟩
        · rename_i hst
          rw [hst] at *
          split at hv
          · cases hv
          · rename_i ss hs
            split at hv
            · cases hv
            · rename_i ds hd
              cases hv
              obtain ⟨es, he, rfl⟩ := valueAsStringSlice_some.mp hs
              refine ⟨⟨by simp, by simp, t1⟩, trivial, by simp, by simp, fun _ => ⟨rfl, fun _ => ⟨rfl, es, ds, he, rfl, ?_⟩, by simp,
                by simp⟩, by simp, t2, t3, t4⟩
              refine (List.forall₂_map_left_iff.mp (mapAll_forall₂ hd)).imp fun b d h => ?_
              have hdec := stringAsTime_some.mp (by rw [h]; rfl)
              obtain ⟨s, rfl, -⟩ := (decimal_elems (es := [b])).mp (by simpa using hdec) b (by simp)
              exact ⟨s, rfl, stringAsTime_reads h⟩
        · rename_i h1 h2
          cases hv
          refine ⟨⟨by simp, ⟨fun h => h2 h, fun h => h1 h⟩, t1⟩, trivial, by simp, by simp,
            fun _ => ⟨rfl, fun h => absurd h h2, fun h => absurd h h1, fun _ _ => ⟨rfl, rfl⟩⟩, by simp, t2, t3, t4⟩
      · rename_i h1 h2 h3
        cases hv
        exact ⟨⟨⟨fun h => h2 h, fun h => h1 h⟩, by simp, t1⟩, trivial, fun h => absurd h h2, fun h => absurd h h1,
          fun h => absurd h h3, fun _ _ _ => ⟨rfl, rfl, rfl⟩, t2, t3, t4⟩

/-- text that is not a decimal in the time stamp -/
example : ¬ Readable ⟨lit "/p", [], .second, .bool, .unknown, 0, .scalar none (.bool true), .str (lit "noon"), 0⟩ := by
  rw [← C71_accepts]
  decide

/-- a list of times in milliseconds -/
example : Readable ⟨lit "/p", [], .millisecond, .list, .time, 0,
    .slice none ⟨none, .string⟩ (some [.string (lit "1500.5"), .string (lit "-2")]), .str (lit "12.5"), 7⟩ := by
  rw [← C71_accepts]
  decide

example : (⟨lit "/p", [], .millisecond, .list, .time, 0,
    .slice none ⟨none, .string⟩ (some [.string (lit "1500.5"), .string (lit "-2")]), .str (lit "12.5"), 7⟩ : Metric).convertToGoRPC =
    (true, ⟨lit "/p", [], .millisecond, .list, .goTime, 0,
      .slice none ⟨none, .time⟩ (some [.time ⟨1, 500500000⟩, .time ⟨-1, 998000000⟩]), .time ⟨12, 500000000⟩, 7⟩) := by
  decide +kernel

end Tricorder
