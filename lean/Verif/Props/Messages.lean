import Verif.Proof.Messages
/-!
# C43, C44, C45: wire formats of a metric
-/

namespace Tricorder
open Go Spec

/-- **C43**, except for times whose text cannot be read back: every `time.Time` inside the value
must satisfy `TimeOk` (in particular not be the zero time, see `C43_zero_time_lost`), and the time
stamp must not lie at the very first second an `int64` can hold.  A nil slice comes back as an
empty slice.  Path, description, unit, bits and group id are untouched. -/
theorem C43_json_roundtrip_partial (m : Metric) (wf : WellFormed m) (ht : AllTimes TimeOk m.value)
    (hts : ∀ t, m.timeStamp = .time t → -9223372036854775808 < t.sec) :
    ∃ j r, m.convertToJson = some j ∧ j.convertToGoRPC = (true, r) ∧
      r.kind = m.kind ∧ r.subType = m.subType ∧ sameValue m.value r.value ∧
      r.timeStamp = m.timeStamp ∧
      r = { m with value := r.value } := by
  obtain ⟨v', k', s', w, h1, h2, h3⟩ := value_roundtrip m.unit wf.kinds wf.known wf.valOk ht
  unfold Metric.convertToJson
  rw [h1]
  rcases wf.ts with e | ⟨t, e, hv⟩
  · refine ⟨_, { m with value := w }, rfl, ?_, rfl, rfl, h3, rfl, rfl⟩
    unfold Metric.convertToGoRPC
    simp only [h2, e, tsToGoRPC, if_true]
  · refine ⟨_, { m with value := w }, rfl, ?_, rfl, rfl, h3, rfl, rfl⟩
    unfold Metric.convertToGoRPC
    simp only [h2, e, tsToGoRPC]
    rw [if_neg (toString_ne_nil' _), timestamp_roundtrip t hv (hts t e)]
    simp only [Option.map_some]

/-- a metric holding a list of two times (one before the epoch) in milliseconds -/
def exampleTimes : Metric :=
  { path := lit "/a/b", description := lit "d", unit := .millisecond, kind := .list,
    subType := .goTime, bits := 0,
    value := .slice none ⟨none, .time⟩ (some [.time ⟨-1, 5⟩, .time ⟨1500000000, 123456789⟩]),
    timeStamp := .time Time.zero, groupId := 3 }

example : WellFormed exampleTimes ∧ AllTimes TimeOk exampleTimes.value ∧
    ∀ t, exampleTimes.timeStamp = .time t → -9223372036854775808 < t.sec := by
  refine ⟨⟨by decide, by decide, ?_, Or.inr ⟨_, rfl, by decide⟩⟩, ?_, ?_⟩
  · intro b hb
    simp at hb
    rcases hb with rfl | rfl <;> exact ⟨rfl, by unfold Base.Valid; decide⟩
  · intro t hb
    simp at hb
    rcases hb with rfl | rfl <;> (unfold TimeOk TimeRange; decide)
  · intro t e; cases e; decide

/-- **C43 is false for the zero time**: `time.Time{}` comes back as 1970-01-01. -/
theorem C43_zero_time_lost : ∃ (m j r : Metric), WellFormed m ∧
    m.value = .scalar none (.time Time.zero) ∧
    m.convertToJson = some j ∧ j.convertToGoRPC = (true, r) ∧
    r.value = .scalar none (.time ⟨0, 0⟩) ∧ r.value ≠ m.value := by
  refine ⟨{ path := [], description := [], unit := .second, kind := .goTime, subType := .unknown,
            bits := 0, value := .scalar none (.time Time.zero), timeStamp := .nil, groupId := 0 },
    _, _, ⟨rfl, by decide, by show Time.zero.Valid; decide, Or.inl rfl⟩, rfl, rfl, rfl, ?_, ?_⟩ <;>
    decide

/-- **C44** (JSON direction): whatever the metric, if the first `ConvertToJson` does not panic, a
second one does not either and changes nothing. -/
theorem C44_json_idempotent (m j : Metric) (h : m.convertToJson = some j) :
    j.convertToJson = some j := by
  unfold Metric.convertToJson at h
  cases hj : asJson m.value m.kind m.subType m.unit with
  | none => rw [hj] at h; simp at h
  | some r =>
    obtain ⟨v, k, s⟩ := r
    rw [hj] at h
    simp only [Option.some.injEq] at h
    have key : asJson v k s m.unit = some (v, k, s) := by
      unfold asJson at hj
      split at hj
      · split at hj <;> simp at hj; obtain ⟨rfl, rfl, rfl⟩ := hj; rfl
      · split at hj <;> simp at hj; obtain ⟨rfl, rfl, rfl⟩ := hj; rfl
      · split at hj
        · split at hj <;> simp at hj; obtain ⟨rfl, rfl, rfl⟩ := hj; rfl
        · split at hj <;> simp at hj; obtain ⟨rfl, rfl, rfl⟩ := hj; rfl
        · split at hj <;> simp at hj <;> obtain ⟨rfl, rfl, rfl⟩ := hj <;>
            simp_all [asJson]
      · simp at hj; obtain ⟨rfl, rfl, rfl⟩ := hj; simp_all [asJson]
    subst h
    unfold Metric.convertToJson
    simp only [key]
    cases m.timeStamp <;> rfl

/-- **C44** (Go RPC direction): whatever the metric, `ConvertToGoRPC` returns normally (the model
function is total: no case of it is a panic); on error the metric is unchanged; converting again
gives the same answer and changes nothing more. -/
theorem C44_gorpc_idempotent (m : Metric) :
    ((m.convertToGoRPC).1 = false → (m.convertToGoRPC).2 = m) ∧
    (m.convertToGoRPC).2.convertToGoRPC = m.convertToGoRPC := by
  unfold Metric.convertToGoRPC
  cases hj : asGoRPC m.value m.kind m.subType m.unit with
  | none => simp [hj]
  | some r =>
    obtain ⟨v, k, s⟩ := r
    simp only
    cases ht : tsToGoRPC m.timeStamp with
    | none => simp [hj, ht]
    | some ts =>
      simp only [Bool.true_eq_false, false_implies, true_and]
      have key : asGoRPC v k s m.unit = some (v, k, s) := by
        unfold asGoRPC at hj
        split at hj
        · split at hj
          · simp at hj
          · split at hj <;> simp at hj; obtain ⟨rfl, rfl, rfl⟩ := hj; rfl
        · split at hj
          · simp at hj
          · split at hj <;> simp at hj; obtain ⟨rfl, rfl, rfl⟩ := hj; rfl
        · split at hj
          · split at hj
            · simp at hj
            · split at hj <;> simp at hj; obtain ⟨rfl, rfl, rfl⟩ := hj; rfl
          · split at hj
            · simp at hj
            · split at hj <;> simp at hj; obtain ⟨rfl, rfl, rfl⟩ := hj; rfl
          · simp at hj; obtain ⟨rfl, rfl, rfl⟩ := hj; simp_all [asGoRPC]
        · simp at hj; obtain ⟨rfl, rfl, rfl⟩ := hj; simp_all [asGoRPC]
      have kts : tsToGoRPC ts = some ts := by
        unfold tsToGoRPC at ht
        split at ht
        · cases ht; rfl
        · cases ht; rfl
        · split at ht
          · cases ht; rfl
          · simp at ht; obtain ⟨t, _, rfl⟩ := ht; rfl
        · cases ht
      simp only [key, kts]

/-- the error branch is reachable: a time metric whose value is not a string -/
example : ((⟨lit "/p", [], .second, .time, .unknown, 0, .scalar none (.bool true), .nil, 0⟩ :
    Metric).convertToGoRPC).1 = false := by decide

/-- and so is the panic of `ConvertToJson` on a malformed metric, which C44 does not rule out -/
example : (⟨lit "/p", [], .second, .goTime, .unknown, 0, .scalar none (.bool true), .nil, 0⟩ :
    Metric).convertToJson = none := by decide

/-- **C45**: on a well-formed metric (times within 292 million years of 1970) `ConvertToJson` does
not panic; the kinds are JSON kinds; times and durations have become the exact decimal text in the
metric's unit; a list is never nil and keeps its length; the time stamp is text. -/
theorem C45_json_kinds (m : Metric) (wf : WellFormed m) (ht : AllTimes TimeRange m.value)
    (hts : ∀ t, m.timeStamp = .time t → TimeRange t) :
    ∃ j, m.convertToJson = some j ∧
      j.kind ≠ .goTime ∧ j.kind ≠ .goDuration ∧ j.subType ≠ .goTime ∧ j.subType ≠ .goDuration ∧
      (∀ t, m.value = .scalar none (.time t) → j.kind = .time ∧
        ∃ s, j.value = .scalar none (.string s) ∧ Denotes9 s (reportedNs t * perSecond m.unit)) ∧
      (∀ d, m.value = .scalar none (.duration d) → j.kind = .duration ∧
        ∃ s, j.value = .scalar none (.string s) ∧ Denotes9 s (d * perSecond m.unit)) ∧
      (m.kind = .list → j.kind = .list ∧ ∃ e es, j.value = .slice none e (some es)) ∧
      (∀ es, m.value = .slice none ⟨none, .time⟩ es → j.subType = .time ∧
        ∃ ss : List Str, j.value = .slice none ⟨none, .string⟩ (some (ss.map .string)) ∧
          List.Forall₂ (fun b s => Denotes9 s (reportedNs (timeOf b) * perSecond m.unit))
            (es.getD []) ss) ∧
      (∀ es, m.value = .slice none ⟨none, .duration⟩ es → j.subType = .duration ∧
        ∃ ss : List Str, j.value = .slice none ⟨none, .string⟩ (some (ss.map .string)) ∧
          List.Forall₂ (fun b s => Denotes9 s (durOf b * perSecond m.unit)) (es.getD []) ss) ∧
      (m.timeStamp = .nil → j.timeStamp = .str []) ∧
      (∀ t, m.timeStamp = .time t → ∃ s, j.timeStamp = .str s ∧ Denotes9 s (instantNs t)) := by
  have tsn : m.timeStamp = .nil → ∀ v k s, asJson m.value m.kind m.subType m.unit = some (v, k, s) →
      m.convertToJson = some { m with value := v, kind := k, subType := s, timeStamp := .str [] } := by
    intro e v k s h; unfold Metric.convertToJson; rw [h, e]
  have tst : ∀ t, m.timeStamp = .time t →
      ∀ v k s, asJson m.value m.kind m.subType m.unit = some (v, k, s) →
      m.convertToJson = some
        { m with value := v, kind := k, subType := s, timeStamp := .str (Dur.sinceEpoch t).toString } := by
    intro t e v k s h; unfold Metric.convertToJson; rw [h, e]
  -- reduce to the value part
  suffices hv : ∃ v k s, asJson m.value m.kind m.subType m.unit = some (v, k, s) ∧
      k ≠ .goTime ∧ k ≠ .goDuration ∧ s ≠ .goTime ∧ s ≠ .goDuration ∧
      (∀ t, m.value = .scalar none (.time t) → k = .time ∧
        ∃ s, v = .scalar none (.string s) ∧ Denotes9 s (reportedNs t * perSecond m.unit)) ∧
      (∀ d, m.value = .scalar none (.duration d) → k = .duration ∧
        ∃ s, v = .scalar none (.string s) ∧ Denotes9 s (d * perSecond m.unit)) ∧
      (m.kind = .list → k = .list ∧ ∃ e es, v = .slice none e (some es)) ∧
      (∀ es, m.value = .slice none ⟨none, .time⟩ es → s = .time ∧
        ∃ ss : List Str, v = .slice none ⟨none, .string⟩ (some (ss.map .string)) ∧
          List.Forall₂ (fun b s => Denotes9 s (reportedNs (timeOf b) * perSecond m.unit))
            (es.getD []) ss) ∧
      (∀ es, m.value = .slice none ⟨none, .duration⟩ es → s = .duration ∧
        ∃ ss : List Str, v = .slice none ⟨none, .string⟩ (some (ss.map .string)) ∧
          List.Forall₂ (fun b s => Denotes9 s (durOf b * perSecond m.unit)) (es.getD []) ss) by
    obtain ⟨v, k, s, h1, h2, h3, h4, h5, h6, h7, h8, h9, h10⟩ := hv
    rcases wf.ts with e | ⟨t, e, hval⟩
    · refine ⟨_, tsn e v k s h1, h2, h3, h4, h5, h6, h7, h8, h9, h10, fun _ => rfl, ?_⟩
      intro t et; rw [e] at et; cases et
    · refine ⟨_, tst t e v k s h1, h2, h3, h4, h5, h6, h7, h8, h9, h10, ?_, ?_⟩
      · intro en; rw [e] at en; cases en
      · intro t' et; rw [e] at et; cases et
        have := (hts t e).1
        exact ⟨_, rfl, timestamp_denotes t hval (by omega)⟩
  have fa : ∀ {α β : Type} (R : α → β → Prop) (f : α → β) (l : List α), (∀ x ∈ l, R x (f x)) →
      List.Forall₂ R l (l.map f) := by
    intro α β R f l h
    induction l with
    | nil => exact .nil
    | cons x xs ih => exact .cons (h x (by simp)) (ih fun y hy => h y (by simp [hy]))
  have hval := wf.valOk
  have hkinds := wf.kinds
  have hknown := wf.known
  generalize m.value = mv at hval hkinds ht ⊢
  generalize m.kind = mk at hkinds hknown ⊢
  generalize m.subType = ms at hkinds ⊢
  generalize m.unit = u
  clear hts tsn tst wf
  rcases wf_cases hkinds hknown with ⟨hp, rfl, hns⟩ | rfl | rfl | rfl
  · refine ⟨_, _, _, asJson_plain _ _ _ hp, ?_, ?_, by simp, by simp, ?_, ?_, ?_, ?_, ?_⟩
    · rintro rfl; simp [PlainTy] at hp
    · rintro rfl; simp [PlainTy] at hp
    · rintro t rfl; simp [fromGoValueWithSubType, scalarKind, Base.ty] at hkinds
      subst hkinds; simp [PlainTy] at hp
    · rintro t rfl; simp [fromGoValueWithSubType, scalarKind, Base.ty] at hkinds
      subst hkinds; simp [PlainTy] at hp
    · rintro rfl; simp [PlainTy] at hp
    · intro es h; exact absurd h (hns _ _ _)
    · intro es h; exact absurd h (hns _ _ _)
  · obtain ⟨b, es, rfl, hb⟩ := wf_list hkinds
    have hes : ∀ x ∈ es.getD [], x.ty = b ∧ x.Valid := hval
    by_cases h1 : b = .duration
    · subst h1
      cases hb
      refine ⟨_, _, _, rfl, by simp, by simp, by simp, by simp, by simp, by simp,
        fun _ => ⟨rfl, _, _, rfl⟩, by simp, ?_⟩
      intro es' e
      simp only [Val.slice.injEq, true_and] at e
      subst e
      refine ⟨rfl, _, rfl, fa _ _ _ ?_⟩
      intro x hx
      obtain ⟨hx1, hx2⟩ := hes x hx
      cases x <;> simp [Base.ty] at hx1
      exact durationAsString_denotes _ hx2 u
    · by_cases h2 : b = .time
      · subst h2
        cases hb
        refine ⟨_, _, _, rfl, by simp, by simp, by simp, by simp, by simp, by simp,
          fun _ => ⟨rfl, _, _, rfl⟩, ?_, by simp⟩
        intro es' e
        simp only [Val.slice.injEq, true_and] at e
        subst e
        refine ⟨rfl, _, rfl, fa _ _ _ ?_⟩
        intro x hx
        obtain ⟨hx1, hx2⟩ := hes x hx
        cases x <;> simp [Base.ty] at hx1
        exact timeAsString_denotes _ hx2 (ht _ hx) u
      · refine ⟨.slice none ⟨none, b⟩ (some (es.getD [])), .list, ms, ?_, by simp, by simp, ?_, ?_,
          by simp, by simp, fun _ => ⟨rfl, _, _, rfl⟩, ?_, ?_⟩
        · rcases b with _ | ⟨k⟩ | _ | _ | _ | _ | _ <;> (try cases k) <;>
            simp_all [scalarKind] <;> subst hb <;> simp [asJson]
        · rintro rfl
          rcases b with _ | ⟨k⟩ | _ | _ | _ | _ | _ <;> (try cases k) <;> simp_all [scalarKind]
        · rintro rfl
          rcases b with _ | ⟨k⟩ | _ | _ | _ | _ | _ <;> (try cases k) <;> simp_all [scalarKind]
        · intro es' e; simp at e; exact absurd e.1 h2
        · intro es' e; simp at e; exact absurd e.1 h1
  · obtain ⟨rfl, t, rfl⟩ := wf_goTime hkinds
    refine ⟨_, _, _, rfl, by simp, by simp, by simp, by simp, ?_, by simp, by simp, by simp, by simp⟩
    intro t' e; cases e
    exact ⟨rfl, _, rfl, timeAsString_denotes t hval ht u⟩
  · obtain ⟨rfl, t, rfl⟩ := wf_goDuration hkinds
    refine ⟨_, _, _, rfl, by simp, by simp, by simp, by simp, by simp, ?_, by simp, by simp, by simp⟩
    intro t' e; cases e
    exact ⟨rfl, _, rfl, durationAsString_denotes t hval u⟩

/-- a nil list of durations becomes an empty list, not a JSON `null` -/
example : ((⟨lit "/p", [], .second, .list, .goDuration, 0,
    .slice none ⟨none, .duration⟩ none, .nil, 0⟩ : Metric).convertToJson).map (·.value) =
    some (.slice none ⟨none, .string⟩ (some [])) := by decide

end Tricorder
