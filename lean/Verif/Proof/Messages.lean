import Verif.Spec.Messages
import Verif.Proof.Duration
/-! Lemmas about wire metrics. -/

namespace Tricorder
open Go Spec Dur

theorem stringAsDuration_roundtrip (d : Int) (h : InI64 d) (u : MUnit) :
    stringAsDuration (durationAsString d u) u = some d := by
  unfold stringAsDuration durationAsString
  obtain ⟨h1, h2, _⟩ := new_coherent d h
  obtain ⟨h3, h4⟩ := new_convOk d h u
  obtain ⟨h5, _⟩ := parseWithUnit_stringUsingUnits (Dur.new d) u h1 h3 h4
  rw [h5, Option.map_some, asGoDuration_eq _ (by rw [h2]; exact h) h1, h2]

theorem sinceEpoch_sec (t : Time) (h : t.Valid) :
    t.sec ≤ (Dur.sinceEpoch t).sec ∧ (Dur.sinceEpoch t).sec ≤ t.sec + 1 ∧
    (0 ≤ t.sec → (Dur.sinceEpoch t).sec = t.sec) := by
  obtain ⟨h1, h2, _, _⟩ := sinceEpoch_spec t h
  unfold Coherent at h1; unfold ns instantNs at h2; unfold Time.Valid at h
  omega

theorem stringAsTime_roundtrip (t : Time) (hv : t.Valid) (ht : TimeOk t) (u : MUnit) :
    stringAsTime (timeAsString t u) u = some t := by
  unfold stringAsTime timeAsString
  obtain ⟨h1, h2, _, h4⟩ := sinceEpoch_spec t hv
  have hz : t.isZero = false := by unfold Time.isZero; simp [ht.1]
  rw [hz]; simp only [Bool.not_false, if_true]
  have hs := sinceEpoch_sec t hv
  obtain ⟨_, t1, t2⟩ := ht
  have hok : ConvOk (Dur.sinceEpoch t) u ∧ -9223372036854775807 ≤ (Dur.sinceEpoch t).sec := by
    unfold ConvOk MultOk InI64
    rcases perSecond_cases u with e | e <;> rw [e] <;> omega
  obtain ⟨h5, _⟩ := parseWithUnit_stringUsingUnits (Dur.sinceEpoch t) u h1 hok.1 hok.2
  rw [h5, Option.map_some, h4]

theorem convert_second_second (d : Dur) (hc : Coherent d) (hs : InI64 d.sec) :
    d.convert .second .second = d := by
  have e : d.convert .second .second = (d.mult 1).div 1 := rfl
  rw [e, mult_one d hc hs, div_one d hc hs]

/-- time stamps are text in seconds -/
theorem timestamp_roundtrip (t : Time) (hv : t.Valid) (hmin : -9223372036854775808 < t.sec) :
    stringAsTime (Dur.sinceEpoch t).toString .second = some t := by
  obtain ⟨h1, h2, h3, h4⟩ := sinceEpoch_spec t hv
  have hs := sinceEpoch_sec t hv
  have hin : InI64 (Dur.sinceEpoch t).sec := h3.1
  unfold InI64 at hin
  have := parse_toString (Dur.sinceEpoch t) h1 (by omega)
  unfold stringAsTime parseWithUnit
  rw [this]
  simp only [Option.map_some]
  rw [convert_second_second _ h1 h3.1, h4]

theorem toString_ne_nil' (d : Dur) : d.toString ≠ [] := by
  unfold Dur.toString; split <;> simp

theorem durationAsString_denotes (d : Int) (h : InI64 d) (u : MUnit) :
    Denotes9 (durationAsString d u) (d * perSecond u) := by
  obtain ⟨h1, h2, _⟩ := new_coherent d h
  obtain ⟨h3, h4⟩ := new_convOk d h u
  obtain ⟨_, h6⟩ := parseWithUnit_stringUsingUnits (Dur.new d) u h1 h3 h4
  rw [h2] at h6; exact h6

theorem timeAsString_denotes (t : Time) (hv : t.Valid) (ht : TimeRange t) (u : MUnit) :
    Denotes9 (timeAsString t u) (reportedNs t * perSecond u) := by
  unfold timeAsString reportedNs
  by_cases hz : t = Time.zero
  · have : t.isZero = true := by unfold Time.isZero; simp [hz]
    rw [this, if_pos hz]
    exact (parseWithUnit_stringUsingUnits ⟨0, 0⟩ u (by unfold Coherent; decide)
      (by unfold ConvOk MultOk InI64; rcases perSecond_cases u with e | e <;> rw [e] <;> decide)
      (by decide)).2
  · have hzf : t.isZero = false := by unfold Time.isZero; simp [hz]
    rw [hzf, if_neg hz]
    simp only [Bool.not_false, if_true]
    obtain ⟨h1, h2, _, h4⟩ := sinceEpoch_spec t hv
    have hs := sinceEpoch_sec t hv
    obtain ⟨t1, t2⟩ := ht
    have hok : ConvOk (Dur.sinceEpoch t) u ∧ -9223372036854775807 ≤ (Dur.sinceEpoch t).sec := by
      unfold ConvOk MultOk InI64
      rcases perSecond_cases u with e | e <;> rw [e] <;> omega
    obtain ⟨_, h6⟩ := parseWithUnit_stringUsingUnits (Dur.sinceEpoch t) u h1 hok.1 hok.2
    rw [h2] at h6; exact h6

theorem timestamp_denotes (t : Time) (hv : t.Valid) (hmin : -9223372036854775808 < t.sec) :
    Denotes9 (Dur.sinceEpoch t).toString (instantNs t) := by
  obtain ⟨h1, h2, h3, h4⟩ := sinceEpoch_spec t hv
  have hs := sinceEpoch_sec t hv
  have hin : InI64 (Dur.sinceEpoch t).sec := h3.1
  unfold InI64 at hin
  have := toString_spec (Dur.sinceEpoch t) h1 (by omega)
  rw [h2] at this; exact this

theorem mapAll_map {α β γ : Type} (f : α → Option β) (g : γ → α) (h : γ → β) (l : List γ)
    (hl : ∀ x ∈ l, f (g x) = some (h x)) : mapAll f (l.map g) = some (l.map h) := by
  induction l with
  | nil => rfl
  | cons x xs ih =>
    simp only [List.map_cons, mapAll]
    rw [hl x (by simp), ih (fun y hy => hl y (by simp [hy]))]

theorem wf_goDuration {v : Val} (h : fromGoValueWithSubType v = (.goDuration, s)) :
    s = .unknown ∧ ∃ d, v = .scalar none (.duration d) := by
  rcases v with _ | ⟨_ | n, b⟩ | _ | ⟨_ | n, ⟨_ | m, e⟩, es⟩ | _
  case scalar.none => rcases b with _ | ⟨k, _⟩ | _ | _ | _ | _ | _ <;> (try cases k) <;>
    simp_all [fromGoValueWithSubType, scalarKind, Base.ty]
  case slice.none.none => rcases e with _ | ⟨k⟩ | _ | _ | _ | _ | _ <;> (try cases k) <;>
    simp_all [fromGoValueWithSubType, scalarKind]
  all_goals simp_all [fromGoValueWithSubType]

theorem wf_goTime {v : Val} (h : fromGoValueWithSubType v = (.goTime, s)) :
    s = .unknown ∧ ∃ d, v = .scalar none (.time d) := by
  rcases v with _ | ⟨_ | n, b⟩ | _ | ⟨_ | n, ⟨_ | m, e⟩, es⟩ | _
  case scalar.none => rcases b with _ | ⟨k, _⟩ | _ | _ | _ | _ | _ <;> (try cases k) <;>
    simp_all [fromGoValueWithSubType, scalarKind, Base.ty]
  case slice.none.none => rcases e with _ | ⟨k⟩ | _ | _ | _ | _ | _ <;> (try cases k) <;>
    simp_all [fromGoValueWithSubType, scalarKind]
  all_goals simp_all [fromGoValueWithSubType]

theorem wf_list {v : Val} (h : fromGoValueWithSubType v = (.list, s)) :
    ∃ b es, v = .slice none ⟨none, b⟩ es ∧ scalarKind b = some s := by
  rcases v with _ | ⟨_ | n, b⟩ | _ | ⟨_ | n, ⟨_ | m, e⟩, es⟩ | _
  case scalar.none => rcases b with _ | ⟨k, _⟩ | _ | _ | _ | _ | _ <;> (try cases k) <;>
    simp_all [fromGoValueWithSubType, scalarKind, Base.ty]
  case slice.none.none => rcases e with _ | ⟨k⟩ | _ | _ | _ | _ | _ <;> (try cases k) <;>
    simp_all [fromGoValueWithSubType, scalarKind]
  all_goals simp_all [fromGoValueWithSubType]

/-- a known kind that is neither a list nor a time or duration -/
def PlainTy : Ty → Prop
  | .list | .goTime | .goDuration | .unknown | .time | .duration => False
  | _ => True

theorem wf_cases {v : Val} {k s : Ty} (h : fromGoValueWithSubType v = (k, s)) (hk : k ≠ .unknown) :
    (PlainTy k ∧ s = .unknown ∧ ∀ n e es, v ≠ .slice n e es) ∨ k = .list ∨ k = .goTime ∨ k = .goDuration := by
  rcases v with _ | ⟨_ | n, b⟩ | _ | ⟨_ | n, ⟨_ | m, e⟩, es⟩ | _
  case scalar.none => rcases b with _ | ⟨k, _⟩ | _ | _ | _ | _ | _ <;> (try cases k) <;>
    simp [fromGoValueWithSubType, scalarKind, Base.ty] at h <;>
    (obtain ⟨rfl, rfl⟩ := h; simp_all [PlainTy])
  case slice.none.none => rcases e with _ | ⟨k⟩ | _ | _ | _ | _ | _ <;> (try cases k) <;>
    simp [fromGoValueWithSubType, scalarKind] at h <;>
    (obtain ⟨rfl, rfl⟩ := h; simp_all [PlainTy])
  all_goals (simp [fromGoValueWithSubType] at h; obtain ⟨rfl, rfl⟩ := h; simp_all [PlainTy])

theorem asJson_plain (v : Val) {k : Ty} (s : Ty) (u : MUnit) (h : PlainTy k) :
    asJson v k s u = some (v, k, .unknown) := by
  cases k <;> simp_all [PlainTy, asJson]

theorem asGoRPC_plain (v : Val) {k : Ty} (s : Ty) (u : MUnit) (h : PlainTy k) :
    asGoRPC v k s u = some (v, k, .unknown) := by
  cases k <;> simp_all [PlainTy, asGoRPC]

theorem sameValue_refl (v : Val) : sameValue v v := by
  cases v <;> simp [sameValue]

/-- the value part of C43 -/
theorem value_roundtrip {v : Val} {k s : Ty} (u : MUnit)
    (h : fromGoValueWithSubType v = (k, s)) (hk : k ≠ .unknown) (hv : ValOk v)
    (ht : AllTimes TimeOk v) :
    ∃ v' k' s' w, asJson v k s u = some (v', k', s') ∧ asGoRPC v' k' s' u = some (w, k, s) ∧
      sameValue v w := by
  rcases wf_cases h hk with ⟨hp, rfl, _⟩ | rfl | rfl | rfl
  · exact ⟨v, k, .unknown, v, asJson_plain _ _ _ hp, asGoRPC_plain _ _ _ hp, sameValue_refl v⟩
  · obtain ⟨b, es, rfl, hb⟩ := wf_list h
    have hes : ∀ x ∈ es.getD [], x.ty = b ∧ x.Valid := hv
    by_cases h1 : b = .duration
    · subst h1
      cases hb
      refine ⟨_, _, _, .slice none ⟨none, .duration⟩ (some (((es.getD []).map durOf).map .duration)),
        rfl, ?_, ?_⟩
      · simp only [asGoRPC, valueAsStringSlice, Option.getD_some, List.map_map]
        have : mapAll (fun s => stringAsDuration s u)
            (List.map (strOf ∘ Base.string ∘ fun b => durationAsString (durOf b) u) (es.getD [])) =
            some ((es.getD []).map durOf) := by
          apply mapAll_map
          intro x hx
          obtain ⟨hx1, hx2⟩ := hes x hx
          cases x <;> simp [Base.ty] at hx1
          exact stringAsDuration_roundtrip _ hx2 u
        rw [this]; simp
      · simp only [sameValue, Option.getD_some, true_and, List.map_map]
        symm
        conv => rhs; rw [← List.map_id (es.getD [])]
        apply List.map_congr_left
        intro x hx
        obtain ⟨hx1, _⟩ := hes x hx
        cases x <;> simp [Base.ty] at hx1
        rfl
    · by_cases h2 : b = .time
      · subst h2
        cases hb
        refine ⟨_, _, _, .slice none ⟨none, .time⟩ (some (((es.getD []).map timeOf).map .time)),
          rfl, ?_, ?_⟩
        · simp only [asGoRPC, valueAsStringSlice, Option.getD_some, List.map_map]
          have : mapAll (fun s => stringAsTime s u)
              (List.map (strOf ∘ Base.string ∘ fun b => timeAsString (timeOf b) u) (es.getD [])) =
              some ((es.getD []).map timeOf) := by
            apply mapAll_map
            intro x hx
            obtain ⟨hx1, hx2⟩ := hes x hx
            cases x <;> simp [Base.ty] at hx1
            exact stringAsTime_roundtrip _ hx2 (ht _ hx) u
          rw [this]; simp
        · simp only [sameValue, Option.getD_some, true_and, List.map_map]
          symm
          conv => rhs; rw [← List.map_id (es.getD [])]
          apply List.map_congr_left
          intro x hx
          obtain ⟨hx1, _⟩ := hes x hx
          cases x <;> simp [Base.ty] at hx1
          rfl
      · refine ⟨.slice none ⟨none, b⟩ (some (es.getD [])), .list, s,
          .slice none ⟨none, b⟩ (some (es.getD [])), ?_, ?_, ?_⟩
        · rcases b with _ | ⟨k⟩ | _ | _ | _ | _ | _ <;> (try cases k) <;>
            simp_all [scalarKind] <;> subst hb <;> simp [asJson]
        · rcases b with _ | ⟨k⟩ | _ | _ | _ | _ | _ <;> (try cases k) <;>
            simp_all [scalarKind] <;> subst hb <;> simp [asGoRPC]
        · simp [sameValue]
  · obtain ⟨rfl, t, rfl⟩ := wf_goTime h
    refine ⟨_, _, _, .scalar none (.time t), rfl, ?_, rfl⟩
    simp only [asGoRPC, valueAsString]
    rw [stringAsTime_roundtrip t hv ht u]
  · obtain ⟨rfl, d, rfl⟩ := wf_goDuration h
    refine ⟨_, _, _, .scalar none (.duration d), rfl, ?_, rfl⟩
    simp only [asGoRPC, valueAsString]
    rw [stringAsDuration_roundtrip d hv u]

end Tricorder
