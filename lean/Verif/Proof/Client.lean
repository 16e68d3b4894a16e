import Verif.Spec.Client
import Verif.Proof.Http
import Verif.Proof.Duration
import Verif.Proof.Messages
/-!
# Reading a JSON answer back
-/

namespace Tricorder
open Go _root_.Spec Tricorder.Spec Dur

theorem field_some {fs : List (Str × Json)} (hn : (fs.map Prod.fst).Nodup) {k : Str} {j : Json} (h : (k, j) ∈ fs) :
    field k fs = some j := by
  unfold field
  induction fs with
  | nil => cases h
  | cons f fs ih =>
    rw [List.map_cons, List.nodup_cons] at hn
    rcases List.mem_cons.mp h with rfl | h
    · have : fs.filter (fun f => f.1 = k) = [] := by
        rw [List.filter_eq_nil_iff]
        intro a ha he
        exact hn.1 (List.mem_map.mpr ⟨a, ha, by simpa using he⟩)
      simp only [decide_true, List.filter_cons_of_pos, this, List.getLast?_singleton, Option.map_some]
    · have hk : f.1 ≠ k := fun e => hn.1 (e ▸ List.mem_map.mpr ⟨_, h, rfl⟩)
      rw [List.filter_cons_of_neg (by simpa using hk)]
      exact ih hn.2 h

theorem field_none {fs : List (Str × Json)} {k : Str} (h : ∀ j, (k, j) ∉ fs) : field k fs = none := by
  unfold field
  have : fs.filter (fun f => f.1 = k) = [] := by
    rw [List.filter_eq_nil_iff]
    rintro ⟨a, b⟩ ha he
    have e : a = k := by simpa using he
    exact h b (e ▸ ha)
  rw [this]; rfl

theorem digits_ascii {ds : Str} (h : AllDigits ds) : Ascii ds := by
  intro b hb
  have := (h b hb).2
  rw [UInt8.lt_iff_toNat_lt]
  show b.toNat < 128
  omega

theorem denotes_ascii {s : Str} {v : ℤ} (h : Denotes9 s v) : Ascii s := by
  obtain ⟨ws, fs, h1, -, h3, -, -, rfl⟩ := h
  intro b hb
  simp only [List.mem_append] at hb
  rcases hb with ((hb | hb) | hb) | hb
  · split at hb
    · rw [List.mem_singleton.mp hb]; decide
    · cases hb
  · exact digits_ascii h1 b hb
  · rw [List.mem_singleton.mp hb]; decide
  · exact digits_ascii h3 b hb

theorem denotes_parse {s : Str} {v : ℤ} {u : MUnit} (h : Denotes9 s (v * perSecond u))
    (hv : -9223372036854775000000000000 ≤ v * perSecond u ∧ v * perSecond u ≤ 9223372036854775000000000000) :
    ∃ d, parseWithUnit s u = some d ∧ Coherent d ∧ ns d = v := by
  obtain ⟨d, h1, h2, h3, h4⟩ := parse_plain _ _ (denotes_plain _ _ h (by omega))
  unfold Dur.parseWithUnit
  rw [h1]
  obtain ⟨h5, h6⟩ := div_spec d _ h2 h3.1 (perSecond_cases u)
  refine ⟨_, rfl, by rw [convert_from d u h2 h3.1]; exact h5, ?_⟩
  rw [convert_from d u h2 h3.1, h6, h4]
  rcases perSecond_cases u with e | e <;> rw [e]
  · simp [quo]
  · unfold quo; exact Int.mul_tdiv_cancel v (by decide)

theorem denotes_duration {s : Str} {d : ℤ} {u : MUnit} (hd : InI64 d) (h : Denotes9 s (d * perSecond u)) :
    stringAsDuration s u = some d := by
  unfold InI64 at hd
  obtain ⟨x, h1, h2, h3⟩ := denotes_parse h (by rcases perSecond_cases u with e | e <;> rw [e] <;> omega)
  unfold stringAsDuration
  rw [h1, Option.map_some, asGoDuration_eq x (by rw [h3]; unfold InI64; omega) h2, h3]

theorem denotes_time {s : Str} {t : Time} {u : MUnit} (hv : t.Valid) (ht : TimeRange t)
    (h : Denotes9 s (instantNs t * perSecond u)) : stringAsTime s u = some t := by
  have hv' := hv
  unfold Time.Valid at hv'
  unfold TimeRange at ht
  obtain ⟨x, h1, h2, h3⟩ := denotes_parse h (by
    unfold instantNs
    rcases perSecond_cases u with e | e <;> rw [e] <;> omega)
  obtain ⟨e1, e2, e3, e4⟩ := sinceEpoch_spec t hv
  unfold stringAsTime
  rw [h1, Option.map_some, ext_ns h2 e1 (h3.trans e2.symm), e4]

theorem denotes_reported {s : Str} {t : Time} {u : MUnit} (hv : t.Valid) (ht : TimeRange t)
    (h : Denotes9 s (reportedNs t * perSecond u)) : stringAsTime s u = some (clientTime t) := by
  unfold reportedNs at h
  unfold clientTime
  split at h
  · rename_i e
    rw [if_pos e]
    refine denotes_time (by decide) (by unfold TimeRange; decide) ?_
    exact h
  · rename_i e
    rw [if_neg e]
    exact denotes_time hv ht h

theorem lit_ascii (s : Str) (h : s.all (· < 128) = true) : Ascii s := by
  intro b hb
  have := List.all_eq_true.mp h b hb
  simpa using this

/-- the kind that the client reads -/
def jsonKind : Ty → Ty
  | .goTime => .time
  | .goDuration => .duration
  | t => t

theorem typeText_ofName {t : Ty} (h : ∀ s, t ≠ .other s) : Ty.ofName (typeText t) = jsonKind t ∧ Ascii (typeText t) := by
  cases t with
  | other s => exact absurd rfl (h s)
  | _ => exact ⟨by decide +kernel, lit_ascii _ (by decide +kernel)⟩

theorem unitCode_ofRaw {u : MUnit} (h : UnitOk u) : MUnit.ofRaw (unitCode u) = u ∧ Ascii (unitCode u) := by
  cases u with
  | other s =>
    obtain ⟨h1, h2, h3⟩ := h s rfl
    refine ⟨?_, h1⟩
    simp only [List.mem_cons, List.not_mem_nil, or_false, not_or] at h3
    simp only [unitCode, unitText, MUnit.ofRaw, h2, h3, if_false]
  | _ => exact ⟨by decide +kernel, lit_ascii _ (by decide +kernel)⟩

/-- the fields that do not depend on the kind of value -/
theorem decode_fields {inp : JsonIn} (hi : KeepsAscii inp) {y : Metric} (hu : UnitOk y.unit) (hk : ∀ s, y.kind ≠ .other s)
    (hs : y.kind = .list → ∀ s, y.subType ≠ .other s) {x : Json} (hx : JsonOf y x) :
    ∃ v ts, JsonValue y v ∧ JsonStamp y.timeStamp ts ∧
      inp.metric x = some ⟨inp.str y.path, inp.str y.description, y.unit, jsonKind y.kind,
        if y.kind = .list then jsonKind y.subType else .unknown, y.bits, inp.value v, inp.stamp ts, y.groupId⟩ := by
  obtain ⟨fs, v, ts, rfl, h1, h2, hn, hf⟩ := hx
  refine ⟨v, ts, h1, h2, ?_⟩
  have nil : inp.str [] = [] := hi [] (by intro b hb; cases hb)
  have get : ∀ k j, _ → field k fs = some j := fun k j h => field_some hn ((hf k j).mpr h)
  have f1 : field (lit "path") fs = some (.str y.path) := get _ _ (.inl ⟨rfl, rfl⟩)
  have f2 : field (lit "description") fs = some (.str y.description) := get _ _ (.inr (.inl ⟨rfl, rfl⟩))
  have f3 : inp.text (field (lit "unit") fs) = some (unitCode y.unit) := by
    by_cases h0 : unitCode y.unit = []
    · have : field (lit "unit") fs = none := field_none fun j hj => by
        have := (hf _ _).mp hj
        simp [lit, h0] at this
      rw [this, h0]; rfl
    · rw [get (lit "unit") _ (.inr (.inr (.inl ⟨rfl, h0, rfl⟩)))]
      show some (inp.str _) = _
      rw [hi _ (unitCode_ofRaw hu).2]
  have f4 : field (lit "kind") fs = some (.str (typeText y.kind)) := get _ _ (.inr (.inr (.inr (.inl ⟨rfl, rfl⟩))))
  have f5 : inp.text (field (lit "subType") fs) = some (if y.kind = .list then typeText y.subType else []) := by
    by_cases h0 : y.kind = .list
    · rw [get (lit "subType") _ (.inr (.inr (.inr (.inr (.inl ⟨rfl, h0, rfl⟩)))))]
      show some (inp.str _) = _
      rw [hi _ (typeText_ofName (hs h0)).2, if_pos h0]
    · have : field (lit "subType") fs = none := field_none fun j hj => by
        have := (hf _ _).mp hj
        simp [lit, h0] at this
      rw [this, if_neg h0]; rfl
  have f6 : jsonNat (field (lit "bits") fs) = some y.bits := by
    by_cases h0 : y.bits = 0
    · have : field (lit "bits") fs = none := field_none fun j hj => by
        have := (hf _ _).mp hj
        simp [lit, h0] at this
      rw [this, h0]; rfl
    · rw [get (lit "bits") _ (.inr (.inr (.inr (.inr (.inr (.inl ⟨rfl, h0, rfl⟩))))))]
      simp [jsonNat]
  have f7 : field (lit "value") fs = some v := get _ _ (.inr (.inr (.inr (.inr (.inr (.inr (.inl ⟨rfl, rfl⟩)))))))
  have f8 : field (lit "timestamp") fs = some ts :=
    get _ _ (.inr (.inr (.inr (.inr (.inr (.inr (.inr (.inl ⟨rfl, rfl⟩))))))))
  have f9 : field (lit "groupId") fs = some (.int y.groupId) :=
    get _ _ (.inr (.inr (.inr (.inr (.inr (.inr (.inr (.inr ⟨rfl, rfl⟩))))))))
  have g1 : inp.text (some (.str y.path)) = some (inp.str y.path) := rfl
  have g2 : inp.text (some (.str y.description)) = some (inp.str y.description) := rfl
  have g4 : inp.text (some (.str (typeText y.kind))) = some (typeText y.kind) := by
    show some (inp.str _) = _
    rw [hi _ (typeText_ofName hk).2]
  have g9 : jsonNat (some (.int y.groupId)) = some y.groupId := by simp [jsonNat]
  have gs : Ty.ofName (if y.kind = .list then typeText y.subType else []) =
      if y.kind = .list then jsonKind y.subType else .unknown := by
    split
    · rename_i h0; exact (typeText_ofName (hs h0)).1
    · rfl
  simp only [JsonIn.metric, f1, f2, f3, f4, f5, f6, f7, f8, f9, g1, g2, g4, g9, gs, Option.map_some, Option.getD_some,
    (unitCode_ofRaw hu).1, (typeText_ofName hk).1]

theorem decode_stamp {inp : JsonIn} (hi : KeepsAscii inp) {ts : TS} {j : Json} (h : JsonStamp ts j)
    (ht : ∀ t, ts = .time t → t.Valid ∧ TimeRange t) : tsToGoRPC (inp.stamp j) = some ts := by
  cases ts with
  | nil =>
    have h : j = .str [] := h
    subst h
    show tsToGoRPC (.str (inp.str [])) = _
    rw [hi [] (by intro b hb; cases hb)]
    rfl
  | time t =>
    obtain ⟨s, rfl, hs⟩ := h
    obtain ⟨h1, h2⟩ := ht t rfl
    have h3 := hs h1 h2
    show tsToGoRPC (.str (inp.str s)) = _
    rw [hi _ (denotes_ascii h3)]
    have hne : s ≠ [] := by
      obtain ⟨ws, fs, -, -, -, -, -, e⟩ := h3
      rw [e]; simp
    simp only [tsToGoRPC, if_neg hne]
    rw [denotes_time (u := .second) h1 h2 (by simpa [perSecond] using h3)]
    rfl
  | str s => cases h
  | other s => cases h

theorem asGoRPC_other (v : Val) {k : Ty} (s : Ty) (u : MUnit) (h1 : k ≠ .list) (h2 : k ≠ .time) (h3 : k ≠ .duration) :
    asGoRPC v k s u = some (v, k, .unknown) := by
  cases k <;> simp_all [asGoRPC]

theorem jsonKind_eq {t : Ty} (h1 : t ≠ .goTime) (h2 : t ≠ .goDuration) : jsonKind t = t := by
  cases t <;> simp_all [jsonKind]

/-- a metric that is not a list of times, read back -/
theorem client_ok {inp : JsonIn} (hi : KeepsAscii inp) {y : Metric} (hw : WellTyped y) (hr : Readable y)
    (hn : ¬ TimeList y) {x : Json} (hx : JsonOf y x) :
    ∃ m r, inp.metric x = some m ∧ m.convertToGoRPC = (true, r) ∧ ClientOf inp y r := by
  obtain ⟨hts, hw⟩ := hw
  have fin : (∀ s, y.kind ≠ .other s) → (y.kind = .list → ∀ s, y.subType ≠ .other s) → (∀ v, JsonValue y v → ∃ v',
      asGoRPC (inp.value v) (jsonKind y.kind) (if y.kind = .list then jsonKind y.subType else .unknown) y.unit =
        some (v', y.kind, if y.kind = .list then y.subType else .unknown) ∧ ClientValue inp y v') →
      ∃ m r, inp.metric x = some m ∧ m.convertToGoRPC = (true, r) ∧ ClientOf inp y r := by
    intro a1 a2 a3
    obtain ⟨v, ts, j1, j2, j3⟩ := decode_fields hi hr.unit a1 a2 hx
    obtain ⟨v', b1, b2⟩ := a3 v j1
    have b3 := decode_stamp hi j2 hr.stamp
    refine ⟨_, ⟨inp.str y.path, inp.str y.description, y.unit, y.kind, if y.kind = .list then y.subType else .unknown, y.bits,
      v', y.timeStamp, y.groupId⟩, j3, ?_, ⟨rfl, rfl, rfl, rfl, rfl, rfl, b2, rfl, rfl⟩⟩
    simp only [Metric.convertToGoRPC, b1, b3]
  split at hw
  · rename_i n b hval
    obtain ⟨w1, w2⟩ := hw
    obtain ⟨n1, n2, n3, n4, n5, n6⟩ := elemType_not _ w2
    refine fin n6 (fun h => absurd h n1) fun v hv => ?_
    rw [if_neg n1, if_neg n1]
    unfold JsonValue at hv
    rw [hval] at hv
    simp only at hv
    have hcv : ∀ v', ClientValue inp y v' = ClientValue inp { y with value := .scalar n b } v' := by
      intro v'; unfold ClientValue; rw [hval]
    simp only [hcv]
    by_cases hgt : y.kind = .goTime
    · have he := elemType_time (hgt ▸ w2)
      simp only [ScalarTy.mk.injEq] at he
      obtain ⟨rfl, he⟩ := he
      obtain ⟨t, rfl⟩ := base_time he
      obtain ⟨s, rfl, hs⟩ := hv
      have ht := hr.times
      rw [hval] at ht
      have h9 := hs ht
      refine ⟨_, ?_, rfl⟩
      simp only [hgt, jsonKind, asGoRPC, JsonIn.value, valueAsString, hi _ (denotes_ascii h9), denotes_reported w1 ht h9]
    · by_cases hgd : y.kind = .goDuration
      · have he := elemType_duration (hgd ▸ w2)
        simp only [ScalarTy.mk.injEq] at he
        obtain ⟨rfl, he⟩ := he
        obtain ⟨d, rfl⟩ := base_duration he
        simp only [JsonBase] at hv
        rw [if_pos hgd] at hv
        obtain ⟨s, rfl, h9⟩ := hv
        refine ⟨.scalar none (.duration d), ?_, by simp [ClientValue]⟩
        simp only [hgd, jsonKind, asGoRPC, JsonIn.value, valueAsString, hi _ (denotes_ascii h9), denotes_duration w1 h9]
      · refine ⟨inp.value v, ?_, ?_⟩
        · rw [jsonKind_eq hgt hgd]; exact asGoRPC_other _ _ _ n1 n4 n5
        · cases b with
          | time t =>
            cases n with
            | none => exact absurd (Option.some.inj w2).symm hgt
            | some n => cases w2
          | duration d =>
            simp only [JsonBase] at hv
            rw [if_neg hgd] at hv
            subst hv
            cases n with
            | none => exact absurd (Option.some.inj w2).symm hgd
            | some n => simp [JsonIn.value, ClientValue]
          | _ => cases hv; rfl
  · rename_i sn e es hval
    obtain ⟨w1, w2, w3⟩ := hw
    obtain ⟨n1, n2, n3, n4, n5, n6⟩ := elemType_not _ w2
    have hgt : y.subType ≠ .goTime := fun h => hn ⟨w1, .inl h⟩
    have hgd : y.subType ≠ .goDuration := fun h => hn ⟨w1, .inr h⟩
    refine fin (fun s => by rw [w1]; simp) (fun _ => n6) fun v hv => ⟨inp.value v, ?_, ?_⟩
    · rw [if_pos w1, if_pos w1, jsonKind_eq hgt hgd, w1]
      show asGoRPC _ .list _ _ = _
      unfold asGoRPC
      cases hs : y.subType <;> first | rfl | exact absurd hs n4 | exact absurd hs n5
    · unfold JsonValue at hv
      rw [hval] at hv
      simp only at hv
      unfold ClientValue
      rw [hval]
      simp only
      split at hv
      · rename_i hu
        rw [if_pos hu]
        obtain ⟨l, rfl, hl⟩ := hv
        exact ⟨l, rfl, hl⟩
      · rename_i hu
        rw [if_neg hu]
        obtain ⟨l, rfl, hl⟩ := hv
        exact ⟨l, rfl, hl⟩
  · rename_i d hval
    refine fin (fun s => by rw [hw]; simp) (fun h => by rw [hw] at h; cases h) fun v hv => ⟨inp.value v, ?_, ?_⟩
    · rw [hw]; rfl
    · unfold JsonValue at hv
      rw [hval] at hv
      unfold ClientValue
      rw [hval]
      have hv' := hv
      obtain ⟨fs, rs, rfl, -⟩ := hv
      exact ⟨_, hv', rfl⟩
  · cases hw

/-- a list of times: the conversion fails -/
theorem client_times {inp : JsonIn} (hi : KeepsAscii inp) {y : Metric} (hw : WellTyped y) (hu : UnitOk y.unit)
    (hn : TimeList y) {x : Json} (hx : JsonOf y x) :
    ∃ m, inp.metric x = some m ∧ m.convertToGoRPC = (false, m) := by
  obtain ⟨hts, hw⟩ := hw
  obtain ⟨hk, hs⟩ := hn
  obtain ⟨v, ts, j1, j2, j3⟩ := decode_fields hi hu (fun s => by rw [hk]; simp)
    (fun _ s => by rcases hs with h | h <;> rw [h] <;> simp) hx
  refine ⟨_, j3, ?_⟩
  split at hw
  · obtain ⟨w1, w2⟩ := hw
    exact absurd hk (elemType_not _ w2).1
  · rename_i sn e es hval
    obtain ⟨w1, w2, w3⟩ := hw
    unfold JsonValue at j1
    rw [hval] at j1
    have he : e.base ≠ .int .uint8 := by
      rcases hs with h | h
      · have := elemType_time (ty := e) (h ▸ w2); rw [this]; simp
      · have := elemType_duration (ty := e) (h ▸ w2); rw [this]; simp
    simp only at j1
    rw [if_neg he] at j1
    obtain ⟨parts, rfl, -⟩ := j1
    have : asGoRPC (inp.value (.arr parts)) (jsonKind y.kind) (if y.kind = .list then jsonKind y.subType else .unknown) y.unit
        = none := by
      rw [if_pos hk, hk]
      rcases hs with h | h <;> rw [h] <;> rfl
    simp only [Metric.convertToGoRPC, this]
  · rw [hk] at hw; cases hw
  · cases hw

end Tricorder
