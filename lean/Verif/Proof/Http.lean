import Verif.Spec.Http
import Verif.Proof.Html
import Verif.Proof.Sim
/-!
# JSON documents and HTTP answers
-/

namespace Tricorder
open Go Spec _root_.Spec

variable {w : World} {s s' : State}

/-! ### runs -/

theorem RunI_then_env {α : Type} {p : Prog α} {s s₁ s' : State} {h₁ h₂ : List Ev} {a : α} {β : Type} {x b : β}
    (h1 : RunI w p s h₁ s₁ a) (h2 : RunI w (.ret x) s₁ h₂ s' b) : RunI w p s (h₁ ++ h₂) s' a := by
  induction h1 with
  | ret a s =>
    generalize hq : Prog.ret x = q at h2
    induction h2 with
    | ret y s => exact .ret a s
    | env c hc _ ih => exact .env c hc (ih hq)
    | op _ _ => cases hq
  | env c hc _ ih => exact .env c hc (ih h2)
  | op _ ih => exact .op (ih h2)

/-- a program followed by a pure function -/
theorem RunI_map {α β : Type} {p : Prog α} {f : α → β} {h : List Ev} {b : β}
    (hr : RunI w (p.bind fun a => .ret (f a)) s h s' b) : ∃ a, RunI w p s h s' a ∧ b = f a := by
  obtain ⟨h1, s1, a, h2, rfl, r1, r2⟩ := RunI_bind hr
  exact ⟨a, RunI_then_env r1 r2, (RunI_ret r2).1.symm⟩

/-! ### what RPC reports is well typed -/

theorem well_interface {n : Option ℕ} {b : Base} {t : Ty} (hv : b.Valid)
    (ht : elemType (.scalar ⟨n, b.ty⟩) = some t) {v : Val} (h : valueToInterface (.scalar n b) t false = some v) :
    ∃ n' b', v = .scalar n' b' ∧ b'.Valid ∧ elemType (.scalar ⟨n', b'.ty⟩) = some t := by
  cases b with
  | bool b =>
    have : t = .bool := by cases n <;> simpa [elemType, Base.ty] using ht.symm
    subst this
    cases h
    exact ⟨_, _, rfl, hv, ht⟩
  | string b =>
    have : t = .string := by cases n <;> simpa [elemType, Base.ty] using ht.symm
    subst this
    cases h
    exact ⟨_, _, rfl, hv, ht⟩
  | float32 b =>
    have : t = .float32 := by cases n <;> simpa [elemType, Base.ty] using ht.symm
    subst this
    cases h
    exact ⟨_, _, rfl, hv, ht⟩
  | float64 b =>
    have : t = .float64 := by cases n <;> simpa [elemType, Base.ty] using ht.symm
    subst this
    cases h
    exact ⟨_, _, rfl, hv, ht⟩
  | int k x =>
    have hx : k.InRange x := hv
    cases k <;>
    · have := Option.some.inj ((show elemType _ = _ by cases n <;> rfl).symm.trans ht)
      subst this
      simp [IntKind.InRange, IntKind.signed, IntKind.bits] at hx
      cases h
      refine ⟨_, _, rfl, ?_, by first | rfl | exact ht⟩
      simp only [Base.Valid, IntKind.InRange, IntKind.signed, IntKind.bits]
      norm_num
      (try simp only [i32, i64, u64])
      omega
  | time x =>
    cases n with
    | some n => simp [elemType, Base.ty] at ht
    | none =>
      have : t = .goTime := by simpa [elemType, Base.ty] using ht.symm
      subst this
      cases h
      exact ⟨_, _, rfl, hv, ht⟩
  | duration x =>
    have hx : InI64 x := hv
    cases n with
    | some n =>
      have : t = .int64 := by simpa [elemType, Base.ty] using ht.symm
      subst this
      cases h
      refine ⟨_, _, rfl, ?_, rfl⟩
      simp only [Base.Valid, IntKind.InRange, IntKind.signed, IntKind.bits]
      norm_num
      simp only [i64]
      omega
    | none =>
      have : t = .goDuration := by simpa [elemType, Base.ty] using ht.symm
      subst this
      cases h
      exact ⟨_, _, rfl, hv, ht⟩

theorem well_metric (ht : Typed w s) {m : ℕ} {mv : MetricView} (hm : metricView s.tree m = some mv)
    {y : Metric} (hy : nowMetric w s mv = some y) : WellTyped y := by
  unfold nowMetric at hy
  split at hy
  · rename_i hd
    split at hy
    · cases hy
    · split at hy
      · cases hy
      · obtain ⟨sn, h1, rfl⟩ := Option.map_eq_some_iff.mp hy
        exact ⟨Or.inr ⟨_, rfl⟩, hd⟩
  · split at hy
    · rename_i hl
      split at hy
      · cases hy
      · rename_i i hi
        obtain ⟨lv, h1, rfl⟩ := Option.map_eq_some_iff.mp hy
        have hty := reachable_typed (grown_reachable ht.grown)
        unfold listView at h1
        split at h1
        · cases h1
        · rename_i lo hlo
          split at h1
          · cases h1
          · rename_i c hc
            cases h1
            obtain ⟨cell, c1, c2, c3⟩ := hty i lo hlo
            rw [hc] at c1
            cases c1
            refine ⟨Or.inr ⟨_, rfl⟩, ?_⟩
            unfold Cell.val
            cases he : c.elem with
            | timePtr => rw [he] at c2; cases c2
            | other k => rw [he] at c2; cases c2
            | scalar t =>
              rw [he] at c2
              exact ⟨hl, c2, ht.slices _ c hc t he⟩
    · unfold nowScalar at hy
      split at hy
      · rename_i val r hval hr
        obtain ⟨gid, -, rfl⟩ := Option.map_eq_some_iff.mp hy
        refine ⟨Or.inr ⟨_, rfl⟩, ?_⟩
        unfold nowVal at hval
        obtain ⟨d, hd, hx⟩ := Option.bind_eq_some_iff.mp hval
        obtain ⟨hok, g, g1, g2⟩ := source_fits ht hm hd
        cases d with
        | invalid => cases g1
        | other i => cases g1; simp [metricType, elemType] at g2
        | timePtr o =>
          cases g1
          simp only [metricType, Option.some.injEq, Prod.mk.injEq] at g2
          obtain ⟨g2, g3⟩ := g2
          rw [← g2, ← g3] at hx
          have key : ∀ t : Time, t.Valid → valueToTime (.timePtr o) true = some t → val = .scalar none (.time t) := by
            intro t hv hvt
            simp [valueToInterface, hvt] at hx
            exact hx.symm
          cases o with
          | none =>
            rw [key Time.zero (by decide) rfl]
            exact ⟨by simp only [Base.Valid]; decide, congrArg some g2⟩
          | some t =>
            rw [key t hok rfl]
            exact ⟨hok, congrArg some g2⟩
        | scalar n b =>
          cases g1
          simp only [metricType] at g2
          obtain ⟨t, t1, t2⟩ := Option.map_eq_some_iff.mp g2
          simp only [Prod.mk.injEq] at t2
          obtain ⟨rfl, t3⟩ := t2
          rw [← t3] at hx
          obtain ⟨n', b', rfl, h6, h7⟩ := well_interface hok t1 hx
          exact ⟨h6, h7⟩
      · cases hy

/-! ### documents -/

theorem jsonNum_iff (small : Bool) (x : Fl) :
    (IsFinite x → jsonNum small x = some (.num small x)) ∧ (¬ IsFinite x → jsonNum small x = none) := by
  unfold IsFinite jsonNum
  cases x <;> simp [Fl.isInf, Fl.isNaN]

theorem mapAll_some {α β : Type} {f : α → Option β} {R : α → β → Prop} {l : List α}
    (h : ∀ a ∈ l, ∃ b, f a = some b ∧ R a b) : ∃ bs, mapAll f l = some bs ∧ List.Forall₂ R l bs := by
  induction l with
  | nil => exact ⟨[], rfl, .nil⟩
  | cons a l ih =>
    obtain ⟨b, h1, h2⟩ := h a List.mem_cons_self
    obtain ⟨bs, h3, h4⟩ := ih fun x hx => h x (List.mem_cons_of_mem _ hx)
    exact ⟨b :: bs, by simp [mapAll, h1, h3], .cons h2 h4⟩

theorem mapAll_none {α β : Type} {f : α → Option β} {l : List α} (h : ∃ a ∈ l, f a = none) : mapAll f l = none := by
  induction l with
  | nil => obtain ⟨a, ha, -⟩ := h; cases ha
  | cons a l ih =>
    obtain ⟨x, hx, hf⟩ := h
    unfold mapAll
    rcases List.mem_cons.mp hx with rfl | hx
    · rw [hf]
    · rw [ih ⟨x, hx, hf⟩]
      cases f a <;> rfl

theorem range_doc (r : RangeMsg) :
    (IsFinite r.lower ∧ IsFinite r.upper → ∃ j, jsonRange r = some j ∧ JsonRange r j) ∧
    (¬ (IsFinite r.lower ∧ IsFinite r.upper) → jsonRange r = none) := by
  unfold jsonRange
  constructor
  · rintro ⟨h1, h2⟩
    rw [(jsonNum_iff _ _).1 h1, (jsonNum_iff _ _).1 h2]
    refine ⟨_, rfl, _, rfl, ?_, fun k j => ?_⟩
    · show List.Nodup [lit "lower", lit "upper", lit "count"]
      decide +kernel
    · simp
  · intro h
    by_cases h1 : IsFinite r.lower
    · rw [(jsonNum_iff _ _).2 fun h2 => h ⟨h1, h2⟩]
      cases jsonNum false r.lower <;> rfl
    · rw [(jsonNum_iff _ _).2 h1]

theorem dist_doc (d : DistMsg) :
    (FiniteDist d → ∃ j, jsonDist d = some j ∧ JsonDist d j) ∧ (¬ FiniteDist d → jsonDist d = none) := by
  constructor
  · rintro ⟨h1, h2⟩
    simp only [List.mem_cons, List.not_mem_nil, or_false, forall_eq_or_imp, forall_eq] at h1
    obtain ⟨a, b, c, e, f⟩ := h1
    obtain ⟨rs, r1, r2⟩ := mapAll_some (f := jsonRange) (R := JsonRange) (l := d.ranges)
      fun r hr => (range_doc r).1 (h2 r hr)
    unfold jsonDist
    simp only [(jsonNum_iff _ _).1 a, (jsonNum_iff _ _).1 b, (jsonNum_iff _ _).1 c, (jsonNum_iff _ _).1 e,
      (jsonNum_iff _ _).1 f, r1]
    refine ⟨_, rfl, _, rs, rfl, r2, ?_, fun k j => ?_⟩
    · have key : ∀ a b : Bool, ([lit "min", lit "max", lit "average", lit "median", lit "sum", lit "count", lit "generation"] ++
          (if a then [lit "isNotCumulative"] else []) ++ (if b then [] else [lit "ranges"])).Nodup := by decide +kernel
      have := key d.isNotCumulative d.ranges.isEmpty
      rw [List.map_append, List.map_append]
      convert this using 2
      · cases d.isNotCumulative <;> rfl
      · cases d.ranges.isEmpty <;> rfl
    · cases d.isNotCumulative <;> cases d.ranges <;> simp
  · intro h
    unfold jsonDist
    by_cases h1 : ∀ x ∈ [d.min, d.max, d.average, d.median, d.sum], IsFinite x
    · have h2 : ∃ r ∈ d.ranges, jsonRange r = none := by
        by_contra hno
        refine h ⟨h1, fun r hr => ?_⟩
        by_contra hf
        exact hno ⟨r, hr, (range_doc r).2 hf⟩
      rw [mapAll_none h2]
      split
      · rename_i hx; cases hx
      · rfl
    · split
      · rename_i a b c e f _ ha hb hc he hf _
        exfalso
        apply h1
        have key : ∀ {x : Fl} {j : Json}, jsonNum false x = some j → IsFinite x := by
          intro x j hx
          by_contra hf
          rw [(jsonNum_iff _ _).2 hf] at hx
          cases hx
        simp only [List.mem_cons, List.not_mem_nil, or_false, forall_eq_or_imp, forall_eq]
        exact ⟨key ha, key hb, key hc, key he, key hf⟩
      · rfl

/-- an element of a list or a scalar that `asJson` does not touch -/
theorem base_doc (lib : JsonLib) {n : Option ℕ} {b : Base} {t : Ty} (u : MUnit)
    (ht : elemType (.scalar ⟨n, b.ty⟩) = some t) (h1 : t ≠ .goTime) (h2 : t ≠ .goDuration) :
    (FiniteBase b → ∃ j, jsonBase lib b = some j ∧ JsonBase t u b j) ∧ (¬ FiniteBase b → jsonBase lib b = none) := by
  cases b with
  | bool b => exact ⟨fun _ => ⟨_, rfl, rfl⟩, fun h => absurd trivial h⟩
  | string b => exact ⟨fun _ => ⟨_, rfl, rfl⟩, fun h => absurd trivial h⟩
  | int k x => exact ⟨fun _ => ⟨_, rfl, rfl⟩, fun h => absurd trivial h⟩
  | float32 x => exact ⟨fun h => ⟨_, (jsonNum_iff _ _).1 h, rfl⟩, (jsonNum_iff _ _).2⟩
  | float64 x => exact ⟨fun h => ⟨_, (jsonNum_iff _ _).1 h, rfl⟩, (jsonNum_iff _ _).2⟩
  | time x =>
    cases n with
    | some n => simp [elemType, Base.ty] at ht
    | none => exact absurd (by simpa [elemType, Base.ty] using ht.symm) h1
  | duration d =>
    refine ⟨fun _ => ⟨_, rfl, ?_⟩, fun h => absurd trivial h⟩
    simp only [JsonBase]
    rw [if_neg h2]
    trivial

theorem elemType_not (t : GoTy) {x : Ty} (h : elemType t = some x) :
    x ≠ .list ∧ x ≠ .dist ∧ x ≠ .unknown ∧ x ≠ .time ∧ x ≠ .duration ∧ ∀ s, x ≠ .other s := by
  cases t with
  | timePtr => cases h
  | other => cases h
  | scalar t =>
    obtain ⟨n, b⟩ := t
    cases b with
    | int k => cases n <;> cases k <;> · cases h; simp
    | _ => cases n <;> first | (cases h; done) | (cases h; simp)

theorem base_time {b : Base} (h : b.ty = .time) : ∃ t, b = .time t := by
  cases b with
  | time t => exact ⟨t, rfl⟩
  | _ => cases h

theorem base_duration {b : Base} (h : b.ty = .duration) : ∃ t, b = .duration t := by
  cases b with
  | duration t => exact ⟨t, rfl⟩
  | _ => cases h

theorem mapAll_strings (lib : JsonLib) (l : List Base) (f : Base → Str) :
    mapAll (jsonBase lib) ((l.map f).map .string) = some (l.map fun b => .str (f b)) := by
  induction l with
  | nil => rfl
  | cons a l ih =>
    rw [List.map_cons, List.map_cons, mapAll, ih]
    rfl

theorem stamp_doc (lib : JsonLib) {r j : Metric} (hr : r.timeStamp = .nil ∨ ∃ t, r.timeStamp = .time t)
    (h : r.convertToJson = some j) : ∃ x, jsonStamp lib j.timeStamp = some x ∧ JsonStamp r.timeStamp x := by
  unfold Metric.convertToJson at h
  split at h
  · cases h
  · cases h
    rcases hr with e | ⟨t, e⟩
    · rw [e]; exact ⟨_, rfl, rfl⟩
    · rw [e]
      refine ⟨_, rfl, _, rfl, fun hv ht => ?_⟩
      unfold TimeRange at ht
      exact timestamp_denotes t hv (by omega)

theorem keys_nodup (u st : Str) (n : ℕ) :
    ([lit "path", lit "description"] ++ (if u = [] then [] else [lit "unit"]) ++ [lit "kind"] ++
      (if st = [] then [] else [lit "subType"]) ++ (if n = 0 then [] else [lit "bits"]) ++
      [lit "value", lit "timestamp", lit "groupId"]).Nodup := by
  have nd : ∀ a b c : Bool, ([lit "path", lit "description"] ++ (if a then [] else [lit "unit"]) ++ [lit "kind"] ++
      (if b then [] else [lit "subType"]) ++ (if c then [] else [lit "bits"]) ++
      [lit "value", lit "timestamp", lit "groupId"]).Nodup := by decide +kernel
  simpa using nd (decide (u = [])) (decide (st = [])) (decide (n = 0))

/-- a metric as a JSON document: it succeeds exactly if all numbers are finite -/
theorem metric_doc (lib : JsonLib) {r j : Metric} (hw : WellTyped r) (h : r.convertToJson = some j) :
    (FiniteMetric r → ∃ x, jsonMetric lib j = some x ∧ JsonOf r x) ∧ (¬ FiniteMetric r → jsonMetric lib j = none) := by
  obtain ⟨ts, t1, t2⟩ := stamp_doc lib hw.1 h
  have key : ∀ {v : Val} {k st : Ty}, asJson r.value r.kind r.subType r.unit = some (v, k, st) →
      k.name = typeText r.kind → (r.kind = .list → st.name = typeText r.subType ∧ st.name ≠ []) → (r.kind ≠ .list → st = .unknown) →
      (FiniteMetric r → ∃ x, jsonVal lib v = some x ∧ JsonValue r x) → (¬ FiniteMetric r → jsonVal lib v = none) →
      (FiniteMetric r → ∃ x, jsonMetric lib j = some x ∧ JsonOf r x) ∧ (¬ FiniteMetric r → jsonMetric lib j = none) := by
    intro v k st h1 h2 h3 h4 h5 h6
    unfold Metric.convertToJson at h
    rw [h1] at h
    simp only [Option.some.injEq] at h
    generalize hts : (match r.timeStamp with
      | .nil => TS.str []
      | .time t => TS.str (Dur.sinceEpoch t).toString
      | .str s => TS.str s
      | .other shown => TS.str shown) = ts' at h
    subst h
    constructor
    · intro hf
      obtain ⟨x, x1, x2⟩ := h5 hf
      unfold jsonMetric
      simp only [x1, t1]
      refine ⟨_, rfl, _, x, ts, rfl, x2, t2, ?_, fun key' j' => ?_⟩
      · simp only [List.map_append, List.map_cons, List.map_nil, unlessEmpty, apply_ite (List.map Prod.fst)]
        exact keys_nodup _ _ _
      · have hu : r.unit.raw = unitCode r.unit := by cases r.unit <;> rfl
        have hs : (key', j') ∈ unlessEmpty (lit "subType") st.name ↔
            key' = lit "subType" ∧ r.kind = .list ∧ j' = .str (typeText r.subType) := by
          unfold unlessEmpty
          by_cases hk : r.kind = .list
          · obtain ⟨e1, e2⟩ := h3 hk
            rw [if_neg e2, e1]
            simp [hk]
          · rw [h4 hk]
            simp [Ty.name, lit, hk]
        have hv : (key', j') ∈ unlessEmpty (lit "unit") r.unit.raw ↔
            key' = lit "unit" ∧ unitCode r.unit ≠ [] ∧ j' = .str (unitCode r.unit) := by
          unfold unlessEmpty
          rw [hu]
          split <;> simp_all
        have hb : (key', j') ∈ (if r.bits = 0 then [] else [(lit "bits", Json.int r.bits)]) ↔
            key' = lit "bits" ∧ r.bits ≠ 0 ∧ j' = .int r.bits := by
          split <;> simp_all
        simp only [List.mem_append, hs, hv, hb, h2, List.mem_cons, List.not_mem_nil, or_false, Prod.mk.injEq]
        simp only [or_assoc]
    · intro hf
      unfold jsonMetric
      simp only [h6 hf]
  obtain ⟨-, hw⟩ := hw
  split at hw
  · rename_i n b hval
    obtain ⟨w1, w2⟩ := hw
    obtain ⟨n1, n2, n3, n4, n5, n6⟩ := elemType_not _ w2
    have hk : r.kind.name = typeText r.kind ∨ r.kind = .goTime ∨ r.kind = .goDuration := by
      cases hk : r.kind <;> simp [Ty.name, typeText]
      rfl
    have hF : FiniteMetric r ↔ FiniteBase b := by unfold FiniteMetric; rw [hval]
    have hJ : ∀ x, JsonValue r x ↔ JsonBase r.kind r.unit b x := by intro x; unfold JsonValue; rw [hval]
    by_cases hgt : r.kind = .goTime
    · have he := elemType_time (hgt ▸ w2)
      simp only [ScalarTy.mk.injEq] at he
      obtain ⟨rfl, he⟩ := he
      obtain ⟨t, rfl⟩ := base_time he
      refine key (v := .scalar none (.string (timeAsString t r.unit))) (k := .time) (st := .unknown) ?_ ?_
        (fun h => absurd h n1) (fun _ => rfl) ?_ ?_
      · rw [hval, hgt]; rfl
      · rw [hgt]; rfl
      · intro _
        refine ⟨_, rfl, (hJ _).mpr ⟨_, rfl, fun hr => timeAsString_denotes t w1 hr _⟩⟩
      · exact fun hf => absurd (hF.mpr trivial) hf
    · by_cases hgd : r.kind = .goDuration
      · have he := elemType_duration (hgd ▸ w2)
        simp only [ScalarTy.mk.injEq] at he
        obtain ⟨rfl, he⟩ := he
        obtain ⟨t, rfl⟩ := base_duration he
        refine key (v := .scalar none (.string (durationAsString t r.unit))) (k := .duration) (st := .unknown) ?_ ?_
          (fun h => absurd h n1) (fun _ => rfl) ?_ ?_
        · rw [hval, hgd]; rfl
        · rw [hgd]; rfl
        · intro _
          refine ⟨_, rfl, (hJ _).mpr ?_⟩
          simp only [JsonBase]
          rw [if_pos hgd]
          exact ⟨_, rfl, durationAsString_denotes t w1 _⟩
        · exact fun hf => absurd (hF.mpr trivial) hf
      · refine key (v := r.value) (k := r.kind) (st := .unknown) ?_ ?_ (fun h => absurd h n1) (fun _ => rfl) ?_ ?_
        · unfold asJson
          cases hk : r.kind <;> simp_all
        · tauto
        · intro hf
          rw [hval]
          simp only [hJ]
          exact (base_doc lib r.unit w2 hgt hgd).1 (hF.mp hf)
        · intro hf
          rw [hval]
          exact (base_doc lib r.unit w2 hgt hgd).2 fun h => hf (hF.mpr h)
  · rename_i sn e es hval
    obtain ⟨w1, w2, w3⟩ := hw
    obtain ⟨n1, n2, n3, n4, n5, n6⟩ := elemType_not _ w2
    have hF : FiniteMetric r ↔ ∀ b ∈ es.getD [], FiniteBase b := by unfold FiniteMetric; rw [hval]
    have hconv : asJson r.value r.kind r.subType r.unit ≠ none := fun h' => by
      rw [convert_none.mpr h'] at h; cases h
    by_cases hgt : r.subType = .goTime
    · have he := elemType_time (hgt ▸ w2)
      subst he
      have hsn : sn = none := by
        cases sn with
        | none => rfl
        | some i => rw [hval, w1, hgt] at hconv; exact absurd rfl hconv
      subst hsn
      refine key (v := .slice none ⟨none, .string⟩ (some (((es.getD []).map fun b => timeAsString (timeOf b) r.unit).map .string)))
        (k := .list) (st := .time) ?_ ?_ (fun _ => ?_) (fun h => absurd w1 h) ?_ ?_
      · rw [hval, w1, hgt]; rfl
      · rw [w1]; rfl
      · rw [hgt]; exact ⟨rfl, by decide +kernel⟩
      · intro _
        refine ⟨.arr ((es.getD []).map fun b => .str (timeAsString (timeOf b) r.unit)), ?_, ?_⟩
        · simp only [jsonVal]
          rw [if_neg (by simp), mapAll_strings]
          rfl
        · unfold JsonValue
          rw [hval]
          simp only
          rw [if_neg (by simp)]
          refine ⟨_, rfl, ?_⟩
          rw [List.forall₂_map_right_iff, List.forall₂_same]
          intro b hb
          obtain ⟨b1, b2⟩ := w3 b hb
          obtain ⟨t, rfl⟩ := base_time b1
          exact ⟨_, rfl, fun hr => timeAsString_denotes t b2 hr _⟩
      · refine fun hf => absurd (hF.mpr fun b hb => ?_) hf
        obtain ⟨t, rfl⟩ := base_time (w3 b hb).1
        trivial
    · by_cases hgd : r.subType = .goDuration
      · have he := elemType_duration (hgd ▸ w2)
        subst he
        have hsn : sn = none := by
          cases sn with
          | none => rfl
          | some i => rw [hval, w1, hgd] at hconv; exact absurd rfl hconv
        subst hsn
        refine key (v := .slice none ⟨none, .string⟩
            (some (((es.getD []).map fun b => durationAsString (durOf b) r.unit).map .string)))
          (k := .list) (st := .duration) ?_ ?_ (fun _ => ?_) (fun h => absurd w1 h) ?_ ?_
        · rw [hval, w1, hgd]; rfl
        · rw [w1]; rfl
        · rw [hgd]; exact ⟨rfl, by decide +kernel⟩
        · intro _
          refine ⟨.arr ((es.getD []).map fun b => .str (durationAsString (durOf b) r.unit)), ?_, ?_⟩
          · simp only [jsonVal]
            rw [if_neg (by simp), mapAll_strings]
            rfl
          · unfold JsonValue
            rw [hval]
            simp only
            rw [if_neg (by simp)]
            refine ⟨_, rfl, ?_⟩
            rw [List.forall₂_map_right_iff, List.forall₂_same]
            intro b hb
            obtain ⟨b1, b2⟩ := w3 b hb
            obtain ⟨t, rfl⟩ := base_duration b1
            simp only [JsonBase]
            rw [if_pos hgd]
            exact ⟨_, rfl, durationAsString_denotes t b2 _⟩
        · refine fun hf => absurd (hF.mpr fun b hb => ?_) hf
          obtain ⟨t, rfl⟩ := base_duration (w3 b hb).1
          trivial
      · have hname : r.subType.name = typeText r.subType ∧ r.subType.name ≠ [] := by
          cases hk : r.subType with
          | goTime => exact absurd hk hgt
          | goDuration => exact absurd hk hgd
          | unknown => exact absurd hk n3
          | other x => exact absurd hk (n6 x)
          | _ => exact ⟨rfl, by decide +kernel⟩
        refine key (v := .slice sn e (some (es.getD []))) (k := .list) (st := r.subType) ?_ ?_ (fun _ => hname)
          (fun h => absurd w1 h) ?_ ?_
        · rw [hval, w1]
          unfold asJson
          cases hk : r.subType <;> first | rfl | (exact absurd hk hgt) | (exact absurd hk hgd)
        · rw [w1]; rfl
        · intro hf
          unfold JsonValue
          simp only [hval, jsonVal]
          by_cases hu : e.base = .int .uint8
          · simp only [if_pos hu]
            refine ⟨_, rfl, _, rfl, ?_⟩
            rw [List.map_map]
            conv_lhs => rw [← List.map_id (es.getD [])]
            refine List.map_congr_left fun b hb => ?_
            have := (w3 b hb).1
            rw [hu] at this
            cases b with
            | int k x => cases this; rfl
            | _ => cases this
          · simp only [if_neg hu]
            obtain ⟨bs, k1, k2⟩ := mapAll_some (f := jsonBase lib) (R := JsonBase r.subType r.unit) (l := es.getD [])
              fun b hb => (base_doc lib (n := e.named) r.unit (by rw [(w3 b hb).1]; exact w2) hgt hgd).1 (hF.mp hf b hb)
            rw [k1]
            exact ⟨_, rfl, _, rfl, k2⟩
        · intro hf
          simp only [jsonVal]
          rw [hF] at hf
          simp only [not_forall] at hf
          obtain ⟨b, hb, hfb⟩ := hf
          rw [if_neg, mapAll_none ⟨b, hb, (base_doc lib (n := e.named) r.unit (by rw [(w3 b hb).1]; exact w2) hgt hgd).2 hfb⟩]
          · rfl
          · intro hu
            have := (w3 b hb).1
            rw [hu] at this
            cases b with
            | int k x => exact hfb trivial
            | _ => cases this
  · rename_i d hval
    have hF : FiniteMetric r ↔ FiniteDist d := by unfold FiniteMetric; rw [hval]
    have hnl : r.kind ≠ .list := by rw [hw]; simp
    refine key (v := r.value) (k := r.kind) (st := .unknown) ?_ ?_ (fun h => absurd h hnl) (fun _ => rfl) ?_ ?_
    · rw [hw]; rfl
    · rw [hw]; rfl
    · intro hf
      unfold JsonValue
      simp only [hval, jsonVal]
      exact (dist_doc d).1 (hF.mp hf)
    · intro hf
      simp only [hval, jsonVal]
      exact (dist_doc d).2 fun h => hf (hF.mpr h)
  · cases hw

end Tricorder
