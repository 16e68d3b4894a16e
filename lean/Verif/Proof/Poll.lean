import Verif.Spec.Poll
import Verif.Proof.Record
import Verif.Proof.DistTime
import Verif.Proof.Whole4
import Verif.Proof.SameTime
import Verif.Proof.Sim
import Verif.Props.Embed
/-!
# Asking twice for a distribution: proofs
-/

namespace Tricorder
open Go _root_.Spec

/-! ### one distribution -/

/-- an Add, Update or Remove that returned normally -/
def changed (x : DCall × Option DPanic) : Bool := (isAdd x.1 || isUpdate x.1 || isRemove x.1) && decide (x.2 = none)

def spoiled (x : DCall × Option DPanic) : Bool := decide (x.2 = some .badValue)

theorem changed_number (t : List (DCall × Option DPanic)) :
    (t.filter changed).length = number isAdd none t + number isRemove none t + number isUpdate none t := by
  induction t with
  | nil => rfl
  | cons x t ih =>
    rw [number_cons isAdd, number_cons isRemove, number_cons isUpdate, List.filter_cons]
    obtain ⟨c, o⟩ := x
    have : (if changed (c, o) = true then 1 else 0) =
        number isAdd none [(c, o)] + number isRemove none [(c, o)] + number isUpdate none [(c, o)] := by
      cases c <;> by_cases ho : o = none <;> simp [changed, number, isAdd, isRemove, isUpdate, ho]
    split at this <;> rename_i hc <;> simp only [hc, if_true, if_false, List.length_cons, Bool.false_eq_true] <;> omega

theorem call_outcome {d : Dist Fl} (h : Shape d) (c : DCall) :
    (changed (c, (d.call c).2) = true ∧ spoiled (c, (d.call c).2) = false ∧
      (d.isNotCumulative = false → ∃ v ts k, d.counts[findIndex d.pieces v]? = some k ∧ (d.call c).1 = d.added v ts k)) ∨
    (changed (c, (d.call c).2) = false ∧ spoiled (c, (d.call c).2) = false ∧
      ∃ u s, (d.call c).1 = { d with unit := u, unitSet := s }) ∨
    (changed (c, (d.call c).2) = false ∧ spoiled (c, (d.call c).2) = true ∧ d.isNotCumulative = true ∧
      ∃ t cs, (d.call c).1 = { d with timeStamp := t, counts := cs } ∧ cs.length = d.counts.length) := by
  by_cases hc : ∀ u, c ≠ .setUnit u
  · have hs : isAdd c || isUpdate c || isRemove c = true := by
      cases c with
      | setUnit u => exact absurd rfl (hc u)
      | _ => simp [isAdd, isUpdate, isRemove]
    rcases call_cases d c hc with ⟨p, hp, he⟩ | ⟨op, he, -⟩
    · refine .inr (.inl ⟨by rw [he]; simp [changed], ?_, d.unit, d.unitSet, by rw [he]⟩)
      rw [he]
      rcases hp with rfl | rfl | rfl <;> simp [spoiled]
    · rw [he]
      cases op with
      | add v t =>
        obtain ⟨k, h1, h2⟩ := add_eq h v t
        simp only [Dist.op, h2]
        refine .inl ⟨by simp [changed]; simpa using hs, by simp [spoiled], fun _ => ⟨v, t, k, h1, rfl⟩⟩
      | remove v t =>
        rcases remove_eq h v t with ⟨_, e⟩ | ⟨_, _, e⟩ | ⟨n, _, _, e⟩ | ⟨n, _, k, _, e⟩ <;> simp only [Dist.op, e]
        · exact .inr (.inl ⟨by simp [changed], by simp [spoiled], d.unit, d.unitSet, rfl⟩)
        · exact .inr (.inl ⟨by simp [changed], by simp [spoiled], d.unit, d.unitSet, rfl⟩)
        · exact .inr (.inr ⟨by simp [changed], by simp [spoiled], n, t, d.counts, rfl, rfl⟩)
        · exact .inl ⟨by simp [changed]; simpa using hs, by simp [spoiled], fun h => by rw [n] at h; cases h⟩
      | update o n' t =>
        rcases update_eq h o n' t with ⟨_, e⟩ | ⟨_, _, e⟩ | ⟨n, _, k, _, ⟨_, e⟩ | ⟨k', _, e⟩⟩ <;> simp only [Dist.op, e]
        · exact .inr (.inl ⟨by simp [changed], by simp [spoiled], d.unit, d.unitSet, rfl⟩)
        · exact .inr (.inl ⟨by simp [changed], by simp [spoiled], d.unit, d.unitSet, rfl⟩)
        · exact .inr (.inr ⟨by simp [changed], by simp [spoiled], n, t, _, rfl, by simp⟩)
        · exact .inl ⟨by simp [changed]; simpa using hs, by simp [spoiled], fun h => by rw [n] at h; cases h⟩
  · push Not at hc
    obtain ⟨u, rfl⟩ := hc
    refine .inr (.inl ⟨by simp [changed, isAdd, isUpdate, isRemove], by simp [spoiled, Dist.call], ?_⟩)
    simp only [Dist.call, Dist.setUnit]
    split
    · exact ⟨u, true, rfl⟩
    · exact ⟨d.unit, d.unitSet, rfl⟩

/-- without a change the statistics stay; if besides no call panicked over an empty range, everything but the unit stays -/
theorem calls_unchanged {d : Dist Fl} (h : Shape d) (hist : List DCall) (hc : (trace d hist).filter changed = []) :
    (∃ u s t cs, d.calls hist = { d with unit := u, unitSet := s, timeStamp := t, counts := cs }) ∧
    ((trace d hist).filter spoiled = [] → ∃ u s, d.calls hist = { d with unit := u, unitSet := s }) := by
  induction hist generalizing d with
  | nil => exact ⟨⟨_, _, _, _, rfl⟩, fun _ => ⟨_, _, rfl⟩⟩
  | cons c cs ih =>
    simp only [trace, List.filter_cons] at hc ⊢
    have hsh := (call_time h c).1
    rcases call_outcome h c with ⟨h1, -⟩ | ⟨h1, h2, u, s, h3⟩ | ⟨h1, h2, -, t, k, h3, -⟩
    · rw [if_pos h1] at hc; cases hc
    · rw [if_neg (by simp [h1])] at hc
      obtain ⟨⟨u', s', t', k', e1⟩, e2⟩ := ih hsh hc
      refine ⟨⟨u', s', t', k', ?_⟩, fun hs => ?_⟩
      · simp only [Dist.calls]; rw [e1, h3]
      · rw [if_neg (by simp [h2])] at hs
        obtain ⟨u', s', e⟩ := e2 hs
        exact ⟨u', s', by simp only [Dist.calls]; rw [e, h3]⟩
    · rw [if_neg (by simp [h1])] at hc
      obtain ⟨⟨u', s', t', k', e1⟩, e2⟩ := ih hsh hc
      refine ⟨⟨u', s', t', k', ?_⟩, fun hs => ?_⟩
      · simp only [Dist.calls]; rw [e1, h3]
      · rw [if_pos h2] at hs; cases hs

/-- `d'` is later than `d` and nothing was taken away -/
structure Grown (d d' : Dist Fl) (k : ℕ) : Prop where
  count : d'.count = d.count + k
  counts : ∀ (j x : ℕ), d.counts[j]? = some x → ∃ x' : ℕ, d'.counts[j]? = some x' ∧ x ≤ x'
  min : d.count ≠ 0 → d'.min = d.min ∨ Fl.lt d'.min d.min = true
  max : d.count ≠ 0 → d'.max = d.max ∨ Fl.lt d.max d'.max = true

theorem Grown.trans {d d' d'' : Dist Fl} {k k' : ℕ} (h : Grown d d' k) (h' : Grown d' d'' k') : Grown d d'' (k + k') := by
  refine ⟨by rw [h'.count, h.count]; omega, fun j x hx => ?_, fun h0 => ?_, fun h0 => ?_⟩
  · obtain ⟨x', h1, h2⟩ := h.counts j x hx
    obtain ⟨x'', h3, h4⟩ := h'.counts j x' h1
    exact ⟨x'', h3, h2.trans h4⟩
  · have h0' : d'.count ≠ 0 := by rw [h.count]; omega
    rcases h.min h0 with e | e <;> rcases h'.min h0' with e' | e'
    · exact .inl (e'.trans e)
    · exact .inr (e ▸ e')
    · exact .inr (by rw [e']; exact e)
    · exact .inr (Fl.lt_trans e' e)
  · have h0' : d'.count ≠ 0 := by rw [h.count]; omega
    rcases h.max h0 with e | e <;> rcases h'.max h0' with e' | e'
    · exact .inl (e'.trans e)
    · exact .inr (e ▸ e')
    · exact .inr (by rw [e']; exact e)
    · exact .inr (Fl.lt_trans e e')

theorem call_grown {d : Dist Fl} {a r u b : ℕ} (h : HInv d a r u b) (hb : a + r + u + b + 1 < 18446744073709551616)
    (hn : d.isNotCumulative = false) (c : DCall) : Grown d (d.call c).1 (if changed (c, (d.call c).2) = true then 1 else 0) := by
  rcases call_outcome h.shape c with ⟨h1, -, h3⟩ | ⟨h1, -, u, s, h3⟩ | ⟨h1, -, h2, -⟩
  · obtain ⟨v, ts, k, h4, h5⟩ := h3 hn
    rw [if_pos h1, h5]
    have hle := le_sum _ _ _ h4
    have e1 := h.sum; have e2 := h.cnt
    refine ⟨?_, fun j x hx => ?_, fun h0 => ?_, fun h0 => ?_⟩
    · simp only [Dist.added]; rw [u64_eq (by omega)]
    · simp only [Dist.added]
      by_cases hj : findIndex d.pieces v = j
      · subst hj
        rw [h4] at hx; cases hx
        refine ⟨u64 (k + 1), ?_, ?_⟩
        · rw [List.getElem?_set_self (List.getElem?_eq_some_iff.mp h4).1]
        · rw [u64_eq (by omega)]; omega
      · exact ⟨x, by rw [List.getElem?_set_ne hj]; exact hx, le_rfl⟩
    · simp only [Dist.added, if_neg h0]
      split
      · rename_i hlt; exact .inr hlt
      · exact .inl rfl
    · simp only [Dist.added, if_neg h0]
      split
      · exact .inl rfl
      · split
        · rename_i hlt; exact .inr hlt
        · exact .inl rfl
  · rw [if_neg (by simp [h1]), h3]
    exact ⟨rfl, fun j x hx => ⟨x, hx, le_rfl⟩, fun _ => .inl rfl, fun _ => .inl rfl⟩
  · rw [hn] at h2; cases h2

theorem calls_grown {d : Dist Fl} {a r u b : ℕ} (h : HInv d a r u b) (hn : d.isNotCumulative = false) (hist : List DCall)
    (hb : a + r + u + b + hist.length < 18446744073709551616) :
    Grown d (d.calls hist) ((trace d hist).filter changed).length ∧ (trace d hist).filter spoiled = [] := by
  induction hist generalizing d a r u b with
  | nil => exact ⟨⟨rfl, fun j x hx => ⟨x, hx, le_rfl⟩, fun _ => .inl rfl, fun _ => .inl rfl⟩, rfl⟩
  | cons c cs ih =>
    simp only [List.length_cons] at hb
    have h1 := call_inv h (by omega) c
    have h2 := number_le_one c (d.call c).2
    have hn' : (d.call c).1.isNotCumulative = false := by
      have := (calls_const d [c]).2.1
      exact this.trans hn
    obtain ⟨i1, i2⟩ := ih h1 hn' (by omega)
    have g := (call_grown h (by omega) hn c).trans i1
    simp only [trace, List.filter_cons]
    constructor
    · split
      · rename_i hc
        rw [if_pos hc] at g
        rw [List.length_cons, Nat.add_comm]
        exact g
      · rename_i hc
        rw [if_neg hc, Nat.zero_add] at g
        exact g
    · rcases call_outcome h.shape c with ⟨-, e, -⟩ | ⟨-, e, -⟩ | ⟨-, -, e, -⟩
      · rw [if_neg (by simp [e])]; exact i2
      · rw [if_neg (by simp [e])]; exact i2
      · rw [hn] at e; cases e

end Tricorder

namespace Tricorder.Whole
open Go _root_.Spec

variable {w : World}

/-! ### what a request says about a distribution -/

def shownTs (json : Bool) (t : Time) : TS := if json then .str (Dur.sinceEpoch t).toString else .time t

theorem encode_dist {json : Bool} {y m : Metric} (h : encodeMetric json y = .ok m) (hk : m.kind = .dist) :
    y.kind = .dist ∧ m.value = y.value ∧ m.groupId = y.groupId ∧ ∀ t, y.timeStamp = .time t → m.timeStamp = shownTs json t := by
  unfold encodeMetric at h
  cases json with
  | false => cases h; exact ⟨hk, rfl, rfl, fun t ht => ht⟩
  | true =>
    simp only [if_true] at h
    cases h1 : y.convertToJson with
    | none => rw [h1] at h; cases h
    | some z =>
      rw [h1] at h; cases h
      unfold Metric.convertToJson at h1
      cases h2 : asJson y.value y.kind y.subType y.unit with
      | none => rw [h2] at h1; cases h1
      | some r =>
        obtain ⟨v, k, st⟩ := r
        rw [h2] at h1; cases h1
        simp only at hk
        subst hk
        have : y.kind = .dist ∧ v = y.value := by
          unfold asJson at h2
          split at h2
          · split at h2 <;> cases h2
          · split at h2 <;> cases h2
          · split at h2
            · split at h2 <;> cases h2
            · split at h2 <;> cases h2
            · split at h2 <;> cases h2
          · simp only [Option.some.injEq, Prod.mk.injEq] at h2
            exact ⟨h2.2.1, h2.1.symm⟩
        refine ⟨this.1, this.2, rfl, fun t ht => ?_⟩
        simp only [ht]; rfl

/-- `m` shows distribution `i` as it is after the steps `tr` -/
def Shows (w : World) (json : Bool) (tr : List (Item Answer)) (i : ℕ) (d : Dist Fl) (m : Metric) : Prop :=
  (after w (tr.filterMap memStep) State.init).dists[i]? = some d ∧ ∃ sn, d.snapshot = some sn ∧
    m.value = .dist (some (Tricorder.Spec.shownDist sn)) ∧ m.timeStamp = shownTs json sn.timeStamp ∧ m.groupId = d.groupId

theorem during_split {tr a b : List (Item Answer)} {x : Item Answer} {s : St Answer} (hr : Run w tr s) (htr : tr = a ++ x :: b)
    {σ : State} (h : During b s.mem σ) : ∃ p q, b = p ++ q ∧ σ = after w ((a ++ x :: p).filterMap memStep) State.init := by
  subst htr
  rcases h with ⟨it, hit, rfl⟩ | rfl
  · obtain ⟨p, q, rfl⟩ := List.append_of_mem hit
    exact ⟨p, it :: q, rfl, hr.after_pre (B := a ++ x :: p) (C := q) (by simp)⟩
  · exact ⟨b, [], by simp, hr.after⟩

theorem answered_shows {a b : List (Item Answer)} {x : Item Answer} {s : St Answer} (hr : Run w (a ++ x :: b) s) {json : Bool}
    {m : Metric} (h : Answered json x s m) (hk : m.kind = .dist) :
    ∃ p q i d, b = p ++ q ∧ Shows w json (a ++ x :: p) i d m := by
  have fin : ∀ {i : ℕ} {d : Dist Fl} {sn : Snapshot Fl} {σ : State} {y : Metric}, During b s.mem σ → σ.dists[i]? = some d →
      d.snapshot = some sn → y.value = .dist (some (Tricorder.Spec.shownDist sn)) → y.timeStamp = .time sn.timeStamp → y.groupId = d.groupId →
      encodeMetric json y = .ok m → ∃ p q i d, b = p ++ q ∧ Shows w json (a ++ x :: p) i d m := by
    intro i d sn σ y h1 h2 h3 h4 h5 h6 h7
    obtain ⟨p, q, e1, rfl⟩ := during_split hr rfl h1
    obtain ⟨-, f2, f3, f4⟩ := encode_dist h7 hk
    exact ⟨p, q, i, d, e1, h2, sn, h3, f2.trans h4, f4 _ h5, f3.trans h6⟩
  cases h with
  | listing hx hd hm =>
    obtain ⟨hre, -, hrun⟩ := listCall_run hr rfl hx hd
    obtain ⟨⟨U, sess, rfl, -, hU, -⟩, -⟩ := listMetrics_run hre hrun
    obtain ⟨u, hu, rfl⟩ := List.mem_map.mp hm
    obtain ⟨-, -, -, mv, y, -, b2, b3, b4, -⟩ := hU u hu
    have hy := (encode_dist b2 hk).1
    have hv : mv.value.valType = .dist := b3.2.2.2.1.symm.trans hy
    cases b4 with
    | dist a1 a2 a3 a4 a5 a6 a7 a8 =>
      obtain ⟨τ, j, hτ, rfl⟩ := image_states a3
      exact fin hτ a4 a5 a6 a7 a8 b2
    | list a1 => rw [hv] at a1; cases a1
    | scalar a1 => exact absurd hv a1
  | single hx hd =>
    obtain ⟨hre, -, hrun⟩ := hr.call hx
      (notTick_reads (ProgAll_bind (getMetricMsg_reads json _) fun _ => trivial)) hd
    obtain ⟨r, h4, h5⟩ := RunI_map hrun
    cases h5
    obtain ⟨-, mv, y, -, b2, b3, b4⟩ := getMetricMsg_run h4
    have hy := (encode_dist b2 hk).1
    have hv : mv.value.valType = .dist := b3.2.2.2.1.symm.trans hy
    cases b4 with
    | dist a1 a2 a3 a4 a5 a6 a7 a8 =>
      obtain ⟨τ, j, hτ, rfl⟩ := image_states a3
      exact fin hτ a4 a5 a6 a7 a8 b2
    | list a1 => rw [hv] at a1; cases a1
    | scalar a1 => exact absurd hv a1

/-! ### group ids -/

theorem after_ids (cs : List Cmd) {σ : State} (h : IdsOk σ) : IdsOk (after w cs σ) ∧ IdsExt σ (after w cs σ) := by
  induction cs generalizing σ with
  | nil => exact ⟨h, .refl _⟩
  | cons c cs ih =>
    obtain ⟨h1, h2⟩ := ih (exec_idsOk (w := w) c h)
    exact ⟨h1, (exec_idsExt c σ).trans h2⟩

theorem init_idsOk (w : World) : IdsOk State.init := reachable_idsOk (w := w) .init

theorem dist_id {σ : State} {i : ℕ} {d : Dist Fl} (h : σ.dists[i]? = some d) : σ.distIds[i]? = some d.groupId := by
  unfold State.distIds; rw [List.getElem?_map, h]; rfl

theorem same_dist {σ : State} (hok : IdsOk σ) {i j g : ℕ} (hi : σ.distIds[i]? = some g) (hj : σ.distIds[j]? = some g) : i = j :=
  nodup_index (List.nodup_append.mp (List.nodup_append.mp hok.1).1).2.1 hi hj

/-- counting calls in the steps, or in the history of the distribution, is the same -/
theorem calls_number {σ : State} (hok : IdsOk σ) {i : ℕ} {d : Dist Fl} (h : σ.dists[i]? = some d) (Q : DCall × Option DPanic → Bool)
    (P : Item Answer → Bool)
    (hP : ∀ it, P it = match memStep it with
      | some (.distCall j c) => HasId it.pre j d.groupId && Q (c, (show Option DPanic from (exec w (.distCall j c) it.pre).2))
      | _ => false)
    (hQ : ∀ u, Q (.setUnit u, none) = false) (l : List (Item Answer))
    (hl : ∀ A e C, l = A ++ e :: C → e.pre = after w (A.filterMap memStep) σ) :
    (l.filter P).length = ((trace d (asked i (l.filterMap memStep))).filter Q).length := by
  have hid := dist_id h
  induction l generalizing σ d with
  | nil => rfl
  | cons e l ih =>
    have hpre : e.pre = σ := hl [] e l rfl
    cases hm : memStep e with
    | none =>
      have : P e = false := by rw [hP, hm]
      rw [List.filter_cons, this, List.filterMap_cons, hm]
      exact ih hok h hP (fun A f C hC => by
        have := hl (e :: A) f C (by rw [hC]; rfl)
        rwa [List.filterMap_cons, hm] at this) hid
    | some cmd =>
      have hd' := exec_dist (w := w) h cmd
      have hg : (d.calls (asks i cmd).toList).groupId = d.groupId := (calls_const _ _).2.2
      have := ih (exec_idsOk (w := w) cmd hok) hd' (by rw [hg]; exact hP) (fun A f C hC => by
        have := hl (e :: A) f C (by rw [hC]; rfl)
        rwa [List.filterMap_cons, hm] at this) (dist_id hd')
      have hcons : asked i ((e :: l).filterMap memStep) = (asks i cmd).toList ++ asked i (l.filterMap memStep) := by
        rw [List.filterMap_cons, hm]
        unfold asked
        cases hc : asks i cmd with
        | none => simp [hc]
        | some x => simp [hc]
      rw [hcons, trace_append, List.filter_append, List.length_append, ← this, List.filter_cons]
      have key : (if P e = true then 1 else 0) = ((trace d (asks i cmd).toList).filter Q).length := by
        rw [hP, hm]
        cases cmd with
        | distCall j c =>
          simp only [asks]
          rw [hpre]
          by_cases hj : j = i
          · subst hj
            have he : (exec w (.distCall j c) σ).2 = (d.call c).2 := by unfold exec; simp only; rw [h]
            have hh : HasId σ j d.groupId = true := by simp [HasId, h]
            simp only [he, hh, if_true, Option.toList_some, trace, Bool.true_and]
            cases h1 : Q (c, (d.call c).2) <;> simp [h1]
          · have hh : HasId σ j d.groupId = false := by
              simp only [HasId, decide_eq_false_iff_not]
              intro hc
              rw [← List.getElem?_map] at hc
              exact hj (same_dist hok hc hid)
            simp [hj, hh, trace]
        | setUnit j u =>
          simp only [asks]
          by_cases hj : j = i
          · simp [hj, trace, hQ, Dist.call]
          · simp [hj, trace]
        | _ => rfl
      rw [← key]
      split <;> simp <;> omega

/-! ### both requests -/

theorem asked_le (i : ℕ) (l : List (Item Answer)) : (asked i (l.filterMap memStep)).length ≤ l.length :=
  (List.length_filterMap_le _ _).trans (List.length_filterMap_le _ _)

theorem shows_inv {tr : List (Item Answer)} (hmade : FromBucketers tr) {i : ℕ} {d : Dist Fl}
    (h : (after w (tr.filterMap memStep) State.init).dists[i]? = some d) (hlen : tr.length < 2 ^ 64) :
    ∃ A R U B, HInv d A R U B ∧ A + R + U + B ≤ tr.length := by
  obtain ⟨C, D, pieces, nc, ts, h1, -, rfl⟩ := after_made (w := w) _ rfl h
  obtain ⟨C', D', rfl, rfl, h3⟩ := List.filterMap_eq_append_iff.mp h1
  obtain ⟨D1, e, D2, rfl, -, h4, rfl⟩ := List.filterMap_eq_cons_iff.mp h3
  obtain ⟨l, hl⟩ := hmade e (by simp) pieces nc ts h4
  have hle := asked_le i D2
  simp only [List.length_append, List.length_cons] at hlen ⊢
  have hb := trace_bound (newDist pieces nc ts (after w (C'.filterMap memStep) State.init).nextId) (asked i (D2.filterMap memStep))
  exact ⟨_, _, _, _, hist_inv hl nc ts _ _ (by omega), by omega⟩

/-- After the steps `tr` metric `m` is made of a distribution, and after the further steps `l` metric `n` is made of the same one. -/
structure Looks (w : World) (json : Bool) (tr l : List (Item Answer)) (m n : Metric) (i : ℕ) (d1 : Dist Fl) (sn1 sn2 : Snapshot Fl) :
    Prop where
  short : tr.length + l.length < 2 ^ 64
  made : FromBucketers tr
  ids : IdsOk (after w (tr.filterMap memStep) State.init)
  dist : (after w (tr.filterMap memStep) State.init).dists[i]? = some d1
  id : m.groupId = d1.groupId
  pre : ∀ A e C, l = A ++ e :: C → e.pre = after w (A.filterMap memStep) (after w (tr.filterMap memStep) State.init)
  snap1 : d1.snapshot = some sn1
  snap2 : (d1.calls (asked i (l.filterMap memStep))).snapshot = some sn2
  val1 : m.value = .dist (some (Tricorder.Spec.shownDist sn1))
  val2 : n.value = .dist (some (Tricorder.Spec.shownDist sn2))
  ts1 : m.timeStamp = shownTs json sn1.timeStamp
  ts2 : n.timeStamp = shownTs json sn2.timeStamp

theorem shows_looks {json : Bool} {tr l q : List (Item Answer)} {m n : Metric} {s : St Answer} {i j : ℕ} {d1 d2 : Dist Fl}
    (hr : Run w (tr ++ l ++ q) s) (hshort : tr.length + l.length < 2 ^ 64) (hmade : FromBucketers tr)
    (h1 : Shows w json tr i d1 m) (h2 : Shows w json (tr ++ l) j d2 n) (hid : m.groupId = n.groupId) :
    ∃ sn1 sn2, Looks w json tr l m n i d1 sn1 sn2 := by
  obtain ⟨e1, sn1, f1, f2, f3, f4⟩ := h1
  obtain ⟨e2, sn2, g1, g2, g3, g4⟩ := h2
  obtain ⟨ok1, -⟩ := after_ids (w := w) (tr.filterMap memStep) (init_idsOk w)
  rw [List.filterMap_append, after_append] at e2
  obtain ⟨ok2, ext⟩ := after_ids (w := w) (l.filterMap memStep) ok1
  have hij : i = j := by
    refine same_dist ok2 (g := m.groupId) (prefix_index ext.dists ?_) ?_
    · rw [f4]; exact dist_id e1
    · rw [hid, g4]; exact dist_id e2
  subst hij
  have hd2 := after_dist (w := w) (l.filterMap memStep) e1
  rw [hd2] at e2
  have hd := Option.some.inj e2
  subst hd
  refine ⟨sn1, sn2, hshort, hmade, ok1, e1, f4, ?_, f1, g1, f2, g2, f3, g3⟩
  intro C e D hC
  rw [← after_append, ← List.filterMap_append]
  refine hr.after_pre (C := D ++ q) ?_
  rw [hC]; simp

theorem asked_twice {json : Bool} {a b c d : List (Item Answer)} {x y : Item Answer} {m n : Metric}
    (h : AskedTwice w json a x b c y d m n) : ∃ tr l i d1 sn1 sn2, Between b c y d l ∧
      (∀ it ∈ tr, it ∈ a ++ x :: b ++ c ++ y :: d) ∧ Looks w json tr l m n i d1 sn1 sn2 := by
  obtain ⟨s1, r1, a1⟩ := h.first
  obtain ⟨s2, r2, a2⟩ := h.second
  obtain ⟨p1, q1, i, d1, rfl, e1⟩ := answered_shows r1 a1 h.kinds.1
  obtain ⟨p2, q2, j, d2, rfl, e2⟩ := answered_shows r2 a2 h.kinds.2
  have hsplit : (a ++ x :: (p1 ++ q1) ++ c ++ y :: p2) = (a ++ x :: p1) ++ (q1 ++ c ++ y :: p2) := by simp
  have hsub : ∀ it ∈ a ++ x :: p1, it ∈ a ++ x :: (p1 ++ q1) ++ c ++ y :: (p2 ++ q2) := by
    intro it hit
    simp only [List.mem_append, List.mem_cons] at hit ⊢
    rcases hit with hit | rfl | hit <;> simp [*]
  have hshort := h.short
  simp only [List.length_append, List.length_cons] at hshort
  rw [hsplit] at e2
  obtain ⟨sn1, sn2, hL⟩ := shows_looks (q := q2) (s := s2) (by simpa using r2)
    (by simp only [List.length_append, List.length_cons]; omega) (fun it hit => h.made it (hsub it hit)) e1 e2 h.same
  exact ⟨_, _, i, d1, sn1, sn2, ⟨p1, q1, p2, q2, rfl, rfl, rfl⟩, hsub, hL⟩

variable {json : Bool} {tr l : List (Item Answer)} {m n : Metric} {i : ℕ} {d1 : Dist Fl} {sn1 sn2 : Snapshot Fl}

theorem Looks.inv (h : Looks w json tr l m n i d1 sn1 sn2) : ∃ A R U B, HInv d1 A R U B ∧
    A + R + U + B + (asked i (l.filterMap memStep)).length < 18446744073709551616 := by
  have hle := asked_le i l
  have hs := h.short
  obtain ⟨A, R, U, B, hinv, hb⟩ := shows_inv h.made h.dist (by omega)
  exact ⟨A, R, U, B, hinv, by omega⟩

theorem Looks.changes (h : Looks w json tr l m n i d1 sn1 sn2) :
    (l.filter (Changes w m.groupId)).length = ((trace d1 (asked i (l.filterMap memStep))).filter changed).length :=
  calls_number (w := w) h.ids h.dist _ _ (fun it => by rw [h.id]; rfl) (fun u => rfl) _ h.pre

theorem Looks.spoils (h : Looks w json tr l m n i d1 sn1 sn2) :
    (l.filter (Spoils w m.groupId)).length = ((trace d1 (asked i (l.filterMap memStep))).filter spoiled).length :=
  calls_number (w := w) h.ids h.dist _ _ (fun it => by rw [h.id]; rfl) (fun u => rfl) _ h.pre

theorem Looks.generation (h : Looks w json tr l m n i d1 sn1 sn2) (h1 : sn1.count ≠ 0) (h2 : sn2.count ≠ 0) :
    sn2.generation = sn1.generation + (l.filter (Changes w m.groupId)).length := by
  obtain ⟨A, R, U, B, hi, hb⟩ := h.inv
  have hi' := calls_inv hi _ hb
  obtain ⟨f1, -, -, -, f2, -⟩ := snapshot_fields hi.shape h.snap1
  obtain ⟨g1, -, -, -, g2, -⟩ := snapshot_fields hi'.shape h.snap2
  have e1 : sn1.generation = d1.generation := (f2 (by rw [← f1]; exact h1)).1
  have e2 : sn2.generation = (d1.calls (asked i (l.filterMap memStep))).generation := (g2 (by rw [← g1]; exact h2)).1
  rw [h.changes, changed_number, e1, e2, hi.gen, hi'.gen]
  omega

theorem Looks.ranges (h : Looks w json tr l m n i d1 sn1 sn2) :
    bounds (Tricorder.Spec.shownDist sn2) = bounds (Tricorder.Spec.shownDist sn1) := by
  obtain ⟨A, R, U, B, hi, hb⟩ := h.inv
  have hi' := calls_inv hi _ hb
  obtain ⟨-, -, f, -⟩ := snapshot_fields hi.shape h.snap1
  obtain ⟨-, -, g, -⟩ := snapshot_fields hi'.shape h.snap2
  have key : ∀ (ps : List (Piece Fl)) (ks : List ℕ), ks.length = ps.length →
      (ps.zip ks).map (fun x => (x.1.start, x.1.stop)) = ps.map fun p => (p.start, p.stop) := by
    intro ps ks hk
    rw [show (fun x : Piece Fl × ℕ => (x.1.start, x.1.stop)) = (fun p => (p.start, p.stop)) ∘ Prod.fst from rfl,
      ← List.map_map, List.map_fst_zip (by omega)]
  unfold bounds Tricorder.Spec.shownDist
  simp only [List.map_map]
  rw [f, g]
  have k1 := key _ _ hi.shape.len
  have k2 := key _ _ hi'.shape.len
  rw [(calls_const d1 (asked i (l.filterMap memStep))).1] at k2
  rw [(calls_const d1 (asked i (l.filterMap memStep))).1]
  exact k2.trans k1.symm

theorem Looks.unchanged (h : Looks w json tr l m n i d1 sn1 sn2) (h1 : sn1.count ≠ 0) (h2 : sn2.count ≠ 0)
    (hg : sn2.generation = sn1.generation) :
    sn2.count = sn1.count ∧ sn2.sum = sn1.sum ∧ sn2.average = sn1.average ∧ sn2.min = sn1.min ∧ sn2.max = sn1.max ∧
      ((∀ it ∈ l, Spoils w m.groupId it = false) → n.value = m.value ∧ n.timeStamp = m.timeStamp) := by
  obtain ⟨A, R, U, B, hi, hb⟩ := h.inv
  have hi' := calls_inv hi _ hb
  obtain ⟨f1, -, -, -, f2, -⟩ := snapshot_fields hi.shape h.snap1
  obtain ⟨g1, -, -, -, g2, -⟩ := snapshot_fields hi'.shape h.snap2
  obtain ⟨f3, -, f4, f5, f6, f7, -⟩ := f2 (by rw [← f1]; exact h1)
  obtain ⟨g3, -, g4, g5, g6, g7, -⟩ := g2 (by rw [← g1]; exact h2)
  have e : (trace d1 (asked i (l.filterMap memStep))).filter changed = [] := by
    have hg' : sn2.generation = sn1.generation := hg
    rw [f3, g3, hi.gen, hi'.gen] at hg'
    have := changed_number (trace d1 (asked i (l.filterMap memStep)))
    exact List.length_eq_zero_iff.mp (by omega)
  obtain ⟨⟨u, s, t, cs, e1⟩, e2⟩ := calls_unchanged hi.shape _ e
  rw [e1] at g1 g4 g5 g6 g7
  refine ⟨g1.trans f1.symm, g6.trans f6.symm, g7.trans f7.symm, g4.trans f4.symm, g5.trans f5.symm, fun hsp => ?_⟩
  have e3 : (trace d1 (asked i (l.filterMap memStep))).filter spoiled = [] := by
    apply List.length_eq_zero_iff.mp
    rw [← h.spoils, List.length_eq_zero_iff, List.filter_eq_nil_iff]
    intro it hit
    rw [hsp it hit]
    simp
  obtain ⟨u', s', e4⟩ := e2 e3
  have s2 := h.snap2
  rw [e4] at s2
  have : sn2 = sn1 := by
    have h5 : d1.snapshot = some sn2 := s2
    rw [h.snap1] at h5; exact (Option.some.inj h5).symm
  subst this
  exact ⟨h.val2.trans h.val1.symm, h.ts2.trans h.ts1.symm⟩

theorem Looks.cumulative (h : Looks w json tr l m n i d1 sn1 sn2) (h2 : sn2.count ≠ 0) (hcu : sn2.isNotCumulative = false) :
    sn1.count ≤ sn2.count ∧
      List.Forall₂ (· ≤ ·) (counts (Tricorder.Spec.shownDist sn1)) (counts (Tricorder.Spec.shownDist sn2)) ∧
      (sn1.count ≠ 0 → (sn2.min = sn1.min ∨ Fl.lt sn2.min sn1.min = true) ∧ (sn2.max = sn1.max ∨ Fl.lt sn1.max sn2.max = true)) ∧
      (sn2.count = sn1.count → n.value = m.value ∧ n.timeStamp = m.timeStamp) := by
  obtain ⟨A, R, U, B, hi, hb⟩ := h.inv
  have hi' := calls_inv hi _ hb
  obtain ⟨f1, -, fb, -, f2, -⟩ := snapshot_fields hi.shape h.snap1
  obtain ⟨g1, -, gb, -, g2, -⟩ := snapshot_fields hi'.shape h.snap2
  obtain ⟨-, g3, g4, g5, -⟩ := g2 (by rw [← g1]; exact h2)
  have hnc : d1.isNotCumulative = false := by
    rw [← (calls_const d1 (asked i (l.filterMap memStep))).2.1, ← g3]; exact hcu
  obtain ⟨gr, hsp⟩ := calls_grown hi hnc _ hb
  have hcount : sn2.count = sn1.count + ((trace d1 (asked i (l.filterMap memStep))).filter changed).length := by rw [g1, f1, gr.count]
  refine ⟨by show sn1.count ≤ sn2.count; omega, ?_, fun h1 => ?_, fun he => ?_⟩
  · have kc : ∀ (ps : List (Piece Fl)) (ks : List ℕ), ks.length = ps.length →
        (ps.zip ks).map (fun x => x.2) = ks := fun ps ks hk => List.map_snd_zip (by omega)
    have k1 : counts (Tricorder.Spec.shownDist sn1) = d1.counts := by
      unfold counts Tricorder.Spec.shownDist
      simp only [List.map_map]
      rw [fb]; exact kc _ _ hi.shape.len
    have k2 : counts (Tricorder.Spec.shownDist sn2) = (d1.calls (asked i (l.filterMap memStep))).counts := by
      unfold counts Tricorder.Spec.shownDist
      simp only [List.map_map]
      rw [gb]; exact kc _ _ hi'.shape.len
    rw [k1, k2, List.forall₂_iff_get]
    have hlen : d1.counts.length = (d1.calls (asked i (l.filterMap memStep))).counts.length := by
      rw [hi.shape.len, hi'.shape.len, (calls_const d1 (asked i (l.filterMap memStep))).1]
    refine ⟨hlen, fun j h3 h4 => ?_⟩
    obtain ⟨x', h5, h6⟩ := gr.counts j d1.counts[j] (List.getElem?_eq_getElem h3)
    rw [List.getElem?_eq_getElem h4] at h5
    cases h5
    exact h6
  · have h0 : d1.count ≠ 0 := by rw [← f1]; exact h1
    obtain ⟨-, -, f4, f5, -⟩ := f2 h0
    constructor
    · show sn2.min = sn1.min ∨ Fl.lt sn2.min sn1.min = true
      rw [g4, f4]; exact gr.min h0
    · show sn2.max = sn1.max ∨ Fl.lt sn1.max sn2.max = true
      rw [g5, f5]; exact gr.max h0
  · have he' : sn2.count = sn1.count := he
    have e : (trace d1 (asked i (l.filterMap memStep))).filter changed = [] := List.length_eq_zero_iff.mp (by omega)
    obtain ⟨u', s', e4⟩ := (calls_unchanged hi.shape _ e).2 hsp
    have s2 := h.snap2
    rw [e4] at s2
    have : sn2 = sn1 := by
      have h5 : d1.snapshot = some sn2 := s2
      rw [h.snap1] at h5; exact (Option.some.inj h5).symm
    subst this
    exact ⟨h.val2.trans h.val1.symm, h.ts2.trans h.ts1.symm⟩

end Tricorder.Whole
