import Verif.Spec.Flow
import Verif.Proof.Poll
import Verif.Proof.DistApi
/-!
# What goes into a distribution and what comes out of it between two answers: proofs
-/

namespace Tricorder
open Go _root_.Spec Whole

/-! ### one distribution -/

/-- the operations of a history that have numbers, and whether each panicked -/
def dealings (d : Dist Fl) : List DCall → List (DOp Fl × Option DPanic)
  | [] => []
  | c :: cs => ((toOp d.unit c).map fun o => (o, (d.call c).2)).toList ++ dealings (d.call c).1 cs

/-- the number of values of a list that the search puts in range `k` -/
def hits (d : Dist Fl) (k : ℕ) (vs : List Fl) : ℕ := vs.countP fun v => decide (findIndex d.pieces v = k)

theorem hits_append (d : Dist Fl) (k : ℕ) (a b : List Fl) : hits d k (a ++ b) = hits d k a + hits d k b := List.countP_append

/-- what an operation does to the number of values -/
def Counted (d d' : Dist Fl) (ms : List (DOp Fl × Option DPanic)) : Prop :=
  d'.count + ms.countP GoesOut = d.count + ms.countP ComesIn

/-- the counts of `d'` are those of `d` with the values `ins` put in and `outs` taken out -/
def Balance (d d' : Dist Fl) (ins outs : List Fl) : Prop :=
  ∀ (k x x' : ℕ), d.counts[k]? = some x → d'.counts[k]? = some x' → x' + hits d k outs = x + hits d k ins

theorem call_idle {d : Dist Fl} (c : DCall) (h : toOp d.unit c = none ∨ d.unitSet = false) :
    (∃ u s, (d.call c).1 = { d with unit := u, unitSet := s }) ∧
    (toOp d.unit c = none ∨ (d.call c).2 = some .noUnit) := by
  cases hs : d.unitSet with
  | true =>
    have ht : toOp d.unit c = none := by
      rcases h with h | h
      · exact h
      · rw [hs] at h; cases h
    have := call_op d hs c
    rw [ht] at this
    exact ⟨⟨d.unit, d.unitSet, this.1⟩, .inl ht⟩
  | false =>
    cases c with
    | setUnit u => exact ⟨⟨u, true, by simp [Dist.call, Dist.setUnit, hs]⟩, .inl rfl⟩
    | add v ts =>
      have e : d.call (.add v ts) = (d, some .noUnit) := by simp [Dist.call, Dist.addWithTs, Dist.valueToFloat, hs]
      exact ⟨⟨d.unit, d.unitSet, by rw [e]⟩, .inr (by rw [e])⟩
    | remove v ts =>
      have e : d.call (.remove v ts) = (d, some .noUnit) := by simp [Dist.call, Dist.removeWithTs, Dist.valueToFloat, hs]
      exact ⟨⟨d.unit, d.unitSet, by rw [e]⟩, .inr (by rw [e])⟩
    | update o n ts =>
      have e : d.call (.update o n ts) = (d, some .noUnit) := by simp [Dist.call, Dist.updateWithTs, Dist.valueToFloat, hs]
      exact ⟨⟨d.unit, d.unitSet, by rw [e]⟩, .inr (by rw [e])⟩

theorem op_balance {d : Dist Fl} (h : Shape d) (hb : ∀ (k x : ℕ), d.counts[k]? = some x → x + 1 < 18446744073709551616)
    (hn : d.count + 1 < 18446744073709551616) (o : DOp Fl) :
    Balance d (d.op o).1 (putIn (o, (d.op o).2)).toList (takenOut (o, (d.op o).2)).toList ∧
    (d.op o).1.total = sumAfter d.total (o, (d.op o).2) ∧ Counted d (d.op o).1 [(o, (d.op o).2)] ∧
    (d.isNotCumulative = false → takenOut (o, (d.op o).2) = none) := by
  have hset : ∀ {l : List ℕ} {i k x x' : ℕ} {y : ℕ}, l[k]? = some x → (l.set i y)[k]? = some x' → x' = if i = k then y else x := by
    intro l i k x x' y h1 h2
    split
    · rename_i hk; subst hk
      rw [List.getElem?_set_self (List.getElem?_eq_some_iff.mp h1).1] at h2
      exact (Option.some.inj h2).symm
    · rename_i hk
      rw [List.getElem?_set_ne hk, h1] at h2
      exact (Option.some.inj h2).symm
  have hsome : ∀ {l : List ℕ} {i k x : ℕ} {y : ℕ}, l[k]? = some x → ∃ z, (l.set i y)[k]? = some z := by
    intro l i k x y h1
    exact ⟨_, List.getElem?_eq_getElem (by simpa using (List.getElem?_eq_some_iff.mp h1).1)⟩
  cases o with
  | add v t =>
    obtain ⟨c, h1, h2⟩ := add_eq h v t
    simp only [Dist.op, h2]
    refine ⟨fun k x x' hx hx' => ?_, rfl, by simp [Counted, ComesIn, GoesOut, Dist.added, u64_eq hn], fun _ => rfl⟩
    have := hset hx hx'
    have hc := hb _ _ h1
    simp only [putIn, takenOut, hits, Option.toList_some, Option.toList_none, List.countP_nil, List.countP_singleton, this,
      decide_eq_true_eq]
    split
    · rename_i hk; subst hk; rw [h1] at hx; cases hx; rw [u64_eq (by omega)]
    · rfl
  | remove v t =>
    rcases remove_eq h v t with ⟨_, e⟩ | ⟨_, _, e⟩ | ⟨_, _, _, e⟩ | ⟨hnc, h0, c, h1, e⟩ <;> simp only [Dist.op, e]
    · exact ⟨fun k x x' hx hx' => by rw [hx] at hx'; cases hx'; rfl, rfl, rfl, fun _ => rfl⟩
    · exact ⟨fun k x x' hx hx' => by rw [hx] at hx'; cases hx'; rfl, rfl, rfl, fun _ => rfl⟩
    · exact ⟨fun k x x' hx hx' => by rw [show d.counts[k]? = some x' from hx'] at hx; cases hx; rfl, rfl, rfl, fun _ => rfl⟩
    · refine ⟨fun k x x' hx hx' => ?_, rfl, ?_, fun hf => by rw [hnc] at hf; cases hf⟩
      swap
      · simp [Counted, ComesIn, GoesOut, Dist.removed]; omega
      have := hset hx hx'
      simp only [putIn, takenOut, hits, Option.toList_some, Option.toList_none, List.countP_nil, List.countP_singleton, this,
        decide_eq_true_eq]
      split
      · rename_i hk; subst hk; rw [h1] at hx; cases hx; rfl
      · rfl
  | update o n t =>
    rcases update_eq h o n t with ⟨_, e⟩ | ⟨_, _, e⟩ | ⟨hnc, _, c, h1, ⟨h2, e⟩ | ⟨c', h2, e⟩⟩ <;> simp only [Dist.op, e]
    · exact ⟨fun k x x' hx hx' => by rw [hx] at hx'; cases hx'; rfl, rfl, rfl, fun _ => rfl⟩
    · exact ⟨fun k x x' hx hx' => by rw [hx] at hx'; cases hx'; rfl, rfl, rfl, fun _ => rfl⟩
    · refine ⟨fun k x x' hx hx' => ?_, rfl, rfl, fun _ => rfl⟩
      have := hset hx hx'
      have hc := hb _ _ h1
      simp only [putIn, takenOut, hits, Option.toList_some, Option.toList_none, List.countP_nil, List.countP_singleton, this,
        decide_eq_true_eq]
      split
      · rename_i hk; subst hk; rw [h1] at hx; cases hx; rw [u64_eq (by omega)]
      · rfl
    · refine ⟨fun k x x' hx hx' => ?_, rfl, rfl, fun hf => by rw [hnc] at hf; cases hf⟩
      obtain ⟨z, hz⟩ := hsome (i := findIndex d.pieces n) (y := u64 (c + 1)) hx
      have e1 := hset hx hz
      have e2 := hset hz hx'
      have hc := hb _ _ h1
      simp only [putIn, takenOut, hits, Option.toList_some, List.countP_singleton, e2, decide_eq_true_eq]
      rw [u64_eq (by omega)] at e1
      by_cases hk : findIndex d.pieces o = k
      · subst hk
        rw [h2] at hz; cases hz
        simp only [if_true]
        rw [e1]
        split
        · rename_i hk; rw [← hk, h1] at hx; cases hx; rfl
        · rfl
      · simp only [if_neg hk]
        rw [e1]
        split
        · rename_i hk; rw [← hk, h1] at hx; cases hx; rfl
        · rfl

theorem call_balance {d : Dist Fl} (h : Shape d) (hb : ∀ (k x : ℕ), d.counts[k]? = some x → x + 1 < 18446744073709551616)
    (hn : d.count + 1 < 18446744073709551616) (c : DCall) :
    let t := ((toOp d.unit c).map fun o => (o, (d.call c).2)).toList
    Balance d (d.call c).1 (t.filterMap putIn) (t.filterMap takenOut) ∧ (d.call c).1.total = t.foldl sumAfter d.total ∧
      Counted d (d.call c).1 t ∧ (d.isNotCumulative = false → t.filterMap takenOut = []) := by
  intro t
  have idle : (toOp d.unit c = none ∨ d.unitSet = false) → t.filterMap putIn = [] ∧ t.filterMap takenOut = [] ∧
      t.foldl sumAfter d.total = d.total ∧ t.countP ComesIn = 0 ∧ t.countP GoesOut = 0 := by
    intro hi
    rcases (call_idle c hi).2 with e | e
    · simp [t, e]
    · simp only [t, e]
      cases toOp d.unit c with
      | none => simp
      | some o => cases o <;> simp [putIn, takenOut, sumAfter, ComesIn, GoesOut]
  by_cases hi : toOp d.unit c = none ∨ d.unitSet = false
  · obtain ⟨e1, e2, e3, e4, e5⟩ := idle hi
    obtain ⟨⟨u, s, e⟩, -⟩ := call_idle c hi
    unfold Counted
    rw [e1, e2, e3, e4, e5, e]
    exact ⟨fun k x x' hx hx' => by rw [show d.counts[k]? = some x' from hx'] at hx; cases hx; rfl, rfl, rfl, fun _ => rfl⟩
  · push Not at hi
    obtain ⟨o, ho⟩ := Option.ne_none_iff_exists'.mp hi.1
    have := call_op d (by simpa using hi.2) c
    rw [ho] at this
    simp only at this
    obtain ⟨b1, b2, b3, b4⟩ := op_balance h hb hn o
    simp only [t, ho, this, Option.map_some, Option.toList_some, List.foldl_cons, List.foldl_nil]
    refine ⟨?_, b2, b3, fun hf => ?_⟩
    rotate_left
    · simp [b4 hf]
    have e : ∀ f : DOp Fl × Option DPanic → Option Fl, List.filterMap f [(o, (d.op o).2)] = (f (o, (d.op o).2)).toList := by
      intro f; cases hf : f (o, (d.op o).2) <;> simp [hf]
    rw [e, e]
    exact b1

theorem calls_balance {d : Dist Fl} {a r u b : ℕ} (h : HInv d a r u b) (hist : List DCall)
    (hb : a + r + u + b + hist.length < 18446744073709551616) :
    Balance d (d.calls hist) ((dealings d hist).filterMap putIn) ((dealings d hist).filterMap takenOut) ∧
    (d.calls hist).total = (dealings d hist).foldl sumAfter d.total ∧ Counted d (d.calls hist) (dealings d hist) ∧
    (d.isNotCumulative = false → (dealings d hist).filterMap takenOut = []) := by
  induction hist generalizing d a r u b with
  | nil => exact ⟨fun k x x' hx hx' => by rw [show d.counts[k]? = some x' from hx'] at hx; cases hx; rfl, rfl, rfl, fun _ => rfl⟩
  | cons c cs ih =>
    simp only [List.length_cons] at hb
    have h1 := call_inv h (by omega) c
    have h2 := number_le_one c (d.call c).2
    obtain ⟨i1, i2, i3, i4⟩ := ih h1 (by omega)
    obtain ⟨c1, c2, c3, c4⟩ := call_balance h.shape (fun k x hx => by
      have := le_sum _ _ _ hx; have e1 := h.sum; have e2 := h.cnt; omega) (by have := h.cnt; omega) c
    simp only [dealings, Dist.calls, List.filterMap_append, List.foldl_append]
    refine ⟨fun k x x' hx hx' => ?_, by rw [i2, c2], ?_, fun hf => ?_⟩
    rotate_left
    · unfold Counted at i3 c3 ⊢
      rw [List.countP_append, List.countP_append]; omega
    · rw [c4 hf, i4 (by rw [(call_const d c).2.1]; exact hf)]; rfl
    have hk : k < (d.call c).1.counts.length := by
      have := (List.getElem?_eq_some_iff.mp hx).1
      rw [h1.shape.len, (call_const d c).1, ← h.shape.len]; exact this
    have e1 := c1 k x _ hx (List.getElem?_eq_getElem hk)
    have e2 := i1 k _ x' (List.getElem?_eq_getElem hk) hx'
    have e3 : ∀ vs, hits (d.call c).1 k vs = hits d k vs := fun vs => by unfold hits; rw [(call_const d c).1]
    rw [e3, e3] at e2
    rw [hits_append, hits_append]
    omega

/-! ### the ranges shown -/

theorem findIndex_last {l : List Fl} {pieces : List (Piece Fl)} (h : fromEndpoints l = .ok pieces) {k : ℕ} {p : Piece Fl}
    (hp : pieces[k]? = some p) : (p.first = true ↔ k = 0) ∧ (p.last = true ↔ k + 1 = pieces.length) := by
  obtain ⟨hlen, hne⟩ := fromEndpoints_length h
  have hk := (List.getElem?_eq_some_iff.mp hp).1
  rw [fromEndpoints_get h] at hp
  cases k with
  | zero =>
    have : 0 < l.length := List.length_pos_iff.mpr hne
    cases l with
    | nil => exact absurd rfl hne
    | cons e es => simp [range] at hp; subst hp; simp at hlen ⊢; omega
  | succ k =>
    simp only [range] at hp
    split at hp
    · rename_i a b h1 h2
      cases hp
      have := (List.getElem?_eq_some_iff.mp h2).1
      simp; omega
    · rename_i a h1 h2
      cases hp
      have := List.getElem?_eq_none_iff.mp h2
      simp; omega
    · cases hp

/-- the search finds the range that holds the value -/
theorem findIndex_iff {l : List Fl} {pieces : List (Piece Fl)} (h : fromEndpoints l = .ok pieces) (hasc : Ascending l) {k : ℕ}
    {p : Piece Fl} (hp : pieces[k]? = some p) (v : Fl) :
    findIndex pieces v = k ↔ (k = 0 ∨ Fl.lt v p.start = false) ∧ (k + 1 = pieces.length ∨ Fl.lt v p.stop = true) := by
  obtain ⟨f1, f2⟩ := findIndex_last h hp
  constructor
  · intro he
    obtain ⟨q, hq, h1, h2⟩ := findIndex_piece h v
    rw [he, hp] at hq; cases hq
    rw [f1] at h1; rw [f2] at h2
    exact ⟨h1, h2⟩
  · rintro ⟨h1, h2⟩
    obtain ⟨hlen, hne⟩ := fromEndpoints_length h
    by_cases hv : v = .nan
    · subst hv
      rw [findIndex_nan h]
      rcases h2 with h2 | h2
      · omega
      · rw [Fl.lt_nan_left] at h2; cases h2
    · obtain ⟨q, hq, hc⟩ := findIndex_contains h hasc hv
      refine contains_unique h hasc hv hq hp hc ⟨?_, ?_⟩
      · rcases h1 with h1 | h1
        · exact .inl (f1.mpr h1)
        · cases hf : p.first with
          | true => exact .inl rfl
          | false =>
            have hp' := hp
            rw [fromEndpoints_get h] at hp'
            exact .inr ((Fl.not_lt hv (hasc.1 _ (mem_range_ends hp' hf))).1 h1)
      · rcases h2 with h2 | h2
        · exact .inl (f2.mpr h2)
        · exact .inr h2

theorem hits_shown {l : List Fl} {d : Dist Fl} (h : fromEndpoints l = .ok d.pieces) (hasc : Ascending l) (hs : Shape d)
    {sn : Snapshot Fl} (hsn : d.snapshot = some sn) {k : ℕ} (hk : k < d.pieces.length) (vs : List Fl) :
    hits d k vs = vs.countP (InRange (Tricorder.Spec.shownDist sn).ranges k) := by
  obtain ⟨-, -, f, -⟩ := snapshot_fields hs hsn
  have hk' : k < d.counts.length := by rw [hs.len]; exact hk
  have hlen : (Tricorder.Spec.shownDist sn).ranges.length = d.pieces.length := by
    simp [Tricorder.Spec.shownDist, f, hs.len]
  have hget : (Tricorder.Spec.shownDist sn).ranges[k]? = some ⟨d.pieces[k].start, d.pieces[k].stop, d.counts[k]⟩ := by
    simp [Tricorder.Spec.shownDist, f, List.getElem?_eq_getElem hk, List.getElem?_eq_getElem hk', List.getElem?_zip_eq_some]
  unfold hits
  congr 1
  funext v
  unfold InRange
  rw [hget]
  simp only [hlen]
  rw [Bool.eq_iff_iff, decide_eq_true_iff, findIndex_iff h hasc (List.getElem?_eq_getElem hk) v]
  simp

end Tricorder

namespace Tricorder.Whole
open Go _root_.Spec

variable {w : World}

/-- the dealings in the steps are those of the history of the distribution -/
theorem dealings_eq {σ : State} (hok : IdsOk σ) {i : ℕ} {d : Dist Fl} (h : σ.dists[i]? = some d) (l : List (Item Answer))
    (hl : ∀ A e C, l = A ++ e :: C → e.pre = after w (A.filterMap memStep) σ) :
    l.filterMap (dealing w d.groupId) = dealings d (asked i (l.filterMap memStep)) := by
  have hid := dist_id h
  induction l generalizing σ d with
  | nil => rfl
  | cons e l ih =>
    have hpre : e.pre = σ := hl [] e l rfl
    cases hm : memStep e with
    | none =>
      have : dealing w d.groupId e = none := by unfold dealing; rw [hm]
      rw [List.filterMap_cons_none this, List.filterMap_cons, hm]
      exact ih hok h (fun A f C hC => by
        have := hl (e :: A) f C (by rw [hC]; rfl)
        rwa [List.filterMap_cons, hm] at this) hid
    | some cmd =>
      have hd' := exec_dist (w := w) h cmd
      have hg : (d.calls (asks i cmd).toList).groupId = d.groupId := (calls_const _ _).2.2
      have := ih (exec_idsOk (w := w) cmd hok) hd' (fun A f C hC => by
        have := hl (e :: A) f C (by rw [hC]; rfl)
        rwa [List.filterMap_cons, hm] at this) (dist_id hd')
      rw [hg] at this
      have hcons : asked i ((e :: l).filterMap memStep) = (asks i cmd).toList ++ asked i (l.filterMap memStep) := by
        rw [List.filterMap_cons, hm]
        unfold asked
        cases hc : asks i cmd with
        | none => simp [hc]
        | some x => simp [hc]
      have happ : ∀ (d : Dist Fl) (a b : List DCall), dealings d (a ++ b) = dealings d a ++ dealings (d.calls a) b := by
        intro d a b
        induction a generalizing d with
        | nil => rfl
        | cons c a ih => simp [dealings, Dist.calls, ih]
      have hc2 : (e :: l).filterMap (dealing w d.groupId) = (dealing w d.groupId e).toList ++ l.filterMap (dealing w d.groupId) := by
        rw [List.filterMap_cons]; cases dealing w d.groupId e <;> rfl
      rw [hcons, happ, hc2, this]
      congr 1
      unfold dealing
      rw [hm]
      cases cmd with
      | distCall j c =>
        simp only [asks]
        rw [hpre]
        by_cases hj : j = i
        · subst hj
          have he : (exec w (.distCall j c) σ).2 = (d.call c).2 := by unfold exec; simp only; rw [h]
          have hh : HasId σ j d.groupId = true := by simp [HasId, h]
          have hu : unitOf σ j = d.unit := by simp [unitOf, h]
          simp only [he, hh, hu, if_true, Option.toList_some, dealings, List.append_nil]
        · have hh : HasId σ j d.groupId = false := by
            simp only [HasId, decide_eq_false_iff_not]
            intro hc
            rw [← List.getElem?_map] at hc
            exact hj (same_dist hok hc hid)
          simp [hj, hh, dealings]
      | setUnit j u =>
        simp only [asks]
        by_cases hj : j = i
        · simp [hj, dealings, toOp]
        · simp [hj, dealings]
      | _ => rfl

theorem made_ascending {tr : List (Item Answer)} (hmade : FromAscending tr) {i : ℕ} {d : Dist Fl}
    (h : (after w (tr.filterMap memStep) State.init).dists[i]? = some d) : ∃ l, Ascending l ∧ fromEndpoints l = .ok d.pieces := by
  obtain ⟨C, D, pieces, nc, ts, h1, -, rfl⟩ := after_made (w := w) _ rfl h
  obtain ⟨C', D', rfl, rfl, h3⟩ := List.filterMap_eq_append_iff.mp h1
  obtain ⟨D1, e, D2, rfl, -, h4, rfl⟩ := List.filterMap_eq_cons_iff.mp h3
  obtain ⟨l, ha, hl⟩ := hmade e (by simp) pieces nc ts h4
  exact ⟨l, ha, by rw [(calls_const _ _).1]; exact hl⟩

variable {json : Bool} {tr l : List (Item Answer)} {m n : Metric} {i : ℕ} {d1 : Dist Fl} {sn1 sn2 : Snapshot Fl}

theorem Looks.flow (h : Looks w json tr l m n i d1 sn1 sn2) (hasc : FromAscending tr) :
    (let D := Tricorder.Spec.shownDist sn1; let E := Tricorder.Spec.shownDist sn2; let moves := l.filterMap (dealing w m.groupId);
      E.count + moves.countP GoesOut = D.count + moves.countP ComesIn ∧
      (∀ (k : ℕ) (r r' : RangeMsg), D.ranges[k]? = some r → E.ranges[k]? = some r' →
        r'.count + (moves.filterMap takenOut).countP (InRange D.ranges k) =
          r.count + (moves.filterMap putIn).countP (InRange D.ranges k)) ∧
      (D.count ≠ 0 → E.count ≠ 0 → E.sum = moves.foldl sumAfter D.sum) ∧
      (E.count ≠ 0 → E.isNotCumulative = false → moves.filterMap takenOut = [])) := by
  obtain ⟨A, R, U, B, hi, hb⟩ := h.inv
  obtain ⟨es, ha, hes⟩ := made_ascending hasc h.dist
  have hi' := calls_inv hi _ hb
  obtain ⟨b1, b2, b3, b4⟩ := calls_balance hi _ hb
  rw [← dealings_eq h.ids h.dist l h.pre, ← h.id] at b1 b2 b3 b4
  obtain ⟨f1, -, f3, -, f5, -⟩ := snapshot_fields hi.shape h.snap1
  obtain ⟨g1, -, g3, -, g5, -⟩ := snapshot_fields hi'.shape h.snap2
  have hshow : ∀ {d : Dist Fl} {sn : Snapshot Fl} {k : ℕ} {r : RangeMsg}, Shape d → sn.breakdown = d.pieces.zip d.counts →
      (Tricorder.Spec.shownDist sn).ranges[k]? = some r → k < d.pieces.length ∧ d.counts[k]? = some r.count := by
    intro d sn k r hs hf hr
    simp only [Tricorder.Spec.shownDist, hf, List.getElem?_map, Option.map_eq_some_iff] at hr
    obtain ⟨⟨p, q⟩, h1, rfl⟩ := hr
    obtain ⟨h2, h3⟩ := List.getElem?_zip_eq_some.mp h1
    exact ⟨(List.getElem?_eq_some_iff.mp h2).1, h3⟩
  refine ⟨?_, fun k r r' hr hr' => ?_, fun h1 h2 => ?_, fun h1 h2 => ?_⟩
  · show sn2.count + _ = sn1.count + _
    rw [f1, g1]; exact b3
  · obtain ⟨hk, hc⟩ := hshow hi.shape f3 hr
    obtain ⟨-, hc'⟩ := hshow hi'.shape g3 hr'
    have := b1 k _ _ hc hc'
    rwa [hits_shown hes ha hi.shape h.snap1 hk, hits_shown hes ha hi.shape h.snap1 hk] at this
  · obtain ⟨-, -, -, -, e3, -⟩ := f5 (by rw [← f1]; exact h1)
    obtain ⟨-, -, -, -, e4, -⟩ := g5 (by rw [← g1]; exact h2)
    show sn2.sum = _
    rw [e4, b2]
    show _ = List.foldl sumAfter sn1.sum _
    rw [e3]
  · obtain ⟨-, e3, -⟩ := g5 (by rw [← g1]; exact h1)
    exact b4 (by rw [← (calls_const d1 _).2.1, ← e3]; exact h2)

theorem Looks.one_range (h : Looks w json tr l m n i d1 sn1 sn2) (hasc : FromAscending tr) (v : Fl) :
    ∃! k, InRange (Tricorder.Spec.shownDist sn1).ranges k v = true := by
  obtain ⟨A, R, U, B, hi, hb⟩ := h.inv
  obtain ⟨es, ha, hes⟩ := made_ascending hasc h.dist
  refine ⟨findIndex d1.pieces v, ?_, fun k hk => ?_⟩
  · have := hits_shown hes ha hi.shape h.snap1 (findIndex_lt hi.shape.ne v) [v]
    simp only [hits, List.countP_singleton, decide_true, if_true] at this
    by_contra hc
    simp only [hc, Bool.false_eq_true, if_false] at this
    cases this
  · have hk : InRange (Tricorder.Spec.shownDist sn1).ranges k v = true := hk
    have hlt : k < d1.pieces.length := by
      unfold InRange at hk
      split at hk
      · rename_i r hr
        have := (List.getElem?_eq_some_iff.mp hr).1
        obtain ⟨-, -, f, -⟩ := snapshot_fields hi.shape h.snap1
        simp [Tricorder.Spec.shownDist, f] at this
        exact this.1
      · cases hk
    have := hits_shown hes ha hi.shape h.snap1 hlt [v]
    simp only [hits, List.countP_singleton, hk, if_true] at this
    by_contra hc
    rw [if_neg (by simpa using fun e => hc e.symm)] at this
    cases this

end Tricorder.Whole
