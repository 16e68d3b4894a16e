import Verif.Proof.DistMedian
/-! # From API calls to operations on numbers -/

namespace Tricorder
open Go Arith Spec

theorem ofInt_lit (n : ℤ) (h : |n| ≤ 2 ^ 53) : Fl.ofInt b64 n = .fin n := rnd_int n h

theorem valueToFloat_amount (d : Dist Fl) (v : Val) (hset : d.unitSet = true) :
    match amount d.unit v with
    | some x => d.valueToFloat v = .ok x
    | none => ∃ p, d.valueToFloat v = .error p ∧ p ≠ .badValue := by
  have e1 : Fl.ofInt b64 1000000000 = .fin 1000000000 := by
    have := ofInt_lit 1000000000 (by norm_num); simpa using this
  have e2 : Fl.ofInt b64 1000000 = .fin 1000000 := by
    have := ofInt_lit 1000000 (by norm_num); simpa using this
  unfold Dist.valueToFloat
  rw [hset]
  rcases v with _ | ⟨_ | _, v⟩ | _ | _ | _ <;> first
    | (simp [amount]; done)
    | skip
  cases v <;> simp only [amount, Bool.not_true, Bool.false_eq_true, if_false] <;> first
    | exact ⟨_, rfl, by decide⟩
    | skip
  unfold goDurationToFloat
  cases d.unit <;> simp only [e1, e2] <;> first
    | rfl
    | exact ⟨_, rfl, by decide⟩

theorem call_op (d : Dist Fl) (hset : d.unitSet = true) (c : DCall) :
    match toOp d.unit c with
    | some op => d.call c = d.op op
    | none => (d.call c).1 = d ∧ (d.call c).2 ≠ some .badValue := by
  cases c with
  | setUnit u => simp [toOp, Dist.call, Dist.setUnit, hset]
  | add v ts =>
    have h := valueToFloat_amount d v hset
    simp only [toOp, Dist.call, Dist.addWithTs]
    cases ha : amount d.unit v with
    | none => rw [ha] at h; obtain ⟨p, hp, hb⟩ := h; simpa [hp] using hb
    | some x => rw [ha] at h; simp only [] at h; simp [h, Dist.op]
  | remove v ts =>
    have h := valueToFloat_amount d v hset
    simp only [toOp, Dist.call, Dist.removeWithTs]
    cases ha : amount d.unit v with
    | none => rw [ha] at h; obtain ⟨p, hp, hb⟩ := h; simpa [hp] using hb
    | some x => rw [ha] at h; simp only [] at h; simp [h, Dist.op]
  | update o n ts =>
    have h := valueToFloat_amount d o hset
    have h2 := valueToFloat_amount d n hset
    simp only [toOp, Dist.call, Dist.updateWithTs]
    cases ha : amount d.unit o with
    | none => rw [ha] at h; obtain ⟨p, hp, hb⟩ := h; simpa [hp] using hb
    | some x =>
      rw [ha] at h; simp only [] at h
      cases hb : amount d.unit n with
      | none => rw [hb] at h2; obtain ⟨p, hp, hb⟩ := h2; simpa [hp, h] using hb
      | some y => rw [hb] at h2; simp only [] at h2; simp [h, h2, Dist.op]

theorem calls_ops (d : Dist Fl) (hset : d.unitSet = true) (hist : List DCall) :
    d.calls hist = d.ops (hist.filterMap (toOp d.unit)) := by
  induction hist generalizing d with
  | nil => rfl
  | cons c cs ih =>
    have h := call_op d hset c
    simp only [Dist.calls]
    cases hc : toOp d.unit c with
    | none =>
      rw [hc] at h; simp only [] at h
      rw [List.filterMap_cons_none hc, h.1]; exact ih d hset
    | some op =>
      rw [hc] at h; simp only [] at h
      rw [List.filterMap_cons_some hc, h]
      have hk := op_const d op
      rw [ih _ (by rw [hk.2.2.2.2]; exact hset), hk.2.2.2.1]
      rfl

theorem newDist_setUnit (pieces : List (Piece Fl)) (nc : Bool) (ts : Time) (gid : ℕ) (u : MUnit)
    (hist : List DCall) :
    (newDist pieces nc ts gid).calls (.setUnit u :: hist) =
      ({ newDist pieces nc ts gid with unitSet := true, unit := u } : Dist Fl).ops
        (hist.filterMap (toOp u)) := by
  simp only [Dist.calls, Dist.call]
  have : (Dist.setUnit (newDist pieces nc ts gid) u).1 =
    ({ newDist pieces nc ts gid with unitSet := true, unit := u } : Dist Fl) := by
    simp [Dist.setUnit, newDist]
  rw [this, calls_ops _ rfl]

end Tricorder
