import Verif.Proof.DistApi
/-! # Time stamps, units and single calls -/

namespace Tricorder
open Go Arith Spec

def opStamp : DOp Fl → Time
  | .add _ t | .update _ _ t | .remove _ t => t

theorem op_timeStamp {d : Dist Fl} (h : Shape d) (op : DOp Fl) :
    (d.op op).1.timeStamp =
      if (d.op op).2 ∈ [none, some DPanic.badValue] then opStamp op else d.timeStamp := by
  cases op with
  | add v t =>
    obtain ⟨c, _, he⟩ := add_eq h v t
    simp only [Dist.op, he]; simp [Dist.added, opStamp]
  | remove v t =>
    rcases remove_eq h v t with ⟨_, he⟩ | ⟨_, _, he⟩ | ⟨_, _, _, he⟩ | ⟨_, _, c, _, he⟩ <;>
      simp only [Dist.op, he] <;> simp [Dist.removed, opStamp]
  | update o n t =>
    rcases update_eq h o n t with ⟨_, he⟩ | ⟨_, _, he⟩ | ⟨_, _, c1, _, ⟨_, he⟩ | ⟨c2, _, he⟩⟩ <;>
      simp only [Dist.op, he] <;> simp [Dist.updated, Dist.updateStats, opStamp]

theorem op_shape {d : Dist Fl} (h : Shape d) (op : DOp Fl) : Shape (d.op op).1 := by
  cases op with
  | add v t =>
    obtain ⟨c, _, he⟩ := add_eq h v t
    simp only [Dist.op, he]
    exact ⟨by simp [Dist.added, h.len], h.ne⟩
  | remove v t =>
    rcases remove_eq h v t with ⟨_, he⟩ | ⟨_, _, he⟩ | ⟨_, _, _, he⟩ | ⟨_, _, c, _, he⟩ <;>
      simp only [Dist.op, he]
    · exact h
    · exact h
    · exact ⟨h.len, h.ne⟩
    · exact ⟨by simp [Dist.removed, h.len], h.ne⟩
  | update o n t =>
    rcases update_eq h o n t with ⟨_, he⟩ | ⟨_, _, he⟩ | ⟨_, _, c1, _, ⟨_, he⟩ | ⟨c2, _, he⟩⟩ <;>
      simp only [Dist.op, he]
    · exact h
    · exact h
    · exact ⟨by simp [h.len], h.ne⟩
    · exact ⟨by simp [Dist.updated, Dist.updateStats, h.len], h.ne⟩

theorem setUnit_keeps (d : Dist Fl) (u : MUnit) : (d.setUnit u).1.timeStamp = d.timeStamp ∧
    (d.setUnit u).1.counts = d.counts ∧ (d.setUnit u).1.pieces = d.pieces := by
  unfold Dist.setUnit; split <;> simp

theorem call_noUnit (d : Dist Fl) (h : d.unitSet = false) (c : DCall) (hc : ∀ u, c ≠ .setUnit u) :
    d.call c = (d, some .noUnit) := by
  cases c with
  | setUnit u => exact absurd rfl (hc u)
  | add v ts => simp [Dist.call, Dist.addWithTs, Dist.valueToFloat, h]
  | update o n ts => simp [Dist.call, Dist.updateWithTs, Dist.valueToFloat, h]
  | remove v ts => simp [Dist.call, Dist.removeWithTs, Dist.valueToFloat, h]

theorem valueToFloat_err {d : Dist Fl} {v : Val} {p : DPanic} (h : d.valueToFloat v = .error p) :
    p = .noUnit ∨ p = .typeMismatch ∨ p = .notTime := by
  unfold Dist.valueToFloat at h
  split at h
  · cases h; simp
  · split at h <;> first | (cases h; done) | skip
    · unfold goDurationToFloat at h
      split at h <;> cases h; simp
    · cases h; simp

theorem call_cases (d : Dist Fl) (c : DCall) (hc : ∀ u, c ≠ .setUnit u) :
    (∃ p, (p = .noUnit ∨ p = .typeMismatch ∨ p = .notTime) ∧ d.call c = (d, some p)) ∨
    ∃ op, d.call c = d.op op ∧ stamp c = some (opStamp op) := by
  cases c with
  | setUnit u => exact absurd rfl (hc u)
  | add v ts =>
    simp only [Dist.call, Dist.addWithTs, stamp]
    cases hv : d.valueToFloat v with
    | error p => exact Or.inl ⟨p, valueToFloat_err hv, rfl⟩
    | ok x => exact Or.inr ⟨.add x ts, rfl, rfl⟩
  | remove v ts =>
    simp only [Dist.call, Dist.removeWithTs, stamp]
    cases hv : d.valueToFloat v with
    | error p => exact Or.inl ⟨p, valueToFloat_err hv, rfl⟩
    | ok x => exact Or.inr ⟨.remove x ts, rfl, rfl⟩
  | update o n ts =>
    simp only [Dist.call, Dist.updateWithTs, stamp]
    cases hv : d.valueToFloat o with
    | error p => exact Or.inl ⟨p, valueToFloat_err hv, rfl⟩
    | ok x =>
      simp only
      cases hv2 : d.valueToFloat n with
      | error p => exact Or.inl ⟨p, valueToFloat_err hv2, rfl⟩
      | ok y => exact Or.inr ⟨.update x y ts, rfl, rfl⟩

theorem call_time {d : Dist Fl} (h : Shape d) (c : DCall) :
    Shape (d.call c).1 ∧ (d.call c).1.timeStamp = match stamp c with
      | some ts => if (d.call c).2 ∈ [none, some DPanic.badValue] then ts else d.timeStamp
      | none => d.timeStamp := by
  have herr : ∀ {p : DPanic}, (p = .noUnit ∨ p = .typeMismatch ∨ p = .notTime) →
      ¬ some p ∈ [none, some DPanic.badValue] := by
    rintro p (rfl | rfl | rfl) <;> decide
  by_cases hc : ∀ u, c ≠ .setUnit u
  · rcases call_cases d c hc with ⟨p, hp, he⟩ | ⟨op, he, hst⟩
    · rw [he]
      refine ⟨h, ?_⟩
      cases stamp c with
      | none => rfl
      | some ts => simp only; rw [if_neg (herr hp)]
    · rw [he, hst]
      exact ⟨op_shape h op, op_timeStamp h op⟩
  · push Not at hc
    obtain ⟨u, rfl⟩ := hc
    obtain ⟨a, b, c⟩ := setUnit_keeps d u
    refine ⟨⟨?_, ?_⟩, a⟩
    · show (d.setUnit u).1.counts.length = (d.setUnit u).1.pieces.length
      rw [b, c]; exact h.len
    · show (d.setUnit u).1.pieces ≠ _
      rw [c]; exact h.ne

theorem calls_shape {d : Dist Fl} (h : Shape d) (hist : List DCall) : Shape (d.calls hist) := by
  induction hist generalizing d with
  | nil => exact h
  | cons c cs ih => exact ih (call_time h c).1

theorem trace_bound (d : Dist Fl) (hist : List DCall) :
    number isAdd none (trace d hist) + number isRemove none (trace d hist) +
      number isUpdate none (trace d hist) + number isUpdate (some .badValue) (trace d hist) ≤
      hist.length := by
  induction hist generalizing d with
  | nil => simp [trace, number]
  | cons c cs ih =>
    simp only [trace]
    rw [number_cons isAdd, number_cons isRemove, number_cons isUpdate none,
      number_cons isUpdate (some .badValue)]
    have := ih (d.call c).1
    have := number_le_one c (d.call c).2
    simp only [List.length_cons]; omega

theorem add_ok {d : Dist Fl} {v : Val} {t : Time} (h : (d.addWithTs v t).2 = none) :
    d.unitSet = true ∧ ∃ x, amount d.unit v = some x ∧ d.addWithTs v t = d.add x t := by
  cases hu : d.unitSet with
  | false => simp [Dist.addWithTs, Dist.valueToFloat, hu] at h
  | true =>
    refine ⟨rfl, ?_⟩
    have := valueToFloat_amount d v hu
    cases ha : amount d.unit v with
    | none =>
      rw [ha] at this; obtain ⟨p, hp, _⟩ := this
      simp [Dist.addWithTs, hp] at h
    | some x =>
      rw [ha] at this; simp only [] at this
      exact ⟨x, rfl, by simp [Dist.addWithTs, this]⟩

theorem remove_ok {d : Dist Fl} {v : Val} {t : Time} (h : (d.removeWithTs v t).2 = none) :
    ∃ x, amount d.unit v = some x ∧ d.removeWithTs v t = d.remove x t := by
  cases hu : d.unitSet with
  | false => simp [Dist.removeWithTs, Dist.valueToFloat, hu] at h
  | true =>
    have := valueToFloat_amount d v hu
    cases ha : amount d.unit v with
    | none =>
      rw [ha] at this; obtain ⟨p, hp, _⟩ := this
      simp [Dist.removeWithTs, hp] at h
    | some x =>
      rw [ha] at this; simp only [] at this
      exact ⟨x, rfl, by simp [Dist.removeWithTs, this]⟩

theorem update_ok {d : Dist Fl} {o n : Val} {t : Time} (h : (d.updateWithTs o n t).2 = none) :
    ∃ x y, amount d.unit o = some x ∧ amount d.unit n = some y ∧ d.updateWithTs o n t = d.update x y t := by
  cases hu : d.unitSet with
  | false => simp [Dist.updateWithTs, Dist.valueToFloat, hu] at h
  | true =>
    have h1 := valueToFloat_amount d o hu
    have h2 := valueToFloat_amount d n hu
    cases ha : amount d.unit o with
    | none =>
      rw [ha] at h1; obtain ⟨p, hp, _⟩ := h1
      simp [Dist.updateWithTs, hp] at h
    | some x =>
      rw [ha] at h1; simp only [] at h1
      cases hb : amount d.unit n with
      | none =>
        rw [hb] at h2; obtain ⟨p, hp, _⟩ := h2
        simp [Dist.updateWithTs, hp, h1] at h
      | some y =>
        rw [hb] at h2; simp only [] at h2
        exact ⟨x, y, rfl, rfl, by simp [Dist.updateWithTs, h1, h2]⟩

/-- what a completed add does to the counts a snapshot shows -/
theorem add_counts {l : List Fl} {pieces : List (Piece Fl)} (h : fromEndpoints l = .ok pieces)
    (nc : Bool) (ts : Time) (gid : ℕ) (hist : List DCall) (t : Time) (s s' : Snapshot Fl) (x : Fl)
    (hlen : hist.length < 2 ^ 64 - 1)
    (hs : ((newDist pieces nc ts gid).calls hist).snapshot = some s)
    (hs' : (((newDist pieces nc ts gid).calls hist).add x t).1.snapshot = some s') (i : ℕ) :
    s'.breakdown.map (·.1) = s.breakdown.map (·.1) ∧
    (rangeCounts s')[i]? = (rangeCounts s)[i]?.map (· + if findIndex pieces x = i then 1 else 0) := by
  have hinv := hist_inv h nc ts gid hist (by omega)
  have hb := trace_bound (newDist pieces nc ts gid) hist
  have hpc := (calls_const (newDist pieces nc ts gid) hist).1
  simp only at hinv
  generalize (newDist pieces nc ts gid).calls hist = d at *
  obtain ⟨c, hcnt, he⟩ := add_eq hinv.shape x t
  have hinv' := added_inv hinv (by omega) x t c hcnt
  rw [he] at hs'
  obtain ⟨-, -, f3, f4, -⟩ := snapshot_fields hinv.shape hs
  obtain ⟨-, -, g3, g4, -⟩ := snapshot_fields hinv'.shape hs'
  have hpc' : d.pieces = pieces := hpc
  constructor
  · rw [f3, g3]
    rw [List.map_fst_zip hinv.shape.len.ge, List.map_fst_zip hinv'.shape.len.ge]
    rfl
  · rw [f4, g4]
    have hle := le_sum _ _ _ hcnt
    have hsum := hinv.sum
    have hcn := hinv.cnt
    simp only [Dist.added]
    rw [hpc'] at hcnt ⊢
    rw [u64_eq (by omega)]
    by_cases hi : findIndex pieces x = i
    · subst hi
      have hlt : findIndex pieces x < d.counts.length := by
        rw [hinv.shape.len, hpc']; exact findIndex_lt (pieces_ne h) x
      rw [List.getElem?_set_self hlt, hcnt]
      simp
    · rw [List.getElem?_set_ne hi]
      simp [hi]

/-- what a completed removal does to the counts a snapshot shows -/
theorem remove_counts {l : List Fl} {pieces : List (Piece Fl)} (h : fromEndpoints l = .ok pieces)
    (nc : Bool) (ts : Time) (gid : ℕ) (hist : List DCall) (t : Time) (s s' : Snapshot Fl) (x : Fl)
    (hs : ((newDist pieces nc ts gid).calls hist).snapshot = some s)
    (hok : (((newDist pieces nc ts gid).calls hist).remove x t).2 = none)
    (hs' : (((newDist pieces nc ts gid).calls hist).remove x t).1.snapshot = some s') (i : ℕ) :
    s'.breakdown.map (·.1) = s.breakdown.map (·.1) ∧
    (rangeCounts s)[i]? = (rangeCounts s')[i]?.map (· + if findIndex pieces x = i then 1 else 0) := by
  have hsh := calls_shape (newDist_inv (pieces_ne h) nc ts gid).shape hist
  have hpc := (calls_const (newDist pieces nc ts gid) hist).1
  generalize (newDist pieces nc ts gid).calls hist = d at *
  have hpc' : d.pieces = pieces := hpc
  have hsh' := op_shape hsh (.remove x t)
  simp only [Dist.op] at hsh'
  obtain ⟨-, -, f3, f4, -⟩ := snapshot_fields hsh hs
  obtain ⟨-, -, g3, g4, -⟩ := snapshot_fields hsh' hs'
  constructor
  · rw [f3, g3]
    rw [List.map_fst_zip hsh.len.ge, List.map_fst_zip hsh'.len.ge]
    exact (op_const d (.remove x t)).1
  · rw [f4, g4]
    rcases remove_eq hsh x t with ⟨_, he⟩ | ⟨_, _, he⟩ | ⟨_, _, _, he⟩ | ⟨_, _, c, hc, he⟩ <;>
      rw [he] at hok ⊢ <;> first | (cases hok; done) | skip
    simp only [Dist.removed]
    rw [hpc'] at hc ⊢
    by_cases hi : findIndex pieces x = i
    · subst hi
      have hlt : findIndex pieces x < d.counts.length := by
        rw [hsh.len, hpc']; exact findIndex_lt (pieces_ne h) x
      rw [List.getElem?_set_self hlt, hc]
      simp
    · rw [List.getElem?_set_ne hi]
      simp [hi]

theorem call_unit (d : Dist Fl) (c : DCall) :
    ((d.call c).1.unitSet, (d.call c).1.unit) =
      if d.unitSet then (true, d.unit) else match c with
        | .setUnit u => (true, u)
        | _ => (false, d.unit) := by
  cases hu : d.unitSet with
  | false =>
    cases c with
    | setUnit u => simp [Dist.call, Dist.setUnit, hu]
    | add v ts => rw [call_noUnit d hu _ (by simp)]; simp [hu]
    | remove v ts => rw [call_noUnit d hu _ (by simp)]; simp [hu]
    | update o n ts => rw [call_noUnit d hu _ (by simp)]; simp [hu]
  | true =>
    simp only [if_true]
    have := call_op d hu c
    cases hop : toOp d.unit c with
    | none => rw [hop] at this; rw [this.1, hu]
    | some op =>
      rw [hop] at this; simp only [] at this
      rw [this]
      have hk := op_const d op
      rw [hk.2.2.2.1, hk.2.2.2.2, hu]

theorem calls_unit (d : Dist Fl) (hist : List DCall) :
    ((d.calls hist).unitSet, (d.calls hist).unit) =
      if d.unitSet then (true, d.unit) else match firstUnit hist with
        | some u => (true, u)
        | none => (false, d.unit) := by
  induction hist generalizing d with
  | nil => cases h : d.unitSet <;> simp [Dist.calls, firstUnit, h]
  | cons c cs ih =>
    simp only [Dist.calls]
    rw [ih]
    have hc := call_unit d c
    simp only [Prod.ext_iff] at hc
    cases hu : d.unitSet with
    | true => simp only [hu, if_true] at hc; simp [hc.1, hc.2]
    | false =>
      rw [hu] at hc
      simp only [Bool.false_eq_true, if_false] at hc
      cases c <;> simp_all [firstUnit]

end Tricorder
