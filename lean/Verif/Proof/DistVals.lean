import Verif.Proof.DistHist
import Mathlib.Algebra.Order.Ring.Rat
import Mathlib.Tactic.Ring
/-! # The values in a distribution -/

namespace Tricorder
open Go Arith Spec

variable {F : Type} [Arith F] [DecidableEq F]

/-- the counters agree with the values `vs` -/
structure CInv (d : Dist F) (vs : List F) : Prop where
  shape : Shape d
  counts : ∀ i, i < d.pieces.length →
    d.counts[i]? = some (vs.countP fun v => decide (findIndex d.pieces v = i))
  count : d.count = vs.length

/-- effect of an operation on the running total -/
def opTotal (t : F) : DOp F → F
  | .add v _ => Arith.add t v
  | .remove v _ => sub t v
  | .update o n _ => Arith.add t (sub n o)

/-- effect of an operation on the least value -/
def opMin (empty : Bool) (mn : F) : DOp F → F
  | .add v _ => if empty then v else if lt v mn then v else mn
  | .remove _ _ => mn
  | .update _ n _ => if lt n mn then n else mn

/-- effect of an operation on the greatest value -/
def opMax (empty : Bool) (mn mx : F) : DOp F → F
  | .add v _ => if empty then v else if lt v mn then mx else if lt mx v then v else mx
  | .remove _ _ => mx
  | .update _ n _ => if lt n mn then mx else if lt mx n then n else mx

theorem newDist_cinv {pieces : List (Piece F)} (hne : pieces ≠ []) (nc : Bool) (ts : Time) (gid : ℕ) :
    CInv (newDist pieces nc ts gid) [] := by
  refine ⟨⟨by simp [newDist], hne⟩, ?_, rfl⟩
  intro i hi
  have : i < pieces.length := hi
  simp [newDist, this]

theorem countP_lt_two64 (p : F → Bool) (vs : List F) (h : vs.length + 1 < 18446744073709551616) :
    vs.countP p + 1 < 18446744073709551616 := by
  have := List.countP_le_length (p := p) (l := vs); omega

theorem op_good {d : Dist F} {vs vs' : List F} (h : CInv d vs)
    (hb : vs.length + 1 < 18446744073709551616) (op : DOp F)
    (hnc : d.isNotCumulative = true ∨ isAddOp op = true) (hcur : current vs [op] = some vs') :
    (d.op op).2 = none ∧ CInv (d.op op).1 vs' ∧ (d.op op).1.total = opTotal d.total op ∧
      (d.op op).1.min = opMin (decide (vs = [])) d.min op ∧
      (d.op op).1.max = opMax (decide (vs = [])) d.min d.max op := by
  have hemp : (d.count = 0) ↔ vs = [] := by rw [h.count]; exact List.length_eq_zero_iff
  cases op with
  | add v ts =>
    simp only [current, Option.some.injEq] at hcur
    subst hcur
    obtain ⟨c, hc, he⟩ := add_eq h.shape v ts
    simp only [Dist.op, he]
    refine ⟨trivial, ⟨⟨by simp [Dist.added, h.shape.len], h.shape.ne⟩, ?_, ?_⟩, rfl, ?_, ?_⟩
    · show ∀ i, i < d.pieces.length → (d.added v ts c).counts[i]? =
        some ((v :: vs).countP fun x => decide (findIndex d.pieces x = i))
      intro i hi'
      have hcc := h.counts _ (findIndex_lt h.shape.ne v)
      rw [hc] at hcc
      have hcc' := Option.some.inj hcc
      simp only [Dist.added, List.countP_cons]
      rw [u64_eq (by rw [hcc']; exact countP_lt_two64 _ _ hb)]
      by_cases hii : findIndex d.pieces v = i
      · subst hii
        rw [List.getElem?_set_self (by rw [h.shape.len]; exact hi')]
        simp [hcc']
      · rw [List.getElem?_set_ne hii, h.counts i hi']
        simp [hii]
    · simp only [Dist.added, List.length_cons, h.count]
      rw [u64_eq (by omega)]
    · simp only [Dist.added, opMin, decide_eq_true_eq, hemp]
    · simp only [Dist.added, opMax, decide_eq_true_eq, hemp]
  | remove v ts =>
    simp only [isAddOp, Bool.false_eq_true, or_false] at hnc
    simp only [current] at hcur
    split at hcur
    case isFalse => cases hcur
    case isTrue hmem =>
      simp only [Option.some.injEq] at hcur
      subst hcur
      have hpos : vs ≠ [] := List.ne_nil_of_mem hmem
      have hcc := h.counts _ (findIndex_lt h.shape.ne v)
      have hp : 0 < vs.countP fun x => decide (findIndex d.pieces x = findIndex d.pieces v) :=
        List.countP_pos_iff.2 ⟨v, hmem, by simp⟩
      rcases remove_eq h.shape v ts with ⟨e, _⟩ | ⟨_, e, _⟩ | ⟨_, _, e, _⟩ | ⟨_, h0, c, hc, he⟩
      · rw [hnc] at e; cases e
      · exact absurd (hemp.1 e) hpos
      · rw [hcc] at e; simp only [Option.some.injEq] at e; omega
      · simp only [Dist.op, he]
        rw [hcc] at hc; simp only [Option.some.injEq] at hc
        refine ⟨trivial, ⟨⟨by simp [Dist.removed, h.shape.len], h.shape.ne⟩, ?_, ?_⟩, rfl, rfl, rfl⟩
        · show ∀ i, i < d.pieces.length → (d.removed v ts c).counts[i]? =
            some ((vs.erase v).countP fun x => decide (findIndex d.pieces x = i))
          intro i hi'
          simp only [Dist.removed]
          rw [List.countP_erase]
          by_cases hii : findIndex d.pieces v = i
          · subst hii
            rw [List.getElem?_set_self (by rw [h.shape.len]; exact hi')]
            simp [hmem]; omega
          · rw [List.getElem?_set_ne hii, h.counts i hi']
            simp [hii]
        · simp only [Dist.removed, h.count, List.length_erase_of_mem hmem]
  | update o n ts =>
    simp only [isAddOp, Bool.false_eq_true, or_false] at hnc
    simp only [current] at hcur
    split at hcur
    case isFalse => cases hcur
    case isTrue hmem =>
      simp only [Option.some.injEq] at hcur
      subst hcur
      have hpos : vs ≠ [] := List.ne_nil_of_mem hmem
      have hco := h.counts _ (findIndex_lt h.shape.ne o)
      have hcn := h.counts _ (findIndex_lt h.shape.ne n)
      have hp : 0 < vs.countP fun x => decide (findIndex d.pieces x = findIndex d.pieces o) :=
        List.countP_pos_iff.2 ⟨o, hmem, by simp⟩
      have hlen : ∀ w, findIndex d.pieces w < d.counts.length := fun w => by
        rw [h.shape.len]; exact findIndex_lt h.shape.ne w
      rcases update_eq h.shape o n ts with ⟨e, _⟩ | ⟨_, e, _⟩ | ⟨_, _, c1, hc1, hrest⟩
      · rw [hnc] at e; cases e
      · exact absurd (hemp.1 e) hpos
      · rw [hcn] at hc1; simp only [Option.some.injEq] at hc1
        have hu : u64 (c1 + 1) = c1 + 1 := u64_eq (by rw [← hc1]; exact countP_lt_two64 _ _ hb)
        rw [hu] at hrest
        have hget : (d.counts.set (findIndex d.pieces n) (c1 + 1))[findIndex d.pieces o]? =
            some ((vs.countP fun x => decide (findIndex d.pieces x = findIndex d.pieces o)) +
              if findIndex d.pieces n = findIndex d.pieces o then 1 else 0) := by
          by_cases hno : findIndex d.pieces n = findIndex d.pieces o
          · rw [hno, List.getElem?_set_self (hlen o)]; simp [← hc1, hno]
          · rw [List.getElem?_set_ne hno, hco]; simp [hno]
        rcases hrest with ⟨hc2, _⟩ | ⟨c2, hc2, he⟩
        · rw [hget] at hc2; simp only [Option.some.injEq] at hc2; omega
        · rw [hget] at hc2; simp only [Option.some.injEq] at hc2
          simp only [Dist.op, he]
          refine ⟨trivial, ⟨⟨by simp [Dist.updated, Dist.updateStats, h.shape.len], h.shape.ne⟩, ?_, ?_⟩,
            rfl, rfl, rfl⟩
          · show ∀ i, i < d.pieces.length → (d.updated o n ts c1 c2).counts[i]? =
              some ((n :: vs.erase o).countP fun x => decide (findIndex d.pieces x = i))
            intro i hi'
            simp only [Dist.updated, Dist.updateStats, hu, List.countP_cons]
            rw [List.countP_erase]
            by_cases hoi : findIndex d.pieces o = i
            · subst hoi
              rw [List.getElem?_set_self (by simpa using hlen o)]
              simp only [Option.some.injEq]
              by_cases hno : findIndex d.pieces n = findIndex d.pieces o
              · simp only [hno, if_true, decide_true] at hc2 ⊢
                rw [if_pos ⟨hmem, trivial⟩]; omega
              · simp only [hno, if_false, decide_false, Bool.false_eq_true] at hc2 ⊢
                rw [if_pos ⟨hmem, by simp⟩]; omega
            · rw [List.getElem?_set_ne hoi]
              by_cases hni : findIndex d.pieces n = i
              · subst hni
                rw [List.getElem?_set_self (hlen n)]
                simp [← hc1, hoi]
              · rw [List.getElem?_set_ne hni, h.counts i hi']
                simp [hni, hoi]
          · simp only [Dist.updated, Dist.updateStats, h.count, List.length_cons,
              List.length_erase_of_mem hmem]
            have : 0 < vs.length := List.length_pos_iff.2 hpos
            omega

theorem current_cons (vs : List F) (op : DOp F) (ops : List (DOp F)) (ws : List F)
    (h : current vs (op :: ops) = some ws) : ∃ vs', current vs [op] = some vs' ∧ current vs' ops = some ws := by
  cases op with
  | add v ts => exact ⟨_, rfl, h⟩
  | remove v ts =>
    simp only [current] at h ⊢
    split at h
    · exact ⟨_, by simp_all, h⟩
    · cases h
  | update o n ts =>
    simp only [current] at h ⊢
    split at h
    · exact ⟨_, by simp_all, h⟩
    · cases h

theorem current_length (vs : List F) (op : DOp F) (vs' : List F) (h : current vs [op] = some vs') :
    vs'.length ≤ vs.length + 1 := by
  cases op with
  | add v ts => simp [current] at h; subst h; simp
  | remove v ts =>
    simp only [current] at h
    split at h <;> simp at h
    subst h
    have := (List.erase_sublist (a := v) (l := vs)).length_le
    omega
  | update o n ts =>
    simp only [current] at h
    split at h <;> simp at h
    subst h
    have := (List.erase_sublist (a := o) (l := vs)).length_le
    simp; omega

/-- Induction over a history whose old values are right: a property of (distribution, values) kept
by every operation holds at the end, no operation panics and the counters agree. -/
theorem ops_good {P : Dist F → List F → Prop} {d : Dist F} {vs ws : List F} (ops : List (DOp F))
    (h : CInv d vs) (hp : P d vs) (hb : vs.length + ops.length < 18446744073709551615)
    (hnc : d.isNotCumulative = true ∨ ops.all isAddOp = true) (hcur : current vs ops = some ws)
    (hstep : ∀ (d d' : Dist F) vs vs' op, op ∈ ops → CInv d vs → P d vs → current vs [op] = some vs' →
      d'.total = opTotal d.total op → d'.min = opMin (decide (vs = [])) d.min op →
      d'.max = opMax (decide (vs = [])) d.min d.max op → d'.pieces = d.pieces → P d' vs') :
    CInv (d.ops ops) ws ∧ P (d.ops ops) ws ∧
      ∀ pre post op, ops = pre ++ op :: post → ((d.ops pre).op op).2 = none := by
  induction ops generalizing d vs with
  | nil =>
    simp only [current, Option.some.injEq] at hcur
    subst hcur
    exact ⟨h, hp, by simp⟩
  | cons op ops ih =>
    obtain ⟨vs', h1, h2⟩ := current_cons vs op ops ws hcur
    simp only [List.length_cons] at hb
    have hnc1 : d.isNotCumulative = true ∨ isAddOp op = true := by
      rcases hnc with hnc | hnc
      · exact Or.inl hnc
      · simp at hnc; exact Or.inr hnc.1
    obtain ⟨g1, g2, g3, g4, g5⟩ := op_good h (by omega) op hnc1 h1
    have hl := current_length vs op vs' h1
    have hc := op_const d op
    obtain ⟨i1, i2, i3⟩ := ih g2 (hstep d _ vs vs' op (by simp) h hp h1 g3 g4 g5 hc.1) (by omega)
      (by
        rw [hc.2.1]
        rcases hnc with hnc | hnc
        · exact Or.inl hnc
        · simp at hnc; exact Or.inr (by simpa using hnc.2)) h2
      (fun d d' vs vs' op ho => hstep d d' vs vs' op (by simp [ho]))
    refine ⟨i1, i2, ?_⟩
    intro pre post o he
    cases pre with
    | nil => simp at he; obtain ⟨rfl, rfl⟩ := he; exact g1
    | cons x pre =>
      simp at he; obtain ⟨rfl, he⟩ := he
      exact i3 pre post o he

/-! ### least and greatest value -/

/-- an arithmetic whose comparison is that of the extended line on its proper numbers -/
class OrdArith (F : Type) [Arith F] where
  ok : F → Prop
  key : F → WithBot (WithTop ℚ)
  lt_iff : ∀ {x y : F}, ok x → ok y → (lt x y = true ↔ key x < key y)

instance : OrdArith Fl where
  ok x := x ≠ .nan
  key := Fl.key
  lt_iff hx hy := Fl.lt_iff hx hy

instance : OrdArith ℚ where
  ok _ := True
  key q := ((q : WithTop ℚ) : WithBot (WithTop ℚ))
  lt_iff {x y} _ _ := by
    rw [WithBot.coe_lt_coe, WithTop.coe_lt_coe]
    exact decide_eq_true_iff

open OrdArith

variable [OrdArith F]

/-- `mn` and `mx` bound the values `vs` -/
def Bounds (mn mx : F) (vs : List F) : Prop :=
  vs ≠ [] → ok mn ∧ ok mx ∧ ∀ v ∈ vs, ok v ∧ key mn ≤ key v ∧ key v ≤ key mx

theorem bounds_cons {mn mx v : F} {vs : List F} (hv : ok v) (h : Bounds mn mx vs) (hne : vs ≠ []) :
    Bounds (if lt v mn then v else mn)
      (if lt v mn then mx else if lt mx v then v else mx) (v :: vs) := by
  intro _
  obtain ⟨h1, h2, h3⟩ := h hne
  obtain ⟨w, hw⟩ := List.exists_mem_of_ne_nil vs hne
  have hmm : key mn ≤ key mx := le_trans (h3 w hw).2.1 (h3 w hw).2.2
  by_cases hl : lt v mn = true
  · rw [if_pos hl, if_pos hl]
    have hk := (lt_iff hv h1).1 hl
    refine ⟨hv, h2, ?_⟩
    intro x hx
    rcases List.mem_cons.1 hx with rfl | hx
    · exact ⟨hv, le_refl _, le_trans hk.le hmm⟩
    · exact ⟨(h3 x hx).1, le_trans hk.le (h3 x hx).2.1, (h3 x hx).2.2⟩
  · rw [if_neg hl, if_neg hl]
    have hk : key mn ≤ key v := not_lt.1 fun hc => hl ((lt_iff hv h1).2 hc)
    by_cases hg : lt mx v = true
    · rw [if_pos hg]
      have hk2 := (lt_iff h2 hv).1 hg
      refine ⟨h1, hv, ?_⟩
      intro x hx
      rcases List.mem_cons.1 hx with rfl | hx
      · exact ⟨hv, hk, le_refl _⟩
      · exact ⟨(h3 x hx).1, (h3 x hx).2.1, le_trans (h3 x hx).2.2 hk2.le⟩
    · rw [if_neg hg]
      have hk2 : key v ≤ key mx := not_lt.1 fun hc => hg ((lt_iff h2 hv).2 hc)
      refine ⟨h1, h2, ?_⟩
      intro x hx
      rcases List.mem_cons.1 hx with rfl | hx
      · exact ⟨hv, hk, hk2⟩
      · exact h3 x hx

theorem bounds_sub {mn mx : F} {vs ws : List F} (h : Bounds mn mx vs) (hs : ∀ x ∈ ws, x ∈ vs) :
    Bounds mn mx ws := by
  intro hne
  obtain ⟨w, hw⟩ := List.exists_mem_of_ne_nil ws hne
  obtain ⟨h1, h2, h3⟩ := h (List.ne_nil_of_mem (hs w hw))
  exact ⟨h1, h2, fun x hx => h3 x (hs x hx)⟩

/-- the value an operation brings in -/
def opValue : DOp F → Option F
  | .add v _ => some v
  | .remove _ _ => none
  | .update _ n _ => some n

theorem bounds_step {mn mx : F} {vs vs' : List F} {op : DOp F} (h : Bounds mn mx vs)
    (hok : ∀ v, opValue op = some v → ok v) (hcur : current vs [op] = some vs') :
    Bounds (opMin (decide (vs = [])) mn op) (opMax (decide (vs = [])) mn mx op) vs' := by
  cases op with
  | add v ts =>
    simp only [current, Option.some.injEq] at hcur
    subst hcur
    by_cases hne : vs = []
    · subst hne
      simp only [opMin, opMax, decide_true, if_true]
      intro _
      have := hok v rfl
      exact ⟨this, this, by simp [this]⟩
    · simp only [opMin, opMax, hne, decide_false, Bool.false_eq_true, if_false]
      exact bounds_cons (hok v rfl) h hne
  | remove v ts =>
    simp only [current] at hcur
    split at hcur <;> simp at hcur
    subst hcur
    exact bounds_sub h fun x hx => List.mem_of_mem_erase hx
  | update o n ts =>
    simp only [current] at hcur
    split at hcur <;> simp at hcur
    next hmem =>
    subst hcur
    have hne : vs ≠ [] := List.ne_nil_of_mem hmem
    have hb := bounds_cons (v := n) (hok n rfl) h hne
    refine bounds_sub hb ?_
    intro x hx
    rcases List.mem_cons.1 hx with rfl | hx
    · simp
    · exact List.mem_cons_of_mem _ (List.mem_of_mem_erase hx)

theorem mem_mentioned {ops : List (DOp F)} {op : DOp F} (h : op ∈ ops) {v : F}
    (hv : opValue op = some v) : v ∈ mentioned ops := by
  induction ops with
  | nil => simp at h
  | cons x ops ih =>
    rcases List.mem_cons.1 h with rfl | h2
    · cases op <;> simp [opValue] at hv <;> subst hv <;> simp [mentioned]
    · have := ih h2
      cases x <;> simp [mentioned, this]

/-- **Bounds** after any history with right old values and proper numbers. -/
theorem ops_bounds {d0 : Dist F} (h0 : CInv d0 [])
    {ops : List (DOp F)} {vs : List F} (hb : ops.length < 18446744073709551615)
    (hnc : d0.isNotCumulative = true ∨ ops.all isAddOp = true) (hcur : current [] ops = some vs)
    (hok : ∀ v ∈ mentioned ops, ok v) :
    let d := d0.ops ops
    CInv d vs ∧ d.pieces = d0.pieces ∧ Bounds d.min d.max vs := by
  intro d
  have h := ops_good (P := fun d vs => d.pieces = d0.pieces ∧ Bounds d.min d.max vs) ops h0
    ⟨rfl, fun h => absurd rfl h⟩ (by simpa using hb) hnc hcur ?_
  · exact ⟨h.1, h.2.1.1, h.2.1.2⟩
  · intro d d' vs vs' op ho hc hp hcur _ hmin hmax hpc
    refine ⟨by rw [hpc]; exact hp.1, ?_⟩
    rw [hmin, hmax]
    exact bounds_step hp.2 (fun v hv => hok v (mem_mentioned ho hv)) hcur

/-- with additions only, the bounds are attained -/
theorem ops_attained {d0 : Dist F} (h0 : CInv d0 [])
    {ops : List (DOp F)} {vs : List F} (hb : ops.length < 18446744073709551615)
    (hnc : ops.all isAddOp = true) (hcur : current [] ops = some vs) :
    let d := d0.ops ops
    vs ≠ [] → d.min ∈ vs ∧ d.max ∈ vs := by
  intro d
  have h := ops_good (P := fun d vs => vs ≠ [] → d.min ∈ vs ∧ d.max ∈ vs) ops h0
    (fun h => absurd rfl h) (by simpa using hb) (Or.inr hnc) hcur ?_
  · exact h.2.1
  · intro d d' vs vs' op ho hc hp hcur _ hmin hmax hpc _
    have : isAddOp op = true := List.all_eq_true.1 hnc op ho
    cases op with
    | add v ts =>
      simp only [current, Option.some.injEq] at hcur
      subst hcur
      rw [hmin, hmax]
      by_cases hv : vs = []
      · simp [opMin, opMax, hv]
      · obtain ⟨h1, h2⟩ := hp hv
        simp only [opMin, opMax, hv, decide_false, Bool.false_eq_true, if_false]
        constructor
        · split <;> simp [h1]
        · repeat' split
          all_goals simp [h2]
    | remove => simp [isAddOp] at this
    | update => simp [isAddOp] at this

/-! ### exact arithmetic -/

/-- the total of exact values -/
theorem ops_sum {d0 : Dist ℚ} (h0 : CInv d0 []) (ht : d0.total = 0)
    {ops : List (DOp ℚ)} {vs : List ℚ} (hb : ops.length < 18446744073709551615)
    (hnc : d0.isNotCumulative = true ∨ ops.all isAddOp = true) (hcur : current [] ops = some vs) :
    (d0.ops ops).total = vs.sum := by
  have h := ops_good (P := fun d vs => d.total = vs.sum) ops h0
    ht (by simpa using hb) hnc hcur ?_
  · exact h.2.1
  · intro d d' vs vs' op ho hc hp hcur htot _ _ _
    rw [htot]
    cases op with
    | add v ts =>
      simp only [current, Option.some.injEq] at hcur
      subst hcur
      show d.total + v = _
      simp [hp, add_comm]
    | remove v ts =>
      simp only [current] at hcur
      split at hcur <;> simp at hcur
      next hm =>
      subst hcur
      show d.total - v = _
      rw [hp, ← List.sum_erase hm]; ring
    | update o n ts =>
      simp only [current] at hcur
      split at hcur <;> simp at hcur
      next hm =>
      subst hcur
      show d.total + (n - o) = _
      rw [hp, ← List.sum_erase hm, List.sum_cons]; ring

end Tricorder
