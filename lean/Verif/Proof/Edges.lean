import Verif.Spec.Edges
import Verif.Proof.Flow
/-!
# Min and Max of a distribution between two answers: proofs
-/

namespace Tricorder
open Go _root_.Spec Whole

def widen (v : Fl) (e : Fl × Fl) : Fl × Fl :=
  (if Fl.lt v e.1 then v else e.1, if Fl.lt v e.1 then e.2 else if Fl.lt e.2 v then v else e.2)

/-- number of values, Min and Max after a move -/
def edgesAfter (e : ℕ × Fl × Fl) : DOp Fl × Option DPanic → ℕ × Fl × Fl
  | (.add v _, none) => (e.1 + 1, if e.1 = 0 then (v, v) else widen v e.2)
  | (.update _ n _, none) => (e.1, widen n e.2)
  | (.remove _ _, none) => (e.1 - 1, e.2)
  | _ => e

def Dist.edges (d : Dist Fl) : ℕ × Fl × Fl := (d.count, d.min, d.max)

theorem op_edges {d : Dist Fl} (h : Shape d) (hn : d.count + 1 < 18446744073709551616) (o : DOp Fl) :
    (d.op o).1.edges = edgesAfter d.edges (o, (d.op o).2) := by
  cases o with
  | add v t =>
    obtain ⟨c, h1, h2⟩ := add_eq h v t
    simp only [Dist.op, h2, Dist.edges, Dist.added, edgesAfter, u64_eq hn, widen]
    by_cases h0 : d.count = 0
    · simp [h0]
    · simp only [h0, if_false]; rfl
  | remove v t =>
    rcases remove_eq h v t with ⟨_, e⟩ | ⟨_, _, e⟩ | ⟨_, _, _, e⟩ | ⟨hnc, h0, c, h1, e⟩ <;> simp only [Dist.op, e] <;> rfl
  | update o n t =>
    rcases update_eq h o n t with ⟨_, e⟩ | ⟨_, _, e⟩ | ⟨hnc, _, c, h1, ⟨h2, e⟩ | ⟨c', h2, e⟩⟩ <;> simp only [Dist.op, e] <;> rfl

theorem call_edges {d : Dist Fl} (h : Shape d) (hn : d.count + 1 < 18446744073709551616) (c : DCall) :
    (d.call c).1.edges = (((toOp d.unit c).map fun o => (o, (d.call c).2)).toList).foldl edgesAfter d.edges := by
  by_cases hi : toOp d.unit c = none ∨ d.unitSet = false
  · obtain ⟨⟨u, s, e⟩, h2⟩ := call_idle c hi
    rw [e]
    rcases h2 with e2 | e2
    · simp [e2, Dist.edges]
    · rw [e2]
      cases toOp d.unit c with
      | none => simp [Dist.edges]
      | some o => cases o <;> simp [edgesAfter, Dist.edges]
  · push Not at hi
    obtain ⟨o, ho⟩ := Option.ne_none_iff_exists'.mp hi.1
    have := call_op d (by simpa using hi.2) c
    rw [ho] at this
    simp only at this
    rw [ho, this]
    exact op_edges h hn o

theorem calls_edges {d : Dist Fl} {a r u b : ℕ} (h : HInv d a r u b) (hist : List DCall)
    (hb : a + r + u + b + hist.length < 18446744073709551616) :
    (d.calls hist).edges = (dealings d hist).foldl edgesAfter d.edges := by
  induction hist generalizing d a r u b with
  | nil => rfl
  | cons c cs ih =>
    simp only [List.length_cons] at hb
    have h1 := call_inv h (by omega) c
    have h2 := number_le_one c (d.call c).2
    simp only [dealings, Dist.calls, List.foldl_append]
    rw [ih h1 (by omega), call_edges h.shape (by have := h.cnt; omega) c]

/-! ### the moves -/

theorem neverEmpty_tail {c : ℕ} {x : DOp Fl × Option DPanic} {ms : List (DOp Fl × Option DPanic)} (h : NeverEmpty c (x :: ms))
    (e : Fl × Fl) : NeverEmpty (edgesAfter (c, e) x).1 ms := by
  rintro p q rfl
  have h1 := h (x :: p) q rfl
  have h0 := h [] _ rfl
  unfold NotEmpty at *
  obtain ⟨o, r⟩ := x
  rw [List.countP_cons, List.countP_cons] at h1
  cases o <;> cases r <;> simp [GoesOut, ComesIn, edgesAfter] at h1 h0 ⊢ <;> omega

theorem widen_grows (v : Fl) (e : Fl × Fl) :
    ((widen v e).1 = e.1 ∨ Fl.lt (widen v e).1 e.1 = true) ∧ ((widen v e).2 = e.2 ∨ Fl.lt e.2 (widen v e).2 = true) := by
  unfold widen
  constructor
  · simp only; split
    · right; assumption
    · left; rfl
  · simp only; split
    · left; rfl
    · split
      · right; assumption
      · left; rfl

theorem step_grows {c : ℕ} (hc : c ≠ 0) (e : Fl × Fl) (x : DOp Fl × Option DPanic) :
    ((edgesAfter (c, e) x).2.1 = e.1 ∨ Fl.lt (edgesAfter (c, e) x).2.1 e.1 = true) ∧
    ((edgesAfter (c, e) x).2.2 = e.2 ∨ Fl.lt e.2 (edgesAfter (c, e) x).2.2 = true) := by
  obtain ⟨o, r⟩ := x
  cases o <;> cases r <;> simp only [edgesAfter, hc, if_false] <;>
    first
      | exact ⟨.inl trivial, .inl trivial⟩
      | exact widen_grows _ _

theorem edges_grow {c : ℕ} {ms : List (DOp Fl × Option DPanic)} (h : NeverEmpty c ms) (e : Fl × Fl) :
    ((ms.foldl edgesAfter (c, e)).2.1 = e.1 ∨ Fl.lt (ms.foldl edgesAfter (c, e)).2.1 e.1 = true) ∧
    ((ms.foldl edgesAfter (c, e)).2.2 = e.2 ∨ Fl.lt e.2 (ms.foldl edgesAfter (c, e)).2.2 = true) := by
  induction ms generalizing c e with
  | nil => exact ⟨.inl rfl, .inl rfl⟩
  | cons x ms ih =>
    have hc : c ≠ 0 := by have := h [] _ rfl; simp [NotEmpty] at this; omega
    obtain ⟨i1, i2⟩ := ih (neverEmpty_tail h e) (edgesAfter (c, e) x).2
    obtain ⟨s1, s2⟩ := step_grows hc e x
    rw [List.foldl_cons]
    constructor
    · rcases i1 with i1 | i1
      · rw [show (edgesAfter (c, e) x) = ((edgesAfter (c, e) x).1, (edgesAfter (c, e) x).2) from rfl, i1]; exact s1
      · right
        rcases s1 with s1 | s1
        · rw [← s1]; exact i1
        · exact Fl.lt_of_lt_of_le i1 (by unfold Fl.le; rw [s1]; rfl)
    · rcases i2 with i2 | i2
      · rw [show (edgesAfter (c, e) x) = ((edgesAfter (c, e) x).1, (edgesAfter (c, e) x).2) from rfl, i2]; exact s2
      · right
        rcases s2 with s2 | s2
        · rw [← s2]; exact i2
        · exact Fl.lt_of_lt_of_le s2 (by unfold Fl.le; rw [i2]; rfl)

/-- the step for one value -/
theorem widen_best {v : Fl} {e : Fl × Fl} {vs ws : List Fl} (hv : v ≠ .nan) (hle : Fl.le e.1 e.2 = true)
    (h1 : LeastOf e.1 vs) (h2 : GreatestOf e.2 ws) :
    LeastOf (widen v e).1 (vs ++ [v]) ∧ GreatestOf (widen v e).2 (ws ++ [v]) ∧ Fl.le (widen v e).1 (widen v e).2 = true := by
  obtain ⟨n1, n2⟩ := Fl.ne_nan_of_le hle
  have lt_le : ∀ {x y : Fl}, Fl.lt x y = true → Fl.le x y = true := fun h => by unfold Fl.le; rw [h]; rfl
  unfold widen
  cases hlt : Fl.lt v e.1 with
  | true =>
    simp only [if_true]
    refine ⟨⟨by simp, fun y hy => ?_⟩, ⟨by simp [h2.1], fun y hy => ?_⟩, Fl.le_trans (lt_le hlt) hle⟩
    · rcases List.mem_append.mp hy with hy | hy
      · exact Fl.le_trans (lt_le hlt) (h1.2 y hy)
      · obtain rfl := List.mem_singleton.mp hy; exact Fl.le_refl hv
    · rcases List.mem_append.mp hy with hy | hy
      · exact h2.2 y hy
      · obtain rfl := List.mem_singleton.mp hy; exact Fl.le_trans (lt_le hlt) hle
  | false =>
    have hge := (Fl.not_lt hv n1).mp hlt
    simp only [Bool.false_eq_true, if_false]
    refine ⟨⟨by simp [h1.1], fun y hy => ?_⟩, ?_⟩
    · rcases List.mem_append.mp hy with hy | hy
      · exact h1.2 y hy
      · obtain rfl := List.mem_singleton.mp hy; exact hge
    · cases hgt : Fl.lt e.2 v with
      | true =>
        simp only [if_true]
        refine ⟨⟨by simp, fun y hy => ?_⟩, Fl.le_trans hle (lt_le hgt)⟩
        rcases List.mem_append.mp hy with hy | hy
        · exact Fl.le_trans (h2.2 y hy) (lt_le hgt)
        · obtain rfl := List.mem_singleton.mp hy; exact Fl.le_refl hv
      | false =>
        simp only [Bool.false_eq_true, if_false]
        refine ⟨⟨by simp [h2.1], fun y hy => ?_⟩, hle⟩
        rcases List.mem_append.mp hy with hy | hy
        · exact h2.2 y hy
        · obtain rfl := List.mem_singleton.mp hy; exact (Fl.not_lt n2 hv).mp hgt

theorem edges_best {c : ℕ} {ms : List (DOp Fl × Option DPanic)} (h : NeverEmpty c ms) {e : Fl × Fl} {vs ws : List Fl}
    (hle : Fl.le e.1 e.2 = true) (h1 : LeastOf e.1 vs) (h2 : GreatestOf e.2 ws) (hn : ∀ v ∈ ms.filterMap reached, v ≠ .nan) :
    LeastOf (ms.foldl edgesAfter (c, e)).2.1 (vs ++ ms.filterMap reached) ∧
      GreatestOf (ms.foldl edgesAfter (c, e)).2.2 (ws ++ ms.filterMap reached) := by
  induction ms generalizing c e vs ws with
  | nil => simpa using ⟨h1, h2⟩
  | cons x ms ih =>
    have hc : c ≠ 0 := by have := h [] _ rfl; simp [NotEmpty] at this; omega
    have ht := neverEmpty_tail h e
    rw [List.foldl_cons]
    rw [show edgesAfter (c, e) x = ((edgesAfter (c, e) x).1, (edgesAfter (c, e) x).2) from rfl]
    have key : (∃ v, reached x = some v ∧ (edgesAfter (c, e) x).2 = widen v e) ∨
        (reached x = none ∧ (edgesAfter (c, e) x).2 = e) := by
      obtain ⟨o, r⟩ := x
      cases o <;> cases r <;> simp [reached, edgesAfter, hc]
    rcases key with ⟨v, k1, k2⟩ | ⟨k1, k2⟩
    · rw [List.filterMap_cons_some k1] at hn ⊢
      obtain ⟨w1, w2, w3⟩ := widen_best (hn v (by simp)) hle h1 h2
      rw [k2]
      have := ih (c := (edgesAfter (c, e) x).1) (e := widen v e) ht w3 w1 w2 fun y hy => hn y (List.mem_cons_of_mem _ hy)
      simpa using this
    · rw [List.filterMap_cons_none k1] at hn ⊢
      rw [k2]
      exact ih (c := (edgesAfter (c, e) x).1) (e := e) ht hle h1 h2 hn

theorem edges_count {d : Dist Fl} {a r u b : ℕ} (h : HInv d a r u b) (hist : List DCall)
    (hb : a + r + u + b + hist.length < 18446744073709551616) {p q : List (DOp Fl × Option DPanic)} (hp : dealings d hist = p ++ q) :
    (p.foldl edgesAfter d.edges).1 + p.countP GoesOut = d.count + p.countP ComesIn := by
  induction hist generalizing d a r u b p with
  | nil =>
    obtain ⟨rfl, rfl⟩ := List.append_eq_nil_iff.mp hp.symm
    rfl
  | cons c cs ih =>
    simp only [List.length_cons] at hb
    have h1 := call_inv h (by omega) c
    have h2 := number_le_one c (d.call c).2
    obtain ⟨-, -, c3, -⟩ := call_balance h.shape (fun k x hx => by
      have := le_sum _ _ _ hx; have e1 := h.sum; have e2 := h.cnt; omega) (by have := h.cnt; omega) c
    have ce := call_edges h.shape (by have := h.cnt; omega) c
    have fin : ∀ p', dealings (d.call c).1 cs = p' ++ q →
        p = ((toOp d.unit c).map fun o => (o, (d.call c).2)).toList ++ p' →
        (p.foldl edgesAfter d.edges).1 + p.countP GoesOut = d.count + p.countP ComesIn := by
      rintro p' hp' rfl
      have i := ih h1 (by omega) hp'
      rw [List.foldl_append, ← ce, List.countP_append, List.countP_append]
      unfold Counted at c3
      omega
    unfold dealings at hp
    cases ht : toOp d.unit c with
    | none => exact fin p (by simpa [ht] using hp) (by simp [ht])
    | some o =>
      cases p with
      | nil => rfl
      | cons x p' =>
        simp only [ht, Option.map_some, Option.toList_some, List.cons_append, List.nil_append, List.cons.injEq] at hp
        exact fin p' hp.2 (by simp [ht, hp.1])

/-- after the last time that it was empty -/
theorem edges_new {p q : List (DOp Fl × Option DPanic)} {c : ℕ} {e : Fl × Fl} (h : EmptyLast c p q) (hq : q ≠ [])
    (hz : (p.foldl edgesAfter (c, e)).1 = 0) (hcp : p.countP GoesOut = c + p.countP ComesIn)
    (hn : ∀ v ∈ q.filterMap reached, v ≠ .nan) :
    LeastOf ((p ++ q).foldl edgesAfter (c, e)).2.1 (q.filterMap reached) ∧
      GreatestOf ((p ++ q).foldl edgesAfter (c, e)).2.2 (q.filterMap reached) := by
  cases q with
  | nil => exact absurd rfl hq
  | cons x q =>
    have h1 := h.2 [x] q rfl (by simp)
    unfold NotEmpty at h1
    rw [List.countP_append, List.countP_append, hcp] at h1
    have hx : ∃ v t, x = (.add v t, none) := by
      obtain ⟨o, r⟩ := x
      cases o <;> cases r <;> simp [GoesOut, ComesIn] at h1 ⊢
    obtain ⟨v, t, rfl⟩ := hx
    have hv : v ≠ .nan := hn v (by simp [reached])
    rw [List.foldl_append, List.foldl_cons]
    have he : edgesAfter (p.foldl edgesAfter (c, e)) (.add v t, none) = (1, (v, v)) := by
      simp [edgesAfter, hz]
    rw [he]
    have hne : NeverEmpty 1 q := by
      rintro q1 q2 rfl
      have := h.2 ((.add v t, none) :: q1) q2 rfl (by simp)
      unfold NotEmpty at this ⊢
      rw [List.countP_append, List.countP_append, List.countP_cons, List.countP_cons] at this
      simp [GoesOut, ComesIn] at this
      omega
    have hr : List.filterMap reached ((DOp.add v t, none) :: q) = [v] ++ q.filterMap reached := by simp [reached]
    rw [hr] at hn ⊢
    exact edges_best hne (e := (v, v)) (Fl.le_refl hv) ⟨by simp, by simpa using Fl.le_refl hv⟩ ⟨by simp, by simpa using Fl.le_refl hv⟩
      fun y hy => hn y (by simp [hy])

end Tricorder

namespace Tricorder.Whole
open Go _root_.Spec

variable {w : World} {json : Bool} {tr l : List (Item Answer)} {m n : Metric} {i : ℕ} {d1 : Dist Fl} {sn1 sn2 : Snapshot Fl}

theorem Looks.kept (h : Looks w json tr l m n i d1 sn1 sn2) (hne : NeverEmpty sn1.count (l.filterMap (dealing w m.groupId))) :
    sn1.count ≠ 0 ∧ sn2.count ≠ 0 ∧
    (sn2.min = sn1.min ∨ Fl.lt sn2.min sn1.min = true) ∧ (sn2.max = sn1.max ∨ Fl.lt sn1.max sn2.max = true) ∧
    (Fl.le sn1.min sn1.max = true → (∀ v ∈ (l.filterMap (dealing w m.groupId)).filterMap reached, v ≠ .nan) →
      LeastOf sn2.min (sn1.min :: (l.filterMap (dealing w m.groupId)).filterMap reached) ∧
      GreatestOf sn2.max (sn1.max :: (l.filterMap (dealing w m.groupId)).filterMap reached)) := by
  obtain ⟨A, R, U, B, hi, hb⟩ := h.inv
  have hi' := calls_inv hi _ hb
  have ed := calls_edges hi _ hb
  have ec := edges_count hi _ hb (List.append_nil _).symm
  rw [← dealings_eq h.ids h.dist l h.pre, ← h.id] at ed ec
  obtain ⟨f1, -, -, -, f5, -⟩ := snapshot_fields hi.shape h.snap1
  obtain ⟨g1, -, -, -, g5, -⟩ := snapshot_fields hi'.shape h.snap2
  have z1 : d1.count ≠ 0 := by
    have := hne [] _ rfl
    simp [NotEmpty, f1] at this; omega
  have z2 : (d1.calls (asked i (l.filterMap memStep))).count ≠ 0 := by
    have := hne _ [] (List.append_nil _).symm
    unfold NotEmpty at this
    rw [← ed] at ec
    simp only [Dist.edges] at ec
    rw [f1] at this
    omega
  obtain ⟨-, -, f6, f7, -⟩ := f5 z1
  obtain ⟨-, -, g6, g7, -⟩ := g5 z2
  rw [f1] at hne
  have e1 := congrArg (fun z => z.2.1) ed
  have e2 := congrArg (fun z => z.2.2) ed
  simp only [Dist.edges] at e1 e2
  rw [← f6, ← f7] at e1 e2
  rw [← g6] at e1
  rw [← g7] at e2
  obtain ⟨k1, k2⟩ := edges_grow hne (sn1.min, sn1.max)
  rw [← e1] at k1
  rw [← e2] at k2
  refine ⟨by rw [f1]; exact z1, by rw [g1]; exact z2, k1, k2, fun hle hn => ?_⟩
  obtain ⟨n1, n2⟩ := Fl.ne_nan_of_le hle
  have := edges_best hne (e := (sn1.min, sn1.max)) (vs := [sn1.min]) (ws := [sn1.max]) hle
    ⟨by simp, by simpa using Fl.le_refl n1⟩ ⟨by simp, by simpa using Fl.le_refl n2⟩ hn
  rw [← e1, ← e2] at this
  exact this

theorem Looks.anew (h : Looks w json tr l m n i d1 sn1 sn2) {p q : List (DOp Fl × Option DPanic)}
    (hpq : l.filterMap (dealing w m.groupId) = p ++ q) (he : EmptyLast sn1.count p q) (hq : q ≠ [])
    (hn : ∀ v ∈ q.filterMap reached, v ≠ .nan) :
    sn2.count ≠ 0 ∧ LeastOf sn2.min (q.filterMap reached) ∧ GreatestOf sn2.max (q.filterMap reached) := by
  obtain ⟨A, R, U, B, hi, hb⟩ := h.inv
  have hi' := calls_inv hi _ hb
  have ed := calls_edges hi _ hb
  have hpq' : dealings d1 (asked i (l.filterMap memStep)) = p ++ q := by rw [← dealings_eq h.ids h.dist l h.pre, ← h.id]; exact hpq
  have ec := edges_count hi _ hb hpq'
  have ec' := edges_count hi _ hb (List.append_nil _).symm
  rw [hpq'] at ed ec'
  obtain ⟨f1, -, -, -, f5, -⟩ := snapshot_fields hi.shape h.snap1
  obtain ⟨g1, -, -, -, g5, -⟩ := snapshot_fields hi'.shape h.snap2
  rw [f1] at he
  have hz := he.1
  have hz' := he.2 q [] (by simp) hq
  unfold NotEmpty at hz hz'
  have z2 : (d1.calls (asked i (l.filterMap memStep))).count ≠ 0 := by
    rw [← ed] at ec'
    simp only [Dist.edges] at ec'
    omega
  obtain ⟨-, -, g6, g7, -⟩ := g5 z2
  have := edges_new (e := (d1.min, d1.max)) he hq (by show (p.foldl edgesAfter d1.edges).1 = 0; omega) (by omega) hn
  have e1 := congrArg (fun z => z.2.1) ed
  have e2 := congrArg (fun z => z.2.2) ed
  simp only [Dist.edges] at e1 e2
  rw [← e1, ← e2, ← g6, ← g7] at this
  exact ⟨by rw [g1]; exact z2, this⟩

end Tricorder.Whole
