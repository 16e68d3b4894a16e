import Verif.Spec.Dist
import Verif.Proof.Float
import Mathlib.Tactic.Linarith
/-! # Lemmas about bucketers and distributions -/

namespace Tricorder
open Go Arith Spec

/-! ### binary search -/

theorem searchLoop_spec (f : ℕ → Bool) (k i j : ℕ) (hij : i ≤ j) (hk : j - i ≤ k) :
    i ≤ searchLoop f k i j ∧ searchLoop f k i j ≤ j ∧
    (searchLoop f k i j = i ∨ f (searchLoop f k i j - 1) = false) ∧
    (searchLoop f k i j = j ∨ f (searchLoop f k i j) = true) := by
  induction k generalizing i j with
  | zero =>
    have : i = j := by omega
    subst this; simp [searchLoop]
  | succ k ih =>
    unfold searchLoop
    split
    case isFalse h =>
      have : i = j := by omega
      subst this; simp
    case isTrue h =>
      simp only
      cases hf : f ((i + j) / 2) with
      | false =>
        obtain ⟨a, b, c, d⟩ := ih ((i + j) / 2 + 1) j (by omega) (by omega)
        simp only [Bool.not_false, if_true]
        refine ⟨by omega, b, ?_, d⟩
        right
        rcases c with c | c
        · rw [c]; simpa using hf
        · exact c
      | true =>
        obtain ⟨a, b, c, d⟩ := ih i ((i + j) / 2) (by omega) (by omega)
        simp only [Bool.not_true, Bool.false_eq_true, if_false]
        refine ⟨a, by omega, c, ?_⟩
        right
        rcases d with d | d
        · rw [d]; exact hf
        · exact d

theorem search_spec (n : ℕ) (f : ℕ → Bool) :
    search n f ≤ n ∧ (search n f = 0 ∨ f (search n f - 1) = false) ∧
    (search n f = n ∨ f (search n f) = true) := by
  obtain ⟨_, b, c, d⟩ := searchLoop_spec f n 0 n (by omega) (by omega)
  exact ⟨b, c, d⟩

/-! ### pieces -/

variable {F : Type} [Arith F]

theorem pieceLoop_get (lower : F) (rest : List F) (i : ℕ) :
    (pieceLoop lower rest)[i]? = range (lower :: rest) (i + 1) := by
  induction rest generalizing lower i with
  | nil => cases i <;> simp [pieceLoop, range]
  | cons upper rest ih =>
    cases i with
    | zero => simp [pieceLoop, range]
    | succ i => rw [pieceLoop]; simp only [List.getElem?_cons_succ]; rw [ih]; simp [range]

theorem fromEndpoints_get {l : List F} {pieces : List (Piece F)}
    (h : fromEndpoints l = .ok pieces) (i : ℕ) : pieces[i]? = range l i := by
  cases l with
  | nil => simp [fromEndpoints] at h
  | cons e es =>
    simp only [fromEndpoints, Res.ok.injEq] at h
    subst h
    cases i with
    | zero => simp [range]
    | succ i => simp only [List.getElem?_cons_succ]; exact pieceLoop_get e es i

theorem pieceLoop_length (lower : F) (rest : List F) : (pieceLoop lower rest).length = rest.length + 1 := by
  induction rest generalizing lower with
  | nil => rfl
  | cons u rest ih => simp [pieceLoop, ih]

theorem fromEndpoints_length {l : List F} {pieces : List (Piece F)}
    (h : fromEndpoints l = .ok pieces) : pieces.length = l.length + 1 ∧ l ≠ [] := by
  cases l with
  | nil => simp [fromEndpoints] at h
  | cons e es =>
    simp only [fromEndpoints, Res.ok.injEq] at h
    subst h
    simp [pieceLoop_length]

theorem range_lt {l : List F} {i : ℕ} (h : i < l.length) : ∃ p, range l i = some p ∧ p.stop = l[i] ∧
    p.last = false := by
  cases i with
  | zero => cases l with
    | nil => simp at h
    | cons e es => exact ⟨_, rfl, rfl, rfl⟩
  | succ i =>
    refine ⟨⟨l[i], l[i+1], false, false⟩, ?_, rfl, rfl⟩
    have : i < l.length := by omega
    simp [range, h, this]

theorem findIndex_le (pieces : List (Piece F)) (v : F) : findIndex pieces v ≤ pieces.length - 1 :=
  (search_spec _ _).1

theorem findIndex_lt {pieces : List (Piece F)} (hne : pieces ≠ []) (v : F) :
    findIndex pieces v < pieces.length := by
  have := findIndex_le pieces v
  have : 0 < pieces.length := List.length_pos_iff.2 hne
  omega

/-- the search result in terms of the endpoints -/
theorem findIndex_ends {l : List F} {pieces : List (Piece F)}
    (h : fromEndpoints l = .ok pieces) (v : F) :
    findIndex pieces v ≤ l.length ∧
    (∀ e, 0 < findIndex pieces v → l[findIndex pieces v - 1]? = some e → lt v e = false) ∧
    (∀ e, l[findIndex pieces v]? = some e → lt v e = true) := by
  obtain ⟨hl, hne⟩ := fromEndpoints_length h
  have hf : ∀ i e, l[i]? = some e → belowStop pieces v i = lt v e := by
    intro i e he
    have hi : i < l.length := by
      by_contra hc; rw [List.getElem?_eq_none (by omega)] at he; cases he
    obtain ⟨p, hp, hs, _⟩ := range_lt hi
    rw [belowStop, fromEndpoints_get h, hp]
    simp only [hs]
    rw [List.getElem?_eq_getElem hi] at he; cases he; rfl
  obtain ⟨a, b, c⟩ := search_spec (pieces.length - 1) (belowStop pieces v)
  change findIndex pieces v ≤ _ at a
  change (findIndex pieces v = 0 ∨ belowStop pieces v (findIndex pieces v - 1) = false) at b
  change (findIndex pieces v = _ ∨ belowStop pieces v (findIndex pieces v) = true) at c
  refine ⟨by omega, ?_, ?_⟩
  · intro e hpos he
    rcases b with b | b
    · omega
    · exact (hf _ e he).symm.trans b
  · intro e he
    rcases c with c | c
    · rw [List.getElem?_eq_none (by omega)] at he; cases he
    · exact (hf _ e he).symm.trans c

/-- the piece found, in any arithmetic -/
theorem findIndex_piece {l : List F} {pieces : List (Piece F)}
    (h : fromEndpoints l = .ok pieces) (v : F) :
    ∃ p, pieces[findIndex pieces v]? = some p ∧ (p.first = true ∨ lt v p.start = false) ∧
      (p.last = true ∨ lt v p.stop = true) := by
  obtain ⟨a, b, c⟩ := findIndex_ends h v
  obtain ⟨_, hne⟩ := fromEndpoints_length h
  rw [fromEndpoints_get h]
  generalize findIndex pieces v = i at *
  cases i with
  | zero =>
    cases l with
    | nil => exact absurd rfl hne
    | cons e es => exact ⟨_, rfl, Or.inl rfl, Or.inr (c e rfl)⟩
  | succ i =>
    have hi : i < l.length := by omega
    have hb := b l[i] (by omega) (by simp [hi])
    by_cases hi2 : i + 1 < l.length
    · refine ⟨⟨l[i], l[i+1], false, false⟩, by simp [range, hi, hi2], Or.inr hb, Or.inr ?_⟩
      exact c _ (by simp [hi2])
    · refine ⟨⟨l[i], lit 0, false, true⟩, ?_, Or.inr hb, Or.inl rfl⟩
      have : l[i+1]? = none := List.getElem?_eq_none (by omega)
      simp [range, hi, this]

/-! ### uniqueness for ascending float endpoints -/

theorem findIndex_nan {l : List Fl} {pieces : List (Piece Fl)} (h : fromEndpoints l = .ok pieces) :
    findIndex pieces .nan = l.length := by
  obtain ⟨a, b, c⟩ := findIndex_ends h Fl.nan
  by_contra hc
  have hi : findIndex pieces Fl.nan < l.length := by omega
  have := c l[findIndex pieces Fl.nan] (by simp [hi])
  change Fl.lt _ _ = true at this
  rw [Fl.lt_nan_left] at this; cases this

theorem contains_unique {l : List Fl} {pieces : List (Piece Fl)} (h : fromEndpoints l = .ok pieces)
    (hasc : Ascending l) {v : Fl} (hv : v ≠ .nan) {i j : ℕ} {p q : Piece Fl}
    (hp : pieces[i]? = some p) (hq : pieces[j]? = some q) (cp : Contains p v) (cq : Contains q v) :
    i = j := by
  have key : ∀ (i j : ℕ) (p q : Piece Fl), pieces[i]? = some p → pieces[j]? = some q → Contains p v → Contains q v →
      ¬ i < j := by
    intro i j p q hp hq cp cq hij
    rw [fromEndpoints_get h] at hp hq
    have hj : j < pieces.length := by
      have := fromEndpoints_get h j
      rw [hq] at this
      by_contra hc
      rw [List.getElem?_eq_none (by omega)] at this; cases this
    have hlen := (fromEndpoints_length h).1
    obtain ⟨p', hp', hstop, hlast⟩ := range_lt (l := l) (i := i) (by omega)
    rw [hp] at hp'; cases hp'
    have h1 : Fl.lt v l[i] = true := by
      rcases cp.2 with c | c
      · rw [hlast] at c; cases c
      · rwa [hstop] at c
    obtain ⟨j, rfl⟩ : ∃ k, j = k + 1 := ⟨j - 1, by omega⟩
    have hq2 : q.first = false ∧ q.start = l[j] := by
      simp only [range] at hq
      have hjl : j < l.length := by omega
      split at hq
      · next a b c d =>
        rw [List.getElem?_eq_getElem hjl] at c
        cases c; cases hq; exact ⟨rfl, rfl⟩
      · next a b c =>
        rw [List.getElem?_eq_getElem hjl] at b
        cases b; cases hq; exact ⟨rfl, rfl⟩
      · cases hq
    have h2 : Fl.le l[j] v = true := by
      rcases cq.1 with c | c
      · rw [hq2.1] at c; cases c
      · rwa [hq2.2] at c
    have h3 : Fl.le l[i] l[j] = true := by
      rcases Nat.lt_or_eq_of_le (Nat.lt_succ_iff.1 hij) with hlt | rfl
      · exact List.pairwise_iff_getElem.1 hasc.2 i j (by omega) (by omega) hlt
      · exact Fl.le_refl (hasc.1 _ (List.getElem_mem _))
    have h4 := Fl.lt_of_lt_of_le h1 (Fl.le_trans h3 h2)
    rw [Fl.lt_iff hv hv] at h4
    exact lt_irrefl _ h4
  rcases Nat.lt_trichotomy i j with hlt | heq | hgt
  · exact absurd hlt (key i j p q hp hq cp cq)
  · exact heq
  · exact absurd hgt (key j i q p hq hp cq cp)

theorem mem_range_ends {l : List Fl} {i : ℕ} {p : Piece Fl} (h : range l i = some p)
    (hf : p.first = false) : p.start ∈ l := by
  cases i with
  | zero => cases l <;> simp [range] at h; subst h; simp at hf
  | succ i =>
    simp only [range] at h
    split at h
    · next a b c d => cases h; exact List.mem_of_getElem? c
    · next a b c => cases h; exact List.mem_of_getElem? b
    · cases h

theorem findIndex_contains {l : List Fl} {pieces : List (Piece Fl)}
    (h : fromEndpoints l = .ok pieces) (hasc : Ascending l) {v : Fl} (hv : v ≠ .nan) :
    ∃ p, pieces[findIndex pieces v]? = some p ∧ Contains p v := by
  obtain ⟨p, hp, h1, h2⟩ := findIndex_piece h v
  refine ⟨p, hp, ?_, h2⟩
  rcases h1 with h1 | h1
  · exact Or.inl h1
  · cases hf : p.first with
    | true => exact Or.inl rfl
    | false =>
      right
      rw [fromEndpoints_get h] at hp
      exact (Fl.not_lt hv (hasc.1 _ (mem_range_ends hp hf))).1 h1

end Tricorder
