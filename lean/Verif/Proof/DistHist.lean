import Verif.Proof.Dist
/-! # Counters of a distribution over all histories -/

namespace Tricorder
open Go Arith Spec

variable {F : Type} [Arith F]

theorem sum_set (l : List ℕ) (i : ℕ) (x c : ℕ) (h : l[i]? = some c) :
    (l.set i x).sum + c = l.sum + x := by
  induction l generalizing i with
  | nil => simp at h
  | cons a l ih =>
    cases i with
    | zero => simp at h; subst h; simp; omega
    | succ i => simp only [List.getElem?_cons_succ] at h; simp only [List.set_cons_succ, List.sum_cons]
                have := ih i h; omega

theorem le_sum (l : List ℕ) (i : ℕ) (c : ℕ) (h : l[i]? = some c) : c ≤ l.sum := by
  have := sum_set l i 0 c h; omega

theorem u64_eq {x : ℕ} (h : x < 18446744073709551616) : u64 x = x := Nat.mod_eq_of_lt h

/-- there is a count for every range -/
structure Shape (d : Dist F) : Prop where
  len : d.counts.length = d.pieces.length
  ne : d.pieces ≠ []

theorem Shape.get {d : Dist F} (h : Shape d) (v : F) :
    ∃ c, d.counts[findIndex d.pieces v]? = some c := by
  have := findIndex_lt h.ne v
  rw [← h.len] at this
  exact ⟨_, List.getElem?_eq_getElem this⟩

/-- counters after a history with the given numbers of completed adds, removes, updates and
updates that panicked on an empty range -/
structure HInv (d : Dist F) (a r u b : ℕ) : Prop where
  shape : Shape d
  sum : d.counts.sum = d.count + b
  cnt : d.count + r = a
  gen : d.generation = a + r + u

/-- the result of `add` -/
def Dist.added (d : Dist F) (value : F) (ts : Time) (c : ℕ) : Dist F :=
  { d with
      timeStamp := ts
      counts := d.counts.set (findIndex d.pieces value) (u64 (c + 1))
      total := Arith.add d.total value
      min := if d.count = 0 then value else if lt value d.min then value else d.min
      max := if d.count = 0 then value else if lt value d.min then d.max
        else if lt d.max value then value else d.max
      count := u64 (d.count + 1)
      generation := u64 (d.generation + 1) }

theorem add_eq {d : Dist F} (h : Shape d) (v : F) (ts : Time) :
    ∃ c, d.counts[findIndex d.pieces v]? = some c ∧ d.add v ts = (d.added v ts c, none) := by
  obtain ⟨c, hc⟩ := h.get v
  refine ⟨c, hc, ?_⟩
  unfold Dist.add
  simp only [hc]
  rfl

/-- the result of `remove` when it does not panic -/
def Dist.removed (d : Dist F) (value : F) (ts : Time) (c : ℕ) : Dist F :=
  { d with
      timeStamp := ts
      counts := d.counts.set (findIndex d.pieces value) c
      total := sub d.total value
      count := d.count - 1
      generation := u64 (d.generation + 1) }

theorem remove_eq {d : Dist F} (h : Shape d) (v : F) (ts : Time) :
    (d.isNotCumulative = false ∧ d.remove v ts = (d, some .cumulative)) ∨
    (d.isNotCumulative = true ∧ d.count = 0 ∧ d.remove v ts = (d, some .empty)) ∨
    (d.isNotCumulative = true ∧ d.count ≠ 0 ∧ d.counts[findIndex d.pieces v]? = some 0 ∧
      d.remove v ts = ({ d with timeStamp := ts }, some .badValue)) ∨
    (d.isNotCumulative = true ∧ d.count ≠ 0 ∧
      ∃ c, d.counts[findIndex d.pieces v]? = some (c + 1) ∧ d.remove v ts = (d.removed v ts c, none)) := by
  unfold Dist.remove
  cases hn : d.isNotCumulative with
  | false => left; simp
  | true =>
    right
    by_cases h0 : d.count = 0
    · left; simp [h0]
    · right
      obtain ⟨c, hc⟩ := h.get v
      cases c with
      | zero => left; simp [h0, hc]
      | succ c =>
        right
        refine ⟨rfl, h0, c, hc, ?_⟩
        simp [h0, hc, Dist.removed, hn]

/-- the result of `update` when it does not panic -/
def Dist.updated (d : Dist F) (o n : F) (ts : Time) (c1 c2 : ℕ) : Dist F :=
  Dist.updateStats { d with
    timeStamp := ts
    counts := (d.counts.set (findIndex d.pieces n) (u64 (c1 + 1))).set (findIndex d.pieces o) c2 } o n

theorem update_eq {d : Dist F} (h : Shape d) (o n : F) (ts : Time) :
    (d.isNotCumulative = false ∧ d.update o n ts = (d, some .cumulative)) ∨
    (d.isNotCumulative = true ∧ d.count = 0 ∧ d.update o n ts = (d, some .empty)) ∨
    (d.isNotCumulative = true ∧ d.count ≠ 0 ∧ ∃ c1, d.counts[findIndex d.pieces n]? = some c1 ∧
      (((d.counts.set (findIndex d.pieces n) (u64 (c1 + 1)))[findIndex d.pieces o]? = some 0 ∧
        d.update o n ts = ({ d with
          timeStamp := ts
          counts := d.counts.set (findIndex d.pieces n) (u64 (c1 + 1)) }, some .badValue)) ∨
      (∃ c2, (d.counts.set (findIndex d.pieces n) (u64 (c1 + 1)))[findIndex d.pieces o]? = some (c2 + 1) ∧
        d.update o n ts = (d.updated o n ts c1 c2, none)))) := by
  unfold Dist.update
  cases hn : d.isNotCumulative with
  | false => left; simp
  | true =>
    right
    by_cases h0 : d.count = 0
    · left; simp [h0]
    · right
      obtain ⟨c1, hc1⟩ := h.get n
      refine ⟨rfl, h0, c1, hc1, ?_⟩
      have hlt : findIndex d.pieces o < (d.counts.set (findIndex d.pieces n) (u64 (c1 + 1))).length := by
        have := findIndex_lt h.ne o
        rw [← h.len] at this
        simpa using this
      obtain ⟨c2, hc2⟩ : ∃ c2, (d.counts.set (findIndex d.pieces n) (u64 (c1 + 1)))[findIndex d.pieces o]? = some c2 :=
        ⟨_, List.getElem?_eq_getElem hlt⟩
      cases c2 with
      | zero => left; refine ⟨hc2, ?_⟩; simp [h0, hc1, hc2]
      | succ c2 =>
        right
        refine ⟨c2, hc2, ?_⟩
        simp [h0, hc1, hc2, Dist.updated, hn]

theorem added_inv {d : Dist F} {a r u b : ℕ} (h : HInv d a r u b)
    (hb : a + r + u + b + 1 < 18446744073709551616) (v : F) (ts : Time) (c : ℕ)
    (hc : d.counts[findIndex d.pieces v]? = some c) : HInv (d.added v ts c) (a + 1) r u b := by
  have h1 := h.sum; have h2 := h.cnt; have h3 := h.gen
  have hle := le_sum _ _ _ hc
  have hs := sum_set d.counts (findIndex d.pieces v) (u64 (c + 1)) c hc
  rw [u64_eq (by omega)] at hs
  refine ⟨⟨by simp [Dist.added, h.shape.len], h.shape.ne⟩, ?_, ?_, ?_⟩
  · simp only [Dist.added]; rw [u64_eq (by omega), u64_eq (by omega)]; omega
  · simp only [Dist.added]; rw [u64_eq (by omega)]; omega
  · simp only [Dist.added]; rw [u64_eq (by omega)]; omega

theorem removed_inv {d : Dist F} {a r u b : ℕ} (h : HInv d a r u b)
    (hb : a + r + u + b + 1 < 18446744073709551616) (v : F) (ts : Time) (c : ℕ) (h0 : d.count ≠ 0)
    (hc : d.counts[findIndex d.pieces v]? = some (c + 1)) :
    HInv (d.removed v ts c) a (r + 1) u b := by
  have h1 := h.sum; have h2 := h.cnt; have h3 := h.gen
  have hs := sum_set d.counts (findIndex d.pieces v) c (c + 1) hc
  refine ⟨⟨by simp [Dist.removed, h.shape.len], h.shape.ne⟩, ?_, ?_, ?_⟩
  · simp only [Dist.removed]; omega
  · simp only [Dist.removed]; omega
  · simp only [Dist.removed]; rw [u64_eq (by omega)]; omega

theorem bad_inv {d : Dist F} {a r u b : ℕ} (h : HInv d a r u b)
    (hb : a + r + u + b + 1 < 18446744073709551616) (n : F) (ts : Time) (c : ℕ)
    (hc : d.counts[findIndex d.pieces n]? = some c) :
    HInv { d with
          timeStamp := ts
          counts := d.counts.set (findIndex d.pieces n) (u64 (c + 1)) } a r u (b + 1) := by
  have h1 := h.sum; have h2 := h.cnt; have h3 := h.gen
  have hle := le_sum _ _ _ hc
  have hs := sum_set d.counts (findIndex d.pieces n) (u64 (c + 1)) c hc
  rw [u64_eq (by omega)] at hs
  refine ⟨⟨by simp [h.shape.len], h.shape.ne⟩, ?_, h2, h3⟩
  simp only; rw [u64_eq (by omega)]; omega

theorem updated_inv {d : Dist F} {a r u b : ℕ} (h : HInv d a r u b)
    (hb : a + r + u + b + 1 < 18446744073709551616) (o n : F) (ts : Time) (c1 c2 : ℕ)
    (hc1 : d.counts[findIndex d.pieces n]? = some c1)
    (hc2 : (d.counts.set (findIndex d.pieces n) (u64 (c1 + 1)))[findIndex d.pieces o]? = some (c2 + 1)) :
    HInv (d.updated o n ts c1 c2) a r (u + 1) b := by
  have h1 := h.sum; have h2 := h.cnt; have h3 := h.gen
  have hle := le_sum _ _ _ hc1
  have hs := sum_set d.counts (findIndex d.pieces n) (u64 (c1 + 1)) c1 hc1
  have hs2 := sum_set _ (findIndex d.pieces o) c2 (c2 + 1) hc2
  rw [u64_eq (by omega)] at hs hs2
  refine ⟨⟨by simp [Dist.updated, Dist.updateStats, h.shape.len], h.shape.ne⟩, ?_, h2, ?_⟩
  · simp only [Dist.updated, Dist.updateStats]; rw [u64_eq (by omega)]; omega
  · simp only [Dist.updated, Dist.updateStats]; rw [u64_eq (by omega)]; omega

/-! ### histories of calls -/

theorem number_cons (s : DCall → Bool) (o : Option DPanic) (x : DCall × Option DPanic)
    (t : List (DCall × Option DPanic)) : number s o (x :: t) = number s o [x] + number s o t := by
  simp only [number, List.filter_cons, List.filter_nil]
  split <;> simp <;> omega

theorem setUnit_inv {d : Dist F} {a r u b : ℕ} (h : HInv d a r u b) (m : MUnit) :
    HInv (d.setUnit m).1 a r u b := by
  unfold Dist.setUnit
  split
  · exact ⟨⟨h.shape.len, h.shape.ne⟩, h.sum, h.cnt, h.gen⟩
  · exact h

theorem call_inv {d : Dist Fl} {a r u b : ℕ} (h : HInv d a r u b)
    (hb : a + r + u + b + 1 < 18446744073709551616) (c : DCall) :
    HInv (d.call c).1 (a + number isAdd none [(c, (d.call c).2)])
      (r + number isRemove none [(c, (d.call c).2)]) (u + number isUpdate none [(c, (d.call c).2)])
      (b + number isUpdate (some .badValue) [(c, (d.call c).2)]) := by
  cases c with
  | setUnit m => exact setUnit_inv h m
  | add v ts =>
    simp only [Dist.call, Dist.addWithTs]
    cases hv : d.valueToFloat v with
    | error p => simpa [number, isAdd, isUpdate, isRemove] using h
    | ok x =>
      obtain ⟨c, hc, he⟩ := add_eq h.shape x ts
      simp only [he]
      simpa [number, isAdd, isUpdate, isRemove] using added_inv h hb x ts c hc
  | remove v ts =>
    simp only [Dist.call, Dist.removeWithTs]
    cases hv : d.valueToFloat v with
    | error p => simpa [number, isAdd, isUpdate, isRemove] using h
    | ok x =>
      simp only
      rcases remove_eq h.shape x ts with ⟨_, he⟩ | ⟨_, _, he⟩ | ⟨_, _, _, he⟩ | ⟨_, h0, c, hc, he⟩
      · rw [he]; simpa [number, isAdd, isUpdate, isRemove] using h
      · rw [he]; simpa [number, isAdd, isUpdate, isRemove] using h
      · rw [he]; simp only [number, isAdd, isUpdate, isRemove]
        exact ⟨⟨h.shape.len, h.shape.ne⟩, h.sum, h.cnt, h.gen⟩
      · rw [he]
        simpa [number, isAdd, isUpdate, isRemove] using removed_inv h hb x ts c h0 hc
  | update o n ts =>
    simp only [Dist.call, Dist.updateWithTs]
    cases hv : d.valueToFloat o with
    | error p =>
      have hne : number isUpdate (some .badValue) [(DCall.update o n ts, some p)] = 0 := by
        unfold Dist.valueToFloat at hv
        have : p ≠ .badValue := by
          rintro rfl
          split at hv
          · cases hv
          · split at hv <;> first | (cases hv; done) | skip
            unfold goDurationToFloat at hv
            split at hv <;> cases hv
        simp [number, this]
      rw [hne]
      simpa [number, isAdd, isUpdate, isRemove] using h
    | ok x =>
      simp only
      cases hv2 : d.valueToFloat n with
      | error p =>
        have hne : number isUpdate (some .badValue) [(DCall.update o n ts, some p)] = 0 := by
          unfold Dist.valueToFloat at hv2
          have : p ≠ .badValue := by
            rintro rfl
            split at hv2
            · cases hv2
            · split at hv2 <;> first | (cases hv2; done) | skip
              unfold goDurationToFloat at hv2
              split at hv2 <;> cases hv2
          simp [number, this]
        simp only
        rw [hne]
        simpa [number, isAdd, isUpdate, isRemove] using h
      | ok y =>
        simp only
        rcases update_eq h.shape x y ts with ⟨_, he⟩ | ⟨_, _, he⟩ | ⟨_, _, c1, hc1, ⟨hc2, he⟩ | ⟨c2, hc2, he⟩⟩
        · rw [he]; simpa [number, isAdd, isUpdate, isRemove] using h
        · rw [he]; simpa [number, isAdd, isUpdate, isRemove] using h
        · rw [he]; simpa [number, isAdd, isUpdate, isRemove] using bad_inv h hb y ts c1 hc1
        · rw [he]; simpa [number, isAdd, isUpdate, isRemove] using updated_inv h hb x y ts c1 c2 hc1 hc2

theorem number_le_one (c : DCall) (o : Option DPanic) :
    number isAdd none [(c, o)] + number isRemove none [(c, o)] + number isUpdate none [(c, o)] +
      number isUpdate (some .badValue) [(c, o)] ≤ 1 := by
  rcases o with _ | (_ | _ | _ | _ | _ | _ | _) <;> cases c <;> simp [number, isAdd, isRemove, isUpdate]

theorem calls_inv {d : Dist Fl} {a r u b : ℕ} (h : HInv d a r u b) (hist : List DCall)
    (hb : a + r + u + b + hist.length < 18446744073709551616) :
    HInv (d.calls hist) (a + number isAdd none (trace d hist)) (r + number isRemove none (trace d hist))
      (u + number isUpdate none (trace d hist)) (b + number isUpdate (some .badValue) (trace d hist)) := by
  induction hist generalizing d a r u b with
  | nil => simpa [trace, Dist.calls, number] using h
  | cons c cs ih =>
    simp only [List.length_cons] at hb
    have h1 := call_inv h (by omega) c
    have h2 := number_le_one c (d.call c).2
    have := ih h1 (by omega)
    simp only [trace, Dist.calls]
    rw [number_cons isAdd, number_cons isRemove, number_cons isUpdate none,
      number_cons isUpdate (some .badValue), ← Nat.add_assoc, ← Nat.add_assoc, ← Nat.add_assoc,
      ← Nat.add_assoc]
    exact this

theorem newDist_inv {pieces : List (Piece F)} (hne : pieces ≠ []) (nc : Bool) (ts : Time) (gid : ℕ) :
    HInv (newDist pieces nc ts gid) 0 0 0 0 := by
  refine ⟨⟨by simp [newDist], hne⟩, by simp [newDist], rfl, rfl⟩

theorem pieces_ne {l : List F} {pieces : List (Piece F)} (h : fromEndpoints l = .ok pieces) :
    pieces ≠ [] := by
  have := (fromEndpoints_length h).1
  intro hc; rw [hc] at this; simp at this

theorem hist_inv {l : List Fl} {pieces : List (Piece Fl)} (h : fromEndpoints l = .ok pieces)
    (nc : Bool) (ts : Time) (gid : ℕ) (hist : List DCall) (hb : hist.length < 2 ^ 64) :
    let d := newDist pieces nc ts gid
    HInv (d.calls hist) (number isAdd none (trace d hist)) (number isRemove none (trace d hist))
      (number isUpdate none (trace d hist)) (number isUpdate (some .badValue) (trace d hist)) := by
  intro d
  have := calls_inv (newDist_inv (pieces_ne h) nc ts gid) hist (by simpa using hb)
  simpa using this

/-! ### fields that never change -/

theorem op_const (d : Dist F) (o : DOp F) : (d.op o).1.pieces = d.pieces ∧
    (d.op o).1.isNotCumulative = d.isNotCumulative ∧ (d.op o).1.groupId = d.groupId ∧
    (d.op o).1.unit = d.unit ∧ (d.op o).1.unitSet = d.unitSet := by
  cases o with
  | add v ts =>
    simp only [Dist.op, Dist.add]
    split <;> simp
  | update o n ts =>
    simp only [Dist.op, Dist.update, Dist.updateStats]
    repeat' split
    all_goals simp
  | remove v ts =>
    simp only [Dist.op, Dist.remove]
    repeat' split
    all_goals simp

theorem call_const (d : Dist Fl) (c : DCall) : (d.call c).1.pieces = d.pieces ∧
    (d.call c).1.isNotCumulative = d.isNotCumulative ∧ (d.call c).1.groupId = d.groupId := by
  cases c with
  | setUnit m => simp only [Dist.call, Dist.setUnit]; split <;> simp
  | add v ts =>
    simp only [Dist.call, Dist.addWithTs]
    split
    · simp
    · next x _ => have := op_const d (.add x ts); simp only [Dist.op] at this; simp [this]
  | update o n ts =>
    simp only [Dist.call, Dist.updateWithTs]
    split
    · simp
    · next x _ =>
      split
      · simp
      · next y _ => have := op_const d (.update x y ts); simp only [Dist.op] at this; simp [this]
  | remove v ts =>
    simp only [Dist.call, Dist.removeWithTs]
    split
    · simp
    · next x _ => have := op_const d (.remove x ts); simp only [Dist.op] at this; simp [this]

theorem calls_const (d : Dist Fl) (hist : List DCall) : (d.calls hist).pieces = d.pieces ∧
    (d.calls hist).isNotCumulative = d.isNotCumulative ∧ (d.calls hist).groupId = d.groupId := by
  induction hist generalizing d with
  | nil => simp [Dist.calls]
  | cons c cs ih => simp only [Dist.calls]; have := ih (d.call c).1; have := call_const d c; simp_all

/-! ### the median -/

theorem findPiece_some (valueIdx : ℕ) (cs : List ℕ) (start pieceIdx : ℕ)
    (h1 : start ≤ valueIdx) (h2 : valueIdx < start + cs.sum)
    (h3 : start + cs.sum < 18446744073709551616) :
    ∃ i c, cs[i]? = some c ∧ valueIdx < start + (cs.take i).sum + c ∧ start + (cs.take i).sum ≤ valueIdx ∧
      findPiece valueIdx cs start pieceIdx = some (pieceIdx + i, start + (cs.take i).sum, c) := by
  induction cs generalizing start pieceIdx with
  | nil => simp at h2; omega
  | cons c cs ih =>
    simp only [List.sum_cons] at h2 h3
    have hs : sub64 valueIdx start = valueIdx - start := by
      unfold sub64 u64; omega
    unfold findPiece
    rw [hs]
    by_cases hc : c ≤ valueIdx - start
    · rw [if_pos hc, u64_eq (by omega)]
      obtain ⟨i, c', g1, g2, g3, g4⟩ := ih (start + c) (pieceIdx + 1) (by omega) (by omega) (by omega)
      refine ⟨i + 1, c', by simpa using g1, ?_, ?_, ?_⟩
      · simp only [List.take_succ_cons, List.sum_cons]; omega
      · simp only [List.take_succ_cons, List.sum_cons]; omega
      · rw [g4]; simp only [List.take_succ_cons, List.sum_cons]
        simp only [Option.some.injEq, Prod.mk.injEq, and_true]; omega
    · rw [if_neg hc]
      exact ⟨0, c, by simp, by simp; omega, by simpa using h1, by simp⟩

/-- `indexToValue` in terms of the piece found -/
theorem indexToValue_some {d : Dist F} (hs : Shape d) (valueIdx : ℕ) (h2 : valueIdx < d.counts.sum)
    (h3 : d.counts.sum < 18446744073709551615) :
    ∃ i k c p, d.counts[i]? = some c ∧ k < c ∧ c ≤ d.counts.sum ∧ d.pieces[i]? = some p ∧
      d.indexToValue valueIdx = some (interpolate
        (if i = 0 then d.min else fmax p.start d.min)
        (if i = 0 then fmin p.stop d.max else if i = d.pieces.length - 1 then d.max else fmin p.stop d.max)
        (div (Arith.ofNat (k + 1)) (Arith.ofNat (c + 1)))) := by
  obtain ⟨i, c, g1, g2, g3, g4⟩ := findPiece_some valueIdx d.counts 0 0 (by omega) (by omega) (by omega)
  have hi : i < d.counts.length := by
    by_contra hc; rw [List.getElem?_eq_none (by omega)] at g1; cases g1
  have hp : i < d.pieces.length := by rw [← hs.len]; exact hi
  have hle := le_sum _ _ _ g1
  refine ⟨i, valueIdx - (d.counts.take i).sum, c, d.pieces[i], g1, by omega, hle, by simp [hp], ?_⟩
  unfold Dist.indexToValue
  simp only [Nat.zero_add] at g2 g3 g4
  rw [g4]
  have hsub : sub64 valueIdx (d.counts.take i).sum = valueIdx - (d.counts.take i).sum := by
    unfold sub64 u64; omega
  simp only [hsub]
  rw [u64_eq (by omega), u64_eq (by omega)]
  by_cases h0 : i = 0
  · subst h0; simp [hp]
  · simp only [h0, if_false]
    by_cases h1 : i = d.pieces.length - 1
    · simp only [← h1, if_true]; simp [hp]
    · simp [h1, hp]

theorem snapshot_some {d : Dist F} (hs : Shape d) (h2 : d.count ≤ d.counts.sum)
    (h3 : d.counts.sum < 18446744073709551615) : d.snapshot.isSome = true := by
  unfold Dist.snapshot
  rw [if_neg (by rw [hs.len]; omega)]
  simp only
  by_cases h0 : d.count = 0
  · simp [h0]
  · rw [if_neg h0]
    have hm : d.calculateMedian.isSome = true := by
      unfold Dist.calculateMedian
      split
      · rfl
      · split
        · obtain ⟨_, _, _, _, _, _, _, _, e1⟩ := indexToValue_some hs (d.count / 2 - 1) (by omega) h3
          obtain ⟨_, _, _, _, _, _, _, _, e2⟩ := indexToValue_some hs (d.count / 2) (by omega) h3
          rw [e1, e2]; rfl
        · obtain ⟨_, _, _, _, _, _, _, _, e2⟩ := indexToValue_some hs (d.count / 2) (by omega) h3
          rw [e2]; rfl
    cases hc : d.calculateMedian with
    | none => rw [hc] at hm; cases hm
    | some m => rfl

/-- what a snapshot copies -/
theorem snapshot_fields {d : Dist F} (hs : Shape d) {s : Snapshot F} (h : d.snapshot = some s) :
    s.count = d.count ∧ s.timeStamp = d.timeStamp ∧ s.breakdown = d.pieces.zip d.counts ∧
    rangeCounts s = d.counts ∧
    (d.count ≠ 0 → s.generation = d.generation ∧ s.isNotCumulative = d.isNotCumulative ∧
      s.min = d.min ∧ s.max = d.max ∧ s.sum = d.total ∧
      s.average = div d.total (Arith.ofNat d.count) ∧ d.calculateMedian = some s.median) ∧
    (d.count = 0 → s.generation = 0 ∧ s.isNotCumulative = false) := by
  have hz : (d.pieces.zip d.counts).map (·.2) = d.counts :=
    List.map_snd_zip (by rw [hs.len])
  unfold Dist.snapshot at h
  rw [if_neg (by rw [hs.len]; omega)] at h
  simp only at h
  by_cases h0 : d.count = 0
  · rw [if_pos h0] at h
    cases h
    simp [rangeCounts, hz, h0]
  · rw [if_neg h0] at h
    cases hc : d.calculateMedian with
    | none => rw [hc] at h; cases h
    | some m => rw [hc] at h; cases h; simp [rangeCounts, hz, h0]

end Tricorder
