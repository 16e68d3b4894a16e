import Verif.Proof.DistTime
/-!
# C25–C34: distributions

`newArbitraryBucketer l = .ok pieces` ranges over all bucketers: every constructor ends in it
(C35).  `(newDist pieces nc ts gid).calls hist` is a distribution after an arbitrary history of calls
by any number of goroutines (the lock serialises them), panics recovered by the callers.
-/

namespace Tricorder
open Go Spec

/-! ## C25 -/

/-- **C25 (one range)** For ascending endpoints every value other than NaN lies in exactly one
range. -/
theorem C25_exactly_one_range (l : List Fl) (pieces : List (Piece Fl))
    (h : newArbitraryBucketer l = .ok pieces) (hasc : Ascending l) (v : Fl) (hv : v ≠ .nan) :
    ∃ (i : ℕ) (p : Piece Fl), pieces[i]? = some p ∧ Contains p v ∧
      ∀ (j : ℕ) (q : Piece Fl), pieces[j]? = some q → Contains q v → j = i := by
  obtain ⟨p, hp, hc⟩ := findIndex_contains h hasc hv
  exact ⟨_, p, hp, hc, fun j q hq cq => contains_unique h hasc hv hq hp cq hc⟩

/-- **C25 (add)** Whatever happened to a distribution before, an Add of a value other than NaN that
returns normally raises the count of the range containing the value by one, changes no other count
and leaves the ranges alone. -/
theorem C25_add_counts_in_its_range (l : List Fl) (pieces : List (Piece Fl))
    (h : newArbitraryBucketer l = .ok pieces) (hasc : Ascending l)
    (nc : Bool) (ts : Time) (gid : ℕ) (hist : List DCall) (hlen : hist.length < 2 ^ 64 - 1)
    (v : Val) (t : Time) (s s' : Snapshot Fl) :
    let d := (newDist pieces nc ts gid).calls hist
    let r := d.addWithTs v t
    r.2 = none → d.snapshot = some s → r.1.snapshot = some s' →
    ∃ x, amount d.unit v = some x ∧ (x ≠ .nan → s'.breakdown.map (·.1) = s.breakdown.map (·.1) ∧
      ∀ (i : ℕ) (p : Piece Fl), pieces[i]? = some p →
        (rangeCounts s')[i]? = (rangeCounts s)[i]?.map (· + if Contains p x then 1 else 0)) := by
  intro d r hr hs hs'
  obtain ⟨hset, x, hx, he⟩ := add_ok hr
  refine ⟨x, hx, fun hn => ?_⟩
  change (d.addWithTs v t).1.snapshot = some s' at hs'
  rw [he] at hs'
  refine ⟨(add_counts h nc ts gid hist t s s' x hlen hs hs' 0).1, fun i p hp => ?_⟩
  rw [(add_counts h nc ts gid hist t s s' x hlen hs hs' i).2]
  obtain ⟨q, hq, hc⟩ := findIndex_contains h hasc hn
  have : findIndex pieces x = i ↔ Contains p x :=
    ⟨fun e => by subst e; rw [hq] at hp; cases hp; exact hc,
     fun c => (contains_unique h hasc hn hp hq c hc).symm⟩
  simp only [this]

/-- **C25 (NaN)** NaN is counted in the last range. -/
theorem C25_nan_counts_in_last_range (l : List Fl) (pieces : List (Piece Fl))
    (h : newArbitraryBucketer l = .ok pieces)
    (nc : Bool) (ts : Time) (gid : ℕ) (hist : List DCall) (hlen : hist.length < 2 ^ 64 - 1)
    (v : Val) (t : Time) (s s' : Snapshot Fl) :
    let d := (newDist pieces nc ts gid).calls hist
    let r := d.addWithTs v t
    r.2 = none → amount d.unit v = some .nan → d.snapshot = some s → r.1.snapshot = some s' →
    ∀ i : ℕ, (rangeCounts s')[i]? =
      (rangeCounts s)[i]?.map (· + if i + 1 = pieces.length then 1 else 0) := by
  intro d r hr hnan hs hs' i
  obtain ⟨hset, x, hx, he⟩ := add_ok hr
  change (d.addWithTs v t).1.snapshot = some s' at hs'
  rw [he] at hs'
  rw [show amount ((newDist pieces nc ts gid).calls hist).unit v = some Fl.nan from hnan] at hx
  cases hx
  rw [(add_counts h nc ts gid hist t s s' .nan hlen hs hs' i).2]
  have hl := (fromEndpoints_length h).1
  have : findIndex pieces Fl.nan = i ↔ i + 1 = pieces.length := by
    rw [findIndex_nan h, hl]; omega
  simp only [this]

/-- **C25 (remove)** A Remove of a value other than NaN that returns normally lowers the count of
the range containing the value by one, changes no other count and leaves the ranges alone. -/
theorem C25_remove_counts_in_its_range (l : List Fl) (pieces : List (Piece Fl))
    (h : newArbitraryBucketer l = .ok pieces) (hasc : Ascending l)
    (nc : Bool) (ts : Time) (gid : ℕ) (hist : List DCall) (v : Val) (t : Time) (s s' : Snapshot Fl) :
    let d := (newDist pieces nc ts gid).calls hist
    let r := d.removeWithTs v t
    r.2 = none → d.snapshot = some s → r.1.snapshot = some s' →
    ∃ x, amount d.unit v = some x ∧ (x ≠ .nan → s'.breakdown.map (·.1) = s.breakdown.map (·.1) ∧
      ∀ (i : ℕ) (p : Piece Fl), pieces[i]? = some p →
        (rangeCounts s)[i]? = (rangeCounts s')[i]?.map (· + if Contains p x then 1 else 0)) := by
  intro d r hr hs hs'
  obtain ⟨x, hx, he⟩ := remove_ok hr
  refine ⟨x, hx, fun hn => ?_⟩
  change (d.removeWithTs v t).1.snapshot = some s' at hs'
  change (d.removeWithTs v t).2 = none at hr
  rw [he] at hs' hr
  refine ⟨(remove_counts h nc ts gid hist t s s' x hs hr hs' 0).1, fun i p hp => ?_⟩
  rw [(remove_counts h nc ts gid hist t s s' x hs hr hs' i).2]
  obtain ⟨q, hq, hc⟩ := findIndex_contains h hasc hn
  have : findIndex pieces x = i ↔ Contains p x :=
    ⟨fun e => by subst e; rw [hq] at hp; cases hp; exact hc,
     fun c => (contains_unique h hasc hn hp hq c hc).symm⟩
  simp only [this]

/-- three endpoints, two of them equal -/
def threePieces : List (Piece Fl) :=
  [⟨.fin 0, .fin 1, true, false⟩, ⟨.fin 1, .fin (5/2), false, false⟩,
   ⟨.fin (5/2), .fin (5/2), false, false⟩, ⟨.fin (5/2), .fin 0, false, true⟩]

/-- ranges below 1, from 1 to 2.5, from 2.5 to 2.5 (empty) and from 2.5 up; 2.5 is in the last -/
example : newArbitraryBucketer [Fl.fin 1, .fin (5/2), .fin (5/2)] = .ok threePieces ∧
    Ascending [Fl.fin 1, .fin (5/2), .fin (5/2)] ∧
      let d := (newDist threePieces true ⟨0, 0⟩ 7).calls [.setUnit .second]
      let r := d.addWithTs (.scalar none (.float64 (.fin (5/2)))) ⟨1, 0⟩
      let r2 := r.1.removeWithTs (.scalar none (.float64 (.fin (5/2)))) ⟨2, 0⟩
      r.2 = none ∧ d.snapshot.map rangeCounts = some [0, 0, 0, 0] ∧
      r.1.snapshot.map rangeCounts = some [0, 0, 0, 1] ∧
      r2.2 = none ∧ r2.1.snapshot.map rangeCounts = some [0, 0, 0, 0] := by
  decide +kernel

/-! ## C26 -/

/-- **C26 (exact accounting)** After every history the counts of all ranges add up to the total
count plus the number of updates that panicked because the old value's range was empty. -/
theorem C26_sum_of_ranges (l : List Fl) (pieces : List (Piece Fl))
    (h : newArbitraryBucketer l = .ok pieces) (nc : Bool) (ts : Time) (gid : ℕ) (hist : List DCall)
    (hlen : hist.length < 2 ^ 64) (s : Snapshot Fl) :
    let d := newDist pieces nc ts gid
    (d.calls hist).snapshot = some s →
    (rangeCounts s).sum = s.count + number isUpdate (some .badValue) (trace d hist) := by
  intro d hs
  have hinv := hist_inv h nc ts gid hist hlen
  obtain ⟨f1, _, _, f4, _⟩ := snapshot_fields hinv.shape hs
  rw [f1, f4]; exact hinv.sum

/-- **C26 (partial)** In every history in which no update panicked over an empty range, the counts
of all ranges add up to the total count.  Missing: histories with such a panic, for which it is
false (`C26_violated_after_panic`). -/
theorem C26_sum_of_ranges_partial (l : List Fl) (pieces : List (Piece Fl))
    (h : newArbitraryBucketer l = .ok pieces) (nc : Bool) (ts : Time) (gid : ℕ) (hist : List DCall)
    (hlen : hist.length < 2 ^ 64) (s : Snapshot Fl) :
    let d := newDist pieces nc ts gid
    (∀ x ∈ trace d hist, isUpdate x.1 = true → x.2 ≠ some .badValue) →
    (d.calls hist).snapshot = some s → (rangeCounts s).sum = s.count := by
  intro d hno hs
  have hsum := C26_sum_of_ranges l pieces h nc ts gid hist hlen s hs
  have h0 : number isUpdate (some .badValue) (trace (newDist pieces nc ts gid) hist) = 0 := by
    unfold number
    rw [List.length_eq_zero_iff, List.filter_eq_nil_iff]
    intro x hx
    have := hno x hx
    simpa using this
  omega

/-- pieces with the single endpoint 1 -/
def onePieces : List (Piece Fl) := [⟨.fin 0, .fin 1, true, false⟩, ⟨.fin 1, .fin 0, false, true⟩]

example : newArbitraryBucketer [Fl.fin 1] = .ok onePieces := by decide +kernel

/-- a float64 API argument -/
def f64 (q : ℚ) : Val := .scalar none (.float64 (.fin q))

/-- **C26 is false after a panic**: one value below 1 has been added; updating a value above 1,
which was never added, panics, but the range of the new value has been counted up already. -/
theorem C26_violated_after_panic :
    let d := newDist onePieces true ⟨0, 0⟩ 1
    let hist := [.setUnit .second, .add (f64 (1/2)) ⟨1, 0⟩, .update (f64 2) (f64 (1/4)) ⟨2, 0⟩]
    (d.calls hist).snapshot.map (fun s => (s.count, rangeCounts s)) = some (1, [2, 0]) := by
  decide +kernel

/-- hypotheses of the partial theorem: an update and a removal that go well -/
example :
    let d := newDist onePieces true ⟨0, 0⟩ 1
    let hist := [.setUnit .second, .add (f64 (1/2)) ⟨1, 0⟩, .add (f64 3) ⟨1, 0⟩,
      .update (f64 3) (f64 (1/4)) ⟨2, 0⟩, .remove (f64 (1/2)) ⟨3, 0⟩, .remove (f64 7) ⟨4, 0⟩]
    (∀ x ∈ trace d hist, isUpdate x.1 = true → x.2 ≠ some .badValue) ∧
    (d.calls hist).snapshot.map (fun s => (s.count, rangeCounts s)) = some (1, [1, 0]) := by
  decide +kernel

/-! ## C27 -/

/-- **C27 (count)** Count equals the completed adds minus the completed removes. -/
theorem C27_count (l : List Fl) (pieces : List (Piece Fl))
    (h : newArbitraryBucketer l = .ok pieces) (nc : Bool) (ts : Time) (gid : ℕ) (hist : List DCall)
    (hlen : hist.length < 2 ^ 64) (s : Snapshot Fl) :
    let d := newDist pieces nc ts gid
    (d.calls hist).snapshot = some s →
    s.count + number isRemove none (trace d hist) = number isAdd none (trace d hist) := by
  intro d hs
  have hinv := hist_inv h nc ts gid hist hlen
  obtain ⟨f1, _⟩ := snapshot_fields hinv.shape hs
  rw [f1]; exact hinv.cnt

/-- **C27 (generation, partial)** While the distribution is not empty, the generation equals the
number of completed changes.  Missing: an empty distribution reports generation 0
(`C27_empty_generation`). -/
theorem C27_generation_partial (l : List Fl) (pieces : List (Piece Fl))
    (h : newArbitraryBucketer l = .ok pieces) (nc : Bool) (ts : Time) (gid : ℕ) (hist : List DCall)
    (hlen : hist.length < 2 ^ 64) (s : Snapshot Fl) :
    let d := newDist pieces nc ts gid
    (d.calls hist).snapshot = some s → s.count ≠ 0 →
    s.generation = number isAdd none (trace d hist) + number isRemove none (trace d hist) +
      number isUpdate none (trace d hist) := by
  intro d hs h0
  have hinv := hist_inv h nc ts gid hist hlen
  obtain ⟨f1, _, _, _, f5, _⟩ := snapshot_fields hinv.shape hs
  rw [f1] at h0
  rw [(f5 h0).1]; exact hinv.gen

/-- **C27 is false for a distribution emptied again**: after an add and a remove the snapshot shows
generation 0, as if nothing had happened, although two changes completed. -/
theorem C27_empty_generation :
    let d := newDist onePieces true ⟨0, 0⟩ 1
    let hist := [.setUnit .second, .add (f64 (1/2)) ⟨1, 0⟩, .remove (f64 (1/2)) ⟨2, 0⟩]
    (trace d hist).map (·.2) = [none, none, none] ∧
    (d.calls hist).snapshot.map (fun s => (s.count, s.generation, s.isNotCumulative)) =
      some (0, 0, false) := by
  decide +kernel

/-- **C27 (time stamp, exact)** The time stamp is that of the latest call that completed, or that
panicked over an empty range, and the creation time if there was none. -/
theorem C27_timestamp (l : List Fl) (pieces : List (Piece Fl))
    (h : newArbitraryBucketer l = .ok pieces) (nc : Bool) (ts : Time) (gid : ℕ) (hist : List DCall)
    (s : Snapshot Fl) :
    let d := newDist pieces nc ts gid
    (d.calls hist).snapshot = some s →
    s.timeStamp = lastStamp [none, some .badValue] ts (trace d hist) := by
  intro d hs
  have key : ∀ (d : Dist Fl), Shape d → Shape (d.calls hist) ∧
      (d.calls hist).timeStamp = lastStamp [none, some .badValue] d.timeStamp (trace d hist) := by
    clear hs
    induction hist with
    | nil => intro d hd; exact ⟨hd, rfl⟩
    | cons c cs ih =>
      intro d hd
      obtain ⟨h1, h2⟩ := call_time hd c
      obtain ⟨h3, h4⟩ := ih _ h1
      refine ⟨h3, ?_⟩
      simp only [Dist.calls, trace, lastStamp]
      rw [h4, h2]
      cases stamp c with
      | none => rfl
      | some t => simp only; split <;> rfl
  obtain ⟨k1, k2⟩ := key d (newDist_inv (pieces_ne h) nc ts gid).shape
  rw [(snapshot_fields k1 hs).2.1, k2]
  rfl

/-- **C27 (time stamp, partial)** If no call panicked over an empty range, the time stamp is that of
the latest change.  Missing: such a panic also moves the time stamp (`C27_panic_moves_timestamp`). -/
theorem C27_timestamp_partial (l : List Fl) (pieces : List (Piece Fl))
    (h : newArbitraryBucketer l = .ok pieces) (nc : Bool) (ts : Time) (gid : ℕ) (hist : List DCall)
    (s : Snapshot Fl) :
    let d := newDist pieces nc ts gid
    (∀ x ∈ trace d hist, x.2 ≠ some .badValue) → (d.calls hist).snapshot = some s →
    s.timeStamp = lastStamp [none] ts (trace d hist) := by
  intro d hno hs
  rw [C27_timestamp l pieces h nc ts gid hist s hs]
  generalize trace d hist = t at hno
  clear hs
  induction t generalizing ts with
  | nil => rfl
  | cons x t ih =>
    obtain ⟨c, o⟩ := x
    have ho := hno (c, o) (by simp)
    have ih' := fun ts => ih ts (fun x hx => hno x (by simp [hx]))
    simp only [lastStamp]
    cases stamp c with
    | none => exact ih' ts
    | some t' =>
      simp only [List.mem_cons, List.not_mem_nil, or_false]
      have : (o = none ∨ o = some .badValue) ↔ o = none := by
        constructor
        · rintro (h | h)
          · exact h
          · exact absurd h ho
        · exact Or.inl
      simp only [this]
      split <;> exact ih' _

/-- a panicking removal changes the time stamp although nothing else changed -/
theorem C27_panic_moves_timestamp :
    let d := newDist onePieces true ⟨0, 0⟩ 1
    let hist := [.setUnit .second, .add (f64 (1/2)) ⟨1, 0⟩, .remove (f64 7) ⟨2, 0⟩]
    (trace d hist).map (·.2) = [none, none, some .badValue] ∧
    (d.calls hist).snapshot.map (fun s => s.timeStamp) = some ⟨2, 0⟩ := by
  decide +kernel

example :
    let d := newDist onePieces true ⟨0, 0⟩ 1
    let hist := [.add (f64 1) ⟨9, 0⟩, .setUnit .second, .add (f64 (1/2)) ⟨1, 0⟩, .add (.nil) ⟨8, 0⟩,
      .update (f64 (1/2)) (f64 3) ⟨3, 0⟩]
    (∀ x ∈ trace d hist, x.2 ≠ some .badValue) ∧
    (trace d hist).map (·.2) = [some .noUnit, none, none, some .typeMismatch, none] ∧
    (d.calls hist).snapshot.map (fun s => (s.count, s.generation, s.timeStamp)) = some (1, 2, ⟨3, 0⟩) := by
  decide +kernel

/-! ## C31 -/

/-- **C31** Taking a snapshot never panics: in every history, with right or wrong old values and
with panics recovered. -/
theorem C31_snapshot_never_panics (l : List Fl) (pieces : List (Piece Fl))
    (h : newArbitraryBucketer l = .ok pieces) (nc : Bool) (ts : Time) (gid : ℕ) (hist : List DCall)
    (hlen : hist.length < 2 ^ 64 - 1) : ((newDist pieces nc ts gid).calls hist).snapshot.isSome = true := by
  have hinv := hist_inv h nc ts gid hist (by omega)
  have hbound := trace_bound (newDist pieces nc ts gid) hist
  have hs := hinv.sum
  have hc := hinv.cnt
  exact snapshot_some hinv.shape (by omega) (by omega)

/-- a corrupted distribution (see C26) with three counted values still gives a median -/
example :
    let d := newDist onePieces true ⟨0, 0⟩ 1
    let hist := [.setUnit .second, .add (f64 (1/2)) ⟨1, 0⟩, .add (f64 (1/4)) ⟨1, 0⟩,
      .add (f64 (1/4)) ⟨1, 0⟩, .update (f64 2) (f64 (1/4)) ⟨2, 0⟩]
    (d.calls hist).snapshot.map (fun s => (s.count, rangeCounts s, s.median)) =
      some (3, [4, 0], .fin (3152519739159347/9007199254740992)) := by
  decide +kernel

/-! ## C32 -/

/-- **C32 (what is rejected)** Add, Update and Remove panic before a unit is assigned, with a value
of unsupported type or a duration without a time unit; Update and Remove panic on a cumulative and
on an empty distribution; and after each of these panics the distribution is as before the call. -/
theorem C32_rejected_unchanged (l : List Fl) (pieces : List (Piece Fl))
    (h : newArbitraryBucketer l = .ok pieces) (nc : Bool) (ts : Time) (gid : ℕ) (hist : List DCall)
    (c : DCall) (hc : ∀ u, c ≠ .setUnit u) :
    let d := (newDist pieces nc ts gid).calls hist
    (d.unitSet = false → d.call c = (d, some .noUnit)) ∧
    (d.unitSet = true → toOp d.unit c = none →
      d.call c = (d, some .typeMismatch) ∨ d.call c = (d, some .notTime)) ∧
    (d.unitSet = true → toOp d.unit c ≠ none → isAdd c = false → nc = false →
      d.call c = (d, some .cumulative)) ∧
    (d.unitSet = true → toOp d.unit c ≠ none → isAdd c = false → nc = true → d.count = 0 →
      d.call c = (d, some .empty)) ∧
    (∀ p, (d.call c).2 = some p → p ≠ .badValue → (d.call c).1 = d) := by
  intro d
  have hshape : Shape d := calls_shape (newDist_inv (pieces_ne h) nc ts gid).shape hist
  have hnc : d.isNotCumulative = nc := (calls_const (newDist pieces nc ts gid) hist).2.1
  have herr : ∀ v p, d.unitSet = true → d.valueToFloat v = .error p → p = .typeMismatch ∨ p = .notTime := by
    intro v p hu hv
    rcases valueToFloat_err hv with rfl | h | h
    · unfold Dist.valueToFloat at hv
      rw [hu] at hv
      simp only [Bool.not_true, Bool.false_eq_true, if_false] at hv
      split at hv <;> first | (cases hv; done) | skip
      unfold goDurationToFloat at hv
      split at hv <;> cases hv
    · exact Or.inl h
    · exact Or.inr h
  refine ⟨fun hu => call_noUnit d hu c hc, ?_, ?_, ?_, ?_⟩
  · intro hu ht
    have g : ∀ v, amount d.unit v = none → ∃ p, d.valueToFloat v = .error p := by
      intro v ha
      have := valueToFloat_amount d v hu
      rw [ha] at this
      obtain ⟨p, hp, _⟩ := this
      exact ⟨p, hp⟩
    cases c with
    | setUnit u => exact absurd rfl (hc u)
    | add v t =>
      simp only [toOp, Option.map_eq_none_iff] at ht
      obtain ⟨p, hp⟩ := g v ht
      simp only [Dist.call, Dist.addWithTs, hp]
      rcases herr v p hu hp with rfl | rfl <;> simp
    | remove v t =>
      simp only [toOp, Option.map_eq_none_iff] at ht
      obtain ⟨p, hp⟩ := g v ht
      simp only [Dist.call, Dist.removeWithTs, hp]
      rcases herr v p hu hp with rfl | rfl <;> simp
    | update o n t =>
      simp only [Dist.call, Dist.updateWithTs]
      have ho := valueToFloat_amount d o hu
      cases ha : amount d.unit o with
      | none =>
        obtain ⟨p, hp⟩ := g o ha
        simp only [hp]
        rcases herr o p hu hp with rfl | rfl <;> simp
      | some x =>
        rw [ha] at ho; simp only [] at ho
        have hn : amount d.unit n = none := by
          simp only [toOp, ha] at ht
          split at ht
          · cases ht
          · next hh => cases hn : amount d.unit n with
            | none => rfl
            | some y => exact absurd hn (hh x y rfl)
        obtain ⟨p, hp⟩ := g n hn
        simp only [ho, hp]
        rcases herr n p hu hp with rfl | rfl <;> simp
  · intro hu ht ha hn
    have := call_op d hu c
    cases hop : toOp d.unit c with
    | none => exact absurd hop ht
    | some op =>
      rw [hop] at this; simp only [] at this
      rw [this]
      cases c with
      | setUnit u => exact absurd rfl (hc u)
      | add v t => simp [isAdd] at ha
      | remove v t =>
        simp only [toOp, Option.map_eq_some_iff] at hop
        obtain ⟨x, _, rfl⟩ := hop
        simp [Dist.op, Dist.remove, hnc, hn]
      | update o n t =>
        simp only [toOp] at hop
        split at hop <;> cases hop
        simp [Dist.op, Dist.update, hnc, hn]
  · intro hu ht ha hn h0
    have := call_op d hu c
    cases hop : toOp d.unit c with
    | none => exact absurd hop ht
    | some op =>
      rw [hop] at this; simp only [] at this
      rw [this]
      cases c with
      | setUnit u => exact absurd rfl (hc u)
      | add v t => simp [isAdd] at ha
      | remove v t =>
        simp only [toOp, Option.map_eq_some_iff] at hop
        obtain ⟨x, _, rfl⟩ := hop
        simp [Dist.op, Dist.remove, hnc, hn, h0]
      | update o n t =>
        simp only [toOp] at hop
        split at hop <;> cases hop
        simp [Dist.op, Dist.update, hnc, hn, h0]
  · intro p hp hb
    cases hu : d.unitSet with
    | false => rw [call_noUnit d hu c hc]
    | true =>
      have := call_op d hu c
      cases hop : toOp d.unit c with
      | none => rw [hop] at this; exact this.1
      | some op =>
        rw [hop] at this; simp only [] at this
        rw [this] at hp ⊢
        cases op with
        | add v t =>
          obtain ⟨c, _, he⟩ := add_eq hshape v t
          simp only [Dist.op, he] at hp; cases hp
        | remove v t =>
          rcases remove_eq hshape v t with ⟨_, he⟩ | ⟨_, _, he⟩ | ⟨_, _, _, he⟩ | ⟨_, _, c, _, he⟩ <;>
            simp only [Dist.op, he] at hp ⊢
          · simp only [Option.some.injEq] at hp; exact absurd hp.symm hb
          · cases hp
        | update o n t =>
          rcases update_eq hshape o n t with ⟨_, he⟩ | ⟨_, _, he⟩ | ⟨_, _, c1, _, ⟨_, he⟩ | ⟨c2, _, he⟩⟩ <;>
            simp only [Dist.op, he] at hp ⊢
          · simp only [Option.some.injEq] at hp; exact absurd hp.symm hb
          · cases hp

/-- **C32 (empty range, partial)** Removing a value whose range is empty panics, and leaves
everything but the time stamp as it was.  Missing: the time stamp moves, and an Update over an empty
range is not undone (`C26_violated_after_panic`). -/
theorem C32_remove_empty_range_partial (l : List Fl) (pieces : List (Piece Fl))
    (h : newArbitraryBucketer l = .ok pieces) (ts : Time) (gid : ℕ) (hist : List DCall)
    (v : Val) (x : Fl) (t : Time) :
    let d := (newDist pieces true ts gid).calls hist
    d.unitSet = true → amount d.unit v = some x → d.count ≠ 0 →
    d.counts[findIndex pieces x]? = some 0 →
    d.removeWithTs v t = ({ d with timeStamp := t }, some .badValue) := by
  intro d hu ha h0 hz
  have hnc : d.isNotCumulative = true := (calls_const (newDist pieces true ts gid) hist).2.1
  have hpc : d.pieces = pieces := (calls_const (newDist pieces true ts gid) hist).1
  have := valueToFloat_amount d v hu
  rw [ha] at this; simp only [] at this
  simp only [Dist.removeWithTs, this, Dist.remove, hnc, h0, Bool.not_true, Bool.false_eq_true, if_false]
  rw [hpc, hz]

example :
    let d := (newDist onePieces true ⟨0, 0⟩ 1).calls [.setUnit .second, .add (f64 (1/2)) ⟨1, 0⟩]
    d.unitSet = true ∧ amount d.unit (f64 7) = some (.fin 7) ∧ d.count ≠ 0 ∧
    d.counts[findIndex onePieces (.fin 7)]? = some 0 := by
  decide +kernel

/-- **C32 is false for Update over an empty range**: it panics, but the count of the new value's
range stays raised, and the snapshot's time stamp has moved. -/
theorem C32_update_empty_range_corrupts :
    let d := (newDist onePieces true ⟨0, 0⟩ 1).calls [.setUnit .second, .add (f64 (1/2)) ⟨1, 0⟩]
    let r := d.updateWithTs (f64 2) (f64 (1/4)) ⟨2, 0⟩
    r.2 = some .badValue ∧
    d.snapshot.map (fun s => (rangeCounts s, s.timeStamp)) = some ([1, 0], ⟨1, 0⟩) ∧
    r.1.snapshot.map (fun s => (rangeCounts s, s.timeStamp)) = some ([2, 0], ⟨2, 0⟩) := by
  decide +kernel

/-- cases of the rejection theorem that occur -/
example :
    let d := (newDist onePieces true ⟨0, 0⟩ 1).calls [.setUnit .celsius]
    d.unitSet = true ∧ toOp d.unit (.add (.scalar none (.duration 5)) ⟨1, 0⟩) = none ∧
    (d.addWithTs (.scalar none (.duration 5)) ⟨1, 0⟩).2 = some .notTime ∧
    (d.addWithTs (.scalar none (.string [])) ⟨1, 0⟩).2 = some .typeMismatch ∧
    (d.removeWithTs (f64 5) ⟨1, 0⟩).2 = some .empty := by
  decide +kernel

/-! ## C33 -/

/-- **C33** In every history the first registration assigns the unit, and a later one succeeds iff
it names the same unit; nothing else ever changes the unit. -/
theorem C33_unit_fixed_by_first_registration (pieces : List (Piece Fl)) (nc : Bool) (ts : Time)
    (gid : ℕ) (hist : List DCall) (u : MUnit) :
    let d := (newDist pieces nc ts gid).calls hist
    ((d.setUnit u).2 = true ↔ (firstUnit hist = none ∨ firstUnit hist = some u)) ∧
    (∀ w, firstUnit hist = some w → d.unitSet = true ∧ d.unit = w) ∧
    (firstUnit hist = none → d.unitSet = false) ∧
    (∀ w, firstUnit hist = some w → (d.setUnit u).1 = d) ∧
    (firstUnit hist = none → (d.setUnit u).1.unit = u) := by
  intro d
  have h := calls_unit (newDist pieces nc ts gid) hist
  have h0 : (newDist pieces nc ts gid).unitSet = false := rfl
  rw [h0] at h
  simp only [Bool.false_eq_true, if_false, Prod.ext_iff] at h
  have hd : ((newDist pieces nc ts gid).calls hist) = d := rfl
  rw [hd] at h
  cases hf : firstUnit hist with
  | none =>
    rw [hf] at h; simp only at h
    simp [Dist.setUnit, h.1]
  | some w =>
    rw [hf] at h; simp only at h
    simp [Dist.setUnit, h.1, h.2, eq_comm]

example : firstUnit [.add (f64 1) ⟨0, 0⟩, .setUnit .second, .setUnit .byte] = some .second ∧
    let d := (newDist onePieces true ⟨0, 0⟩ 1).calls
      [.add (f64 1) ⟨0, 0⟩, .setUnit .second, .setUnit .byte]
    (d.setUnit .byte).2 = false ∧ (d.setUnit .second).2 = true := by decide +kernel

/-! ## C34 -/

/-- **C34 (partial)** A duration of magnitude at most `2^53` ns (104 days) is counted as its length
in the distribution's unit, correctly rounded.  Missing: longer durations are rounded twice
(`C34_long_durations_rounded_twice`); how far off they can be is `C34_close`. -/
theorem C34_duration_in_unit_partial (x : ℤ) (hx : |x| ≤ 2 ^ 53) :
    goDurationToFloat .second x = .ok (rnd b64 (x / 1000000000)) ∧
    goDurationToFloat .millisecond x = .ok (rnd b64 (x / 1000000)) := by
  have e1 : Fl.ofInt b64 1000000000 = .fin 1000000000 := by
    have := ofInt_lit 1000000000 (by norm_num); simpa using this
  have e2 : Fl.ofInt b64 1000000 = .fin 1000000 := by
    have := ofInt_lit 1000000 (by norm_num); simpa using this
  simp only [goDurationToFloat, e1, e2, ofInt_lit x hx, Fl.div, Fl.toQ?]
  constructor
  all_goals
    rw [if_neg (by norm_num)]
    by_cases h0 : (x : ℚ) = 0
    · simp [h0, Fl.zero, Fl.sign, rnd]
    · rw [if_neg h0]

/-- **C34 is false for long durations**: 595922009.308561079 s is counted as a number that is not
the nearest float64. -/
theorem C34_long_durations_rounded_twice :
    goDurationToFloat .second 595922009308561079 ≠ .ok (rnd b64 (595922009308561079 / 1000000000)) := by
  have : goDurationToFloat .second 595922009308561079 = .ok (.fin (4998956134661869 / 8388608)) := by
    decide +kernel
  rw [this]
  intro h
  have h2 := Except.ok.inj h
  revert h2
  decide +kernel

/-- **C34 (every duration)** The number counted is off by at most a relative `2^-51`. -/
theorem C34_close (x : ℤ) (hx : InI64 x) (u : MUnit) (k : ℚ)
    (hu : (u = .second ∧ k = 1000000000) ∨ (u = .millisecond ∧ k = 1000000)) :
    ∃ f v, goDurationToFloat u x = .ok f ∧ f.toQ? = some v ∧
      |v - x / k| ≤ |(x : ℚ) / k| * p2 (-51) := by
  have hkk : k = 1000000000 ∨ k = 1000000 := by rcases hu with ⟨_, h⟩ | ⟨_, h⟩ <;> simp [h]
  have hk1 : (1 : ℚ) ≤ k := by rcases hkk with rfl | rfl <;> norm_num
  have hk0 : (0 : ℚ) < k := by linarith
  have hgo : goDurationToFloat u x = .ok (Fl.div b64 (Fl.ofInt b64 x) (.fin k)) := by
    have e1 : Fl.ofInt b64 1000000000 = .fin 1000000000 := by
      have := ofInt_lit 1000000000 (by norm_num); simpa using this
    have e2 : Fl.ofInt b64 1000000 = .fin 1000000 := by
      have := ofInt_lit 1000000 (by norm_num); simpa using this
    rcases hu with ⟨rfl, rfl⟩ | ⟨rfl, rfl⟩ <;> simp [goDurationToFloat, e1, e2]
  by_cases h0 : x = 0
  · subst h0
    refine ⟨_, 0, hgo, ?_, by simp⟩
    have : Fl.ofInt b64 0 = .fin 0 := by decide +kernel
    rw [this]
    have hz : Fl.div b64 (.fin 0) (.fin k) = Fl.zero ((Fl.fin 0).sign != (Fl.fin k).sign) := by
      simp [Fl.div, Fl.toQ?, hk0.ne']
    rw [hz]; unfold Fl.zero; split <;> rfl
  · have hxb : |(x : ℚ)| ≤ 9223372036854775808 := by
      obtain ⟨a, b⟩ := hx
      rw [abs_le]; constructor
      · exact_mod_cast a
      · exact_mod_cast (by omega : x ≤ 9223372036854775808)
    have hx1 : (1 : ℚ) ≤ |(x : ℚ)| := by
      have : 1 ≤ |x| := Int.one_le_abs h0
      exact_mod_cast this
    have hbig : (9223372036854775808 : ℚ) = p2 63 := by rw [p2_eq]; norm_num
    have hle : p2 63 ≤ p2 1000 := p2_le (by norm_num)
    obtain ⟨w, hw, we, _⟩ := rnd_err (x : ℚ) (by linarith)
    have p53 : p2 (-53) = 1 / 9007199254740992 := by rw [p2_eq]; norm_num
    have p51 : p2 (-51) = 1 / 2251799813685248 := by rw [p2_eq]; norm_num
    have p1075 : p2 (-1075) ≤ 1 / 340282366920938463463374607431768211456 := by
      have : p2 (-1075) ≤ p2 (-128) := p2_le (by norm_num)
      have e : p2 (-128) = 1 / 340282366920938463463374607431768211456 := by rw [p2_eq]; norm_num
      linarith
    have hwx : |w| ≤ |(x : ℚ)| * 2 := by
      have h1 : |w| ≤ |w - x| + |(x : ℚ)| := by
        have := abs_add_le (w - x) (x : ℚ); simpa using this
      rw [p53] at we
      nlinarith
    have hwk : |w / k| ≤ |(x : ℚ)| * 2 := by
      rw [abs_div, abs_of_pos hk0]
      exact le_trans (div_le_self (abs_nonneg _) hk1) hwx
    have hp1000 : p2 64 ≤ p2 1000 := p2_le (by norm_num)
    have h64 : p2 64 = 18446744073709551616 := by rw [p2_eq]; norm_num
    obtain ⟨v, hv, ve, _⟩ := div_err (x := Fl.ofInt b64 x) (y := .fin k) (a := w) (b := k) hw rfl hk0.ne'
      (by linarith)
    refine ⟨_, v, hgo, hv, ?_⟩
    unfold errB at ve
    have hxk : |(x : ℚ) / k| = |(x : ℚ)| / k := by rw [abs_div, abs_of_pos hk0]
    have hA : |w / k - x / k| ≤ |(x : ℚ) / k| * (p2 (-53) + p2 (-1075)) := by
      rw [← sub_div, abs_div, abs_of_pos hk0, hxk, div_mul_eq_mul_div]
      apply div_le_div_of_nonneg_right _ hk0.le
      have hpp := p2_pos (-1075)
      nlinarith
    have hxk0 : 1 / 1000000000 ≤ |(x : ℚ) / k| := by
      rw [hxk]
      have : k ≤ 1000000000 := by rcases hkk with rfl | rfl <;> norm_num
      rw [div_le_div_iff₀ (by norm_num) hk0]
      nlinarith
    have hW : |w / k| ≤ |(x : ℚ) / k| * 2 := by
      have h1 := abs_add_le (w / k - x / k) ((x : ℚ) / k)
      simp only [sub_add_cancel] at h1
      rw [p53] at hA
      nlinarith
    have hfin := abs_add_le (v - w / k) (w / k - x / k)
    simp only [sub_add_sub_cancel] at hfin
    rw [p53] at hA ve
    rw [p51]
    nlinarith

/-- **C34 (other units)** Adding a duration to a distribution in any other unit panics and changes
nothing. -/
theorem C34_other_units_panic (d : Dist Fl) (hset : d.unitSet = true) (x : ℤ) (t : Time)
    (h1 : d.unit ≠ .second) (h2 : d.unit ≠ .millisecond) :
    d.addWithTs (.scalar none (.duration x)) t = (d, some .notTime) := by
  have : goDurationToFloat d.unit x = .error .notTime := by
    unfold goDurationToFloat
    cases hu : d.unit <;> simp_all
  simp [Dist.addWithTs, Dist.valueToFloat, hset, this]

/-- **C34 (what is counted)** Adding a duration to a distribution in seconds or milliseconds is
adding the converted number. -/
theorem C34_duration_added (d : Dist Fl) (hset : d.unitSet = true) (x : ℤ) (t : Time) (f : Fl)
    (hf : goDurationToFloat d.unit x = .ok f) :
    d.addWithTs (.scalar none (.duration x)) t = d.addWithTs (.scalar none (.float64 f)) t := by
  simp [Dist.addWithTs, Dist.valueToFloat, hset, hf]

example : goDurationToFloat .millisecond 1500000 = .ok (.fin (3/2)) ∧
    goDurationToFloat .second (-250000000) = .ok (.fin (-1/4)) := by decide +kernel

end Tricorder
