import Verif.Proof.Record
import Verif.Props.App
import Verif.Props.Dist
import Verif.Props.DistHisto
/-!
# C89: recording by many goroutines

Any application (`Spec/App`): goroutines record values in distributions, register them, take snapshots by requests.  `asked i cs` are
the calls that the steps `cs` make on distribution `i`, in the order in which they take effect.
-/

namespace Tricorder.App
open Go _root_.Spec

variable {w : World}

/-- **C89** A distribution that exists was made by a step of the run. -/
theorem C89_made {H : List Item} {y : St} (hr : Run w start H y) {i : ℕ} (hi : i < y.mem.dists.length) :
    ∃ A e B pieces nc ts, H = A ++ e :: B ∧ e.cmd = .newDist pieces nc ts ∧ e.pre.dists.length = i := by
  obtain ⟨d, hd⟩ : ∃ d, y.mem.dists[i]? = some d := ⟨_, List.getElem?_eq_getElem hi⟩
  rw [hr.after] at hd
  obtain ⟨A, B, pieces, nc, ts, h1, h2, -⟩ := after_made _ rfl hd
  obtain ⟨A', B', rfl, rfl, h3⟩ := List.map_eq_append_iff.mp h1
  obtain ⟨e, B', rfl, h4, rfl⟩ := List.map_eq_cons_iff.mp h3
  exact ⟨A', e, B', pieces, nc, ts, rfl, h4, by rw [hr.after_pre rfl]; exact h2⟩

theorem run_made {e : Item} {i : ℕ} {pieces : List (Piece Fl)} {nc : Bool} {ts : Time} (he : e.cmd = .newDist pieces nc ts) (hi : e.pre.dists.length = i) :
    (exec w e.cmd e.pre).1.dists[i]? = some (newDist pieces nc ts e.pre.nextId) := by
  rw [he]; subst hi
  show (e.pre.dists ++ _)[_]? = _
  simp

/-- **C89** From then on, however the goroutines take turns, at every moment the distribution is what the calls on it make of a new
one, each call applied exactly once, one after another: before every step, in particular before every call on the distribution and
every snapshot, and in the end. -/
theorem C89_one_after_another {H A B : List Item} {e : Item} {y : St} (hr : Run w start H y) (hH : H = A ++ e :: B) {i : ℕ}
    {pieces : List (Piece Fl)} {nc : Bool} {ts : Time} (he : e.cmd = .newDist pieces nc ts) (hi : e.pre.dists.length = i) :
    (∀ B1 e' B2, B = B1 ++ e' :: B2 →
      e'.pre.dists[i]? = some ((newDist pieces nc ts e.pre.nextId).calls (asked i (B1.map Item.cmd)))) ∧
    y.mem.dists[i]? = some ((newDist pieces nc ts e.pre.nextId).calls (asked i (B.map Item.cmd))) := by
  have h0 := run_made (w := w) he hi
  have hpre := hr.after_pre hH
  constructor
  · rintro B1 e' B2 rfl
    have h1 := hr.after_pre (A := A ++ e :: B1) (e := e') (B := B2) (by rw [hH]; simp)
    rw [h1, List.map_append, after_append, List.map_cons]
    show (after w (B1.map Item.cmd) (exec w e.cmd _).1).dists[i]? = _
    rw [← hpre]
    exact after_dist _ h0
  · rw [hr.after, hH, List.map_append, after_append, List.map_cons]
    show (after w (B.map Item.cmd) (exec w e.cmd _).1).dists[i]? = _
    rw [← hpre]
    exact after_dist _ h0

/-- **C89** No value is lost and none is counted twice: in every snapshot the count is the number of values that all goroutines
together have added, less those they have removed, counting the calls that returned normally. -/
theorem C89_count {H A B : List Item} {e : Item} {y : St} (hr : Run w start H y) (hH : H = A ++ e :: B) {i : ℕ} {l : List Fl}
    {pieces : List (Piece Fl)} (hl : newArbitraryBucketer l = .ok pieces) {nc : Bool} {ts : Time}
    (he : e.cmd = .newDist pieces nc ts) (hi : e.pre.dists.length = i) (hlen : B.length < 2 ^ 64) {d : Dist Fl} {s : Snapshot Fl}
    (hd : y.mem.dists[i]? = some d) (hs : d.snapshot = some s) :
    s.count + ((List.range y.gs.length).map fun g => (B.filter fun e => Returned w i isRemove e && decide (e.who = g)).length).sum =
      ((List.range y.gs.length).map fun g => (B.filter fun e => Returned w i isAdd e && decide (e.who = g)).length).sum := by
  have hw : ∀ e ∈ B, e.who < y.gs.length := fun e he => hr.gs_length.2 e (by rw [hH]; simp [he])
  rw [← split_by_who B _ hw, ← split_by_who B _ hw]
  have h0 := run_made (w := w) he hi
  have hB : ∀ B1 e' B2, B = B1 ++ e' :: B2 → e'.pre = after w (B1.map Item.cmd) (exec w e.cmd e.pre).1 := by
    rintro B1 e' B2 rfl
    have h1 := hr.after_pre (A := A ++ e :: B1) (e := e') (B := B2) (by rw [hH]; simp)
    rw [h1, List.map_append, after_append, List.map_cons, hr.after_pre hH]
    rfl
  rw [returned_number h0 _ (fun _ => rfl) B hB, returned_number h0 _ (fun _ => rfl) B hB]
  have hlast := (C89_one_after_another hr hH he hi).2
  rw [hlast] at hd
  cases hd
  exact C27_count l pieces hl nc ts _ _ (by
    refine lt_of_le_of_lt (List.length_filterMap_le _ _) ?_
    rw [List.length_map]; exact hlen) s hs

end Tricorder.App

namespace Tricorder
open Go _root_.Spec

/-- **C89** It does not matter in which order the goroutines add the values: the count, the number of values in every range, the least
and the greatest value and, of three or more values, the median are the same.  (Values that are NaN or the negative zero are excluded;
`hist` and `hist'` are the calls after the registration, `C89_one_after_another`.) -/
theorem C89_any_order (l : List Fl) (hasc : Ascending l) (pieces : List (Piece Fl)) (h : newArbitraryBucketer l = .ok pieces)
    (nc : Bool) (ts ts' : Time) (gid gid' : ℕ) (u : MUnit) (hist hist' : List DCall)
    (hlen : hist.length < 2 ^ 64 - 1) (hlen' : hist'.length < 2 ^ 64 - 1)
    (ha : ∀ c ∈ hist, isAdd c = true) (ha' : ∀ c ∈ hist', isAdd c = true)
    (hp : (added u hist).Perm (added u hist')) (hv : ∀ v ∈ added u hist, v ≠ .nan ∧ v ≠ .negZero)
    (s s' : Snapshot Fl) (hs : (registered pieces nc ts gid u hist).snapshot = some s)
    (hs' : (registered pieces nc ts' gid' u hist').snapshot = some s') :
    s.count = s'.count ∧ s.breakdown = s'.breakdown ∧
    (s.count ≠ 0 → s.min = s'.min ∧ s.max = s'.max ∧ s.generation = s'.generation) ∧ (3 ≤ s.count → s.median = s'.median) := by
  have hv' : ∀ v ∈ added u hist', v ≠ .nan ∧ v ≠ .negZero := fun v h => hv v (hp.mem_iff.mpr h)
  obtain ⟨m1, m2⟩ := mentioned_added u hist ha
  obtain ⟨m1', m2'⟩ := mentioned_added u hist' ha'
  obtain ⟨vs, c1, c2⟩ := current_adds _ m1 []
  obtain ⟨vs', c1', c2'⟩ := current_adds _ m1' []
  rw [m2, List.append_nil] at c2
  rw [m2', List.append_nil] at c2'
  have hpv : vs.Perm vs' := c2.trans (hp.trans c2'.symm)
  have hvs : ∀ v ∈ vs, v ≠ .nan ∧ v ≠ .negZero := fun v h => hv v (c2.mem_iff.mp h)
  have hvs' : ∀ v ∈ vs', v ≠ .nan ∧ v ≠ .negZero := fun v h => hv' v (c2'.mem_iff.mp h)
  have n1 : ∀ v ∈ mentioned (hist.filterMap (toOp u)), v ≠ .nan := by rw [m2]; exact fun v h => (hv v h).1
  have n1' : ∀ v ∈ mentioned (hist'.filterMap (toOp u)), v ≠ .nan := by rw [m2']; exact fun v h => (hv' v h).1
  have b1 := C81_histogram l hasc pieces h nc ts gid u hist vs hlen (.inr m1) c1 n1 s hs
  have b1' := C81_histogram l hasc pieces h nc ts' gid' u hist' vs' hlen' (.inr m1') c1' n1' s' hs'
  have b2 := C29_bounds l pieces h nc ts gid u hist vs hlen (.inr m1) c1 n1 s hs
  have b2' := C29_bounds l pieces h nc ts' gid' u hist' vs' hlen' (.inr m1') c1' n1' s' hs'
  have hcount : s.count = s'.count := by rw [b2.1, b2'.1, hpv.length_eq]
  have hbd : s.breakdown = s'.breakdown := by
    rw [b1, b1']
    refine List.map_congr_left fun p _ => ?_
    rw [hpv.countP_eq]
  have hmm : s.count ≠ 0 → s.min = s'.min ∧ s.max = s'.max := by
    intro h0
    have hne : vs ≠ [] := fun h => h0 (by rw [b2.1, h]; rfl)
    have hne' : vs' ≠ [] := fun h => h0 (by rw [hcount, b2'.1, h]; rfl)
    obtain ⟨a1, a2⟩ := C29_attained l pieces h nc ts gid u hist vs hlen m1 c1 n1 s hs hne
    obtain ⟨a1', a2'⟩ := C29_attained l pieces h nc ts' gid' u hist' vs' hlen' m1' c1' n1' s' hs' hne'
    exact ⟨le_antisymm_fl (hvs _ a1) (hvs' _ a1') (b2.2 _ (hpv.mem_iff.mpr a1')).1 (b2'.2 _ (hpv.mem_iff.mp a1)).1,
      le_antisymm_fl (hvs _ a2) (hvs' _ a2') (b2'.2 _ (hpv.mem_iff.mp a2)).2 (b2.2 _ (hpv.mem_iff.mpr a2')).2⟩
  unfold registered at hs hs'
  have sh : Shape ((newDist pieces nc ts gid).calls (.setUnit u :: hist)) :=
    calls_shape (newDist_inv (pieces_ne h) nc ts gid).shape _
  have sh' : Shape ((newDist pieces nc ts' gid').calls (.setUnit u :: hist')) :=
    calls_shape (newDist_inv (pieces_ne h) nc ts' gid').shape _
  obtain ⟨f1, -, -, f4, f5, -⟩ := snapshot_fields sh hs
  obtain ⟨f1', -, -, f4', f5', -⟩ := snapshot_fields sh' hs'
  have hpc := (calls_const (newDist pieces nc ts gid) (.setUnit u :: hist)).1
  have hpc' := (calls_const (newDist pieces nc ts' gid') (.setUnit u :: hist')).1
  refine ⟨hcount, hbd, fun h0 => ⟨(hmm h0).1, (hmm h0).2, ?_⟩, fun h3 => ?_⟩
  · have g := C27_generation_partial l pieces h nc ts gid _ (by simp only [List.length_cons]; omega) s hs h0
    have g' := C27_generation_partial l pieces h nc ts' gid' _ (by simp only [List.length_cons]; omega) s' hs' (hcount ▸ h0)
    have c := C27_count l pieces h nc ts gid _ (by simp only [List.length_cons]; omega) s hs
    have c' := C27_count l pieces h nc ts' gid' _ (by simp only [List.length_cons]; omega) s' hs'
    have z : ∀ sort : DCall → Bool, (∀ u, sort (.setUnit u) = false) → (∀ v t, sort (.add v t) = false) →
        (∀ d, number sort none (trace d (.setUnit u :: hist)) = 0) ∧ ∀ d, number sort none (trace d (.setUnit u :: hist')) = 0 := by
      intro sort s1 s2
      have : ∀ hs : List DCall, (∀ c ∈ hs, isAdd c = true) → ∀ c ∈ DCall.setUnit u :: hs, sort c = false := by
        intro hs hh c hc
        rcases List.mem_cons.mp hc with rfl | hc
        · exact s1 u
        · have := hh c hc
          cases c with
          | add v t => exact s2 v t
          | _ => cases this
      exact ⟨fun d => number_zero _ _ _ _ (this hist ha), fun d => number_zero _ _ _ _ (this hist' ha')⟩
    have z1 := z isRemove (fun _ => rfl) fun _ _ => rfl
    have z2 := z isUpdate (fun _ => rfl) fun _ _ => rfl
    rw [z1.1, z2.1] at g
    rw [z1.2, z2.2] at g'
    rw [z1.1] at c
    rw [z1.2] at c'
    omega
  · have h0 : s.count ≠ 0 := by omega
    obtain ⟨-, -, e3, e4, -, -, e7⟩ := f5 (by rw [← f1]; exact h0)
    obtain ⟨-, -, e3', e4', -, -, e7'⟩ := f5' (by rw [← f1', ← hcount]; exact h0)
    generalize (newDist pieces nc ts gid).calls (.setUnit u :: hist) = d at *
    generalize (newDist pieces nc ts' gid').calls (.setUnit u :: hist') = d' at *
    have k1 : d.counts = d'.counts := by rw [← f4, ← f4']; unfold rangeCounts; rw [hbd]
    have k2 : d.count = d'.count := by rw [← f1, ← f1', hcount]
    have k3 : d.min = d'.min := by rw [← e3, ← e3', (hmm h0).1]
    have k4 : d.max = d'.max := by rw [← e4, ← e4', (hmm h0).2]
    have k5 : d.pieces = d'.pieces := hpc.trans hpc'.symm
    have k6 : ∀ n, d.indexToValue n = d'.indexToValue n := by
      intro n; unfold Dist.indexToValue; rw [k1, k3, k4, k5]
    have : d.calculateMedian = d'.calculateMedian := by
      unfold Dist.calculateMedian
      have hc3 : ¬ d.count ≤ 2 := by rw [← f1]; omega
      rw [if_neg hc3, if_neg (show ¬ d'.count ≤ 2 by rw [← k2]; exact hc3)]
      simp only [k2, k6]
    rw [e7, e7'] at this
    exact Option.some.inj this

/-- **C89** The same with everything running: event loops, requests that wait for groups, and update functions, which may record
values too. -/
theorem C89_whole {w : World} {A : Type} {tr T B : List (Whole.Item A)} {e : Whole.Item A} {s : Whole.St A} (hr : Whole.Run w tr s)
    (hH : tr = T ++ e :: B) {i : ℕ} {pieces : List (Piece Fl)} {nc : Bool} {ts : Time}
    (he : memStep e = some (.newDist pieces nc ts)) (hi : e.pre.dists.length = i) :
    (∀ B1 e' B2, B = B1 ++ e' :: B2 →
      e'.pre.dists[i]? = some ((newDist pieces nc ts e.pre.nextId).calls (asked i (B1.filterMap memStep)))) ∧
    s.mem.dists[i]? = some ((newDist pieces nc ts e.pre.nextId).calls (asked i (B.filterMap memStep))) := by
  have hpre := hr.after_pre hH
  have h0 : (exec w (.newDist pieces nc ts) e.pre).1.dists[i]? = some (newDist pieces nc ts e.pre.nextId) := by
    subst hi
    show (e.pre.dists ++ _)[_]? = _
    simp
  constructor
  · rintro B1 e' B2 rfl
    have h1 := hr.after_pre (B := T ++ e :: B1) (e := e') (C := B2) (by rw [hH]; simp)
    rw [h1, List.filterMap_append, after_append, List.filterMap_cons, he]
    show (after w (B1.filterMap memStep) (exec w _ _).1).dists[i]? = _
    rw [← hpre]
    exact after_dist _ h0
  · rw [hr.after, hH, List.filterMap_append, after_append, List.filterMap_cons, he]
    show (after w (B.filterMap memStep) (exec w _ _).1).dists[i]? = _
    rw [← hpre]
    exact after_dist _ h0

end Tricorder

/-! ### Example: the first goroutine makes a distribution and registers it; two others add 2^53, and 1 twice -/

namespace Tricorder.App
open Go _root_.Spec

def exMakes : G :=
  .op (.newDist onePieces false ⟨0, 0⟩) fun (i : ℕ) =>
    call (Api.dirRegisterMetricInGroup exW.fnTy 0 (lit "/h") (.dist (some i)) (some 0) .second []) fun _ => .done

def exAdds : G := .op (.distCall 0 (.add (f64 9007199254740992) ⟨1, 0⟩)) fun _ => .done

def exAdds2 : G := .op (.distCall 0 (.add (f64 1) ⟨2, 0⟩)) fun _ => .op (.distCall 0 (.add (f64 1) ⟨3, 0⟩)) fun _ => .done

theorem exMakes_calls : Calls exW.fnTy 1 exMakes :=
  .single _ trivial fun i m hm => .registerMetric 0 (lit "/h") (.dist (some i)) (some 0) .second [] (by omega) fun _ _ _ => .done

theorem exAdds_calls : Calls exW.fnTy 1 exAdds := .single _ trivial fun _ _ _ => .done

theorem exAdds2_calls : Calls exW.fnTy 1 exAdds2 := .single _ trivial fun _ _ _ => .single _ trivial fun _ _ _ => .done

def exOne : List Move := .start exMakes :: .start exAdds :: .start exAdds2 :: [.go 0, .go 0, .go 0, .go 1, .go 2, .go 2]
def exTwo : List Move := .start exMakes :: .start exAdds :: .start exAdds2 :: [.go 0, .go 0, .go 0, .go 2, .go 2, .go 1]

/-- what is seen of distribution 0 in the end -/
def exSeen (ms : List Move) : Option (List ℕ × List Fl) :=
  (play exW ms start).bind fun r => (r.2.mem.dists[0]?).bind fun d => d.snapshot.map fun s =>
    (s.count :: rangeCounts s, [s.min, s.max, s.median, s.sum])

theorem exPlayed {ms : List Move} (hm : ms = exOne ∨ ms = exTwo) {H : List Item} {y : St} (h : play exW ms start = some (H, y)) :
    Run exW start H y := by
  refine play_run h fun g hg => ?_
  have : g = exMakes ∨ g = exAdds ∨ g = exAdds2 := by
    rcases hm with rfl | rfl <;>
      simpa [exOne, exTwo, List.mem_cons, reduceCtorEq, List.not_mem_nil, or_false, Move.start.injEq] using hg
  rcases this with rfl | rfl | rfl
  · exact exMakes_calls
  · exact exAdds_calls
  · exact exAdds2_calls

/-- **C89 does not extend to the sum**: the same application gives another Sum (and average) if its goroutines take turns in another
order, since additions of float64 are rounded; all else agrees. -/
theorem C89_sum_depends_on_order :
    exSeen exOne = some ([3, 0, 3], [.fin 1, .fin 9007199254740992, .fin 4503599627370496, .fin 9007199254740992]) ∧
    exSeen exTwo = some ([3, 0, 3], [.fin 1, .fin 9007199254740992, .fin 4503599627370496, .fin 9007199254740994]) := by
  decide +kernel

/-- the hypotheses of the theorems about applications -/
example : ∃ (H A B : List Item) (e : Item) (y : St), Run exW start H y ∧ H = A ++ e :: B ∧ e.cmd = .newDist onePieces false ⟨0, 0⟩ ∧
    e.pre.dists.length = 0 ∧ newArbitraryBucketer [Fl.fin 1] = .ok onePieces ∧ B.length = 5 := by
  obtain ⟨H, y, h⟩ : ∃ H y, play exW exOne start = some (H, y) := by
    have : (play exW exOne start).isSome = true := by decide +kernel
    obtain ⟨x, hx⟩ := Option.isSome_iff_exists.mp this
    exact ⟨x.1, x.2, hx⟩
  have h1 : (play exW exOne start).bind (fun r => r.1.head?.map fun e => (e.cmd, e.pre.dists.length)) =
      some (.newDist onePieces false ⟨0, 0⟩, 0) := rfl
  have h2 : (play exW exOne start).map (fun r => r.1.length) = some 6 := by decide +kernel
  rw [h] at h1 h2
  cases H with
  | nil => cases h1
  | cons e B =>
    simp only [Option.bind_some, List.head?_cons, Option.map_some, Option.some.injEq, Prod.mk.injEq] at h1
    simp only [Option.map_some, List.length_cons, Option.some.injEq] at h2
    exact ⟨_, [], B, e, y, exPlayed (.inl rfl) h, rfl, h1.1, h1.2, by decide +kernel, by omega⟩

/-- the hypotheses of `C89_any_order` -/
example : Ascending [Fl.fin 1] ∧
    (added .second [.add (f64 9007199254740992) ⟨1, 0⟩, .add (f64 1) ⟨2, 0⟩, .add (f64 1) ⟨3, 0⟩]).Perm
      (added .second [.add (f64 1) ⟨2, 0⟩, .add (f64 1) ⟨3, 0⟩, .add (f64 9007199254740992) ⟨1, 0⟩]) ∧
    (∀ v ∈ added .second [.add (f64 9007199254740992) ⟨1, 0⟩, .add (f64 1) ⟨2, 0⟩, .add (f64 1) ⟨3, 0⟩], v ≠ .nan ∧ v ≠ .negZero) := by
  decide +kernel

end Tricorder.App
