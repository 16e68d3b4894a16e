import Verif.Proof.Joint3
import Verif.Proof.PlayJ
import Verif.Props.Ex
/-!
# C76: registrations at the same time
-/

namespace Tricorder
open Go Spec Tree

variable {w : World} {ι : Type} [DecidableEq ι] {cs : ι → RegCall} {s s' : State} {H : List (JEv ι)}
  {rs : ι → Out (Except RegErr Unit)} {ab : ι → List Str}

/-- **C76 (why one fails)** If a call returns `ErrPathInUse` then something was in its way when all began, or another of
the calls is: one that registered a metric on the way or at the same path, or, if it is a metric that the call was to
register, one whose path goes on from there. -/
theorem C76_error (hr : JRun w cs s H s' rs ab) {i : ι} (hi : rs i = .ok (.error .pathInUse)) :
    (cs i).Blocked s.tree (ab i) ∨ ∃ j, j ≠ i ∧
      ((cs j).isMetric ∧ rs j = .ok (.ok ()) ∧ ab j <+: ab i ∨
        (cs i).isMetric ∧ ab i <+: ab j ∧ ((cs j).isMetric → ab i ≠ ab j)) := by
  obtain ⟨a, ha, hab⟩ := hr.base i
  have ha' := (hr.stays i ha).2
  have metric : ∀ {u m}, u <+: ab i → Reaches s'.tree 0 u (.metric m) → (cs i).Blocked s.tree (ab i) ∨ ∃ j, j ≠ i ∧
      ((cs j).isMetric ∧ rs j = .ok (.ok ()) ∧ ab j <+: ab i ∨
        (cs i).isMetric ∧ ab i <+: ab j ∧ ((cs j).isMetric → ab i ≠ ab j)) := by
    intro u m hu hx
    rcases hr.account hx with h | ⟨j, ⟨_, _, h1, h2, h3⟩ | ⟨_, h1, _⟩⟩
    · exact Or.inl (Or.inl ⟨u, m, hu, h⟩)
    · refine Or.inr ⟨j, fun hji => ?_, Or.inl ⟨h1, h2, h3 ▸ hu⟩⟩
      rw [hji, hi] at h2
      cases h2
    · cases h1
  rcases (hr.call i).2 with ⟨h, _⟩ | ⟨_, ⟨_, ⟨u, m, hu, hx⟩ | ⟨hm, n, hx⟩⟩ | ⟨_, h, _⟩⟩
  · rw [hi] at h; cases h
  · refine metric ?_ (reaches_trans ha' hx)
    rw [hab]
    exact (List.prefix_append_right_inj a).mpr hu
  · have hx' := reaches_trans ha' hx
    rw [← hab] at hx'
    cases n with
    | metric m => exact metric (List.prefix_refl _) hx'
    | dir d =>
      rcases hr.account hx' with h | ⟨j, ⟨_, h1, _⟩ | ⟨_, _, h2, h3⟩⟩
      · exact Or.inl (Or.inr ⟨hm, _, h⟩)
      · cases h1
      · refine Or.inr ⟨j, fun hji => ?_, Or.inr ⟨hm, h2, h3⟩⟩
        subst hji
        exact h3 hm rfl
  · exact absurd hi h

/-- **C76 (what is there)** At the end the metrics are those that were there before and those that were registered with
success, each with the description and the value given to its call; a directory registered with success is there. -/
theorem C76_final (hr : JRun w cs s H s' rs ab) :
    (∀ q m, Reaches s'.tree 0 q (.metric m) →
      Reaches s.tree 0 q (.metric m) ∨ ∃ j, (cs j).isMetric ∧ rs j = .ok (.ok ()) ∧ q = ab j) ∧
    (∀ i, (cs i).isMetric → rs i = .ok (.ok ()) → ∃ m de v en, Reaches s'.tree 0 (ab i) (.metric m) ∧
      s'.tree.metrics[m]? = some ⟨de, v, en⟩ ∧ (cs i).Makes de v ∧ ¬ ∃ n, Reaches s.tree 0 (ab i) n) ∧
    (∀ i, ¬ (cs i).isMetric → rs i = .ok (.ok ()) → ∃ d, Reaches s'.tree 0 (ab i) (.dir d)) ∧
    (∀ _ : ι, ∀ q n, Reaches s.tree 0 q n → Reaches s'.tree 0 q n) := by
  refine ⟨fun q m hx => ?_, fun i hm hi => ?_, fun i hm hi => ?_, fun i q n hx => (hr.stays i hx).2⟩
  · rcases hr.account hx with h | ⟨j, ⟨_, _, h1, h2, h3⟩ | ⟨_, h1, _⟩⟩
    · exact Or.inl h
    · exact Or.inr ⟨j, h1, h2, h3⟩
    · cases h1
  · obtain ⟨H1, e, H2, m, de, v, en, h1, _, h3, h4, h5, h6⟩ := hr.stored hm hi
    have he : e ∈ H := by rw [h1]; simp
    obtain ⟨k1, k2⟩ := hr.after i h1
    exact ⟨m, de, v, en, (k1 _ _ _ h4).2, k2 _ _ h5, h6, fun ⟨n, hn⟩ => h3 n ((hr.stays i hn).1 e he)⟩
  · obtain ⟨a, ha, hab⟩ := hr.base i
    rcases (hr.call i).2 with ⟨_, h, _⟩ | ⟨_, ⟨h, _⟩ | ⟨h, _⟩⟩
    · obtain ⟨d, hd⟩ := h hm
      exact ⟨d, hab ▸ reaches_trans (hr.stays i ha).2 hd⟩
    · rw [hi] at h; cases h
    · exact absurd hi h

/-- **C76 (what was there first wins)** A call that something stands in the way of when all begins does not succeed. -/
theorem C76_blocked (hr : JRun w cs s H s' rs ab) {i : ι} (hb : (cs i).Blocked s.tree (ab i)) : rs i ≠ .ok (.ok ()) := by
  intro hi
  have ht := reachable_isTree (hr.final i)
  obtain ⟨_, f2, f3, f4⟩ := C76_final hr
  by_cases hm : (cs i).isMetric
  · obtain ⟨m, _, _, _, h1, _, _, h2⟩ := f2 i hm hi
    rcases hb with ⟨u, m', ⟨x, hu⟩, hx⟩ | ⟨_, h⟩
    · have := f4 i _ _ hx
      have hx0 : x = [] := reaches_metric_prefix ht (by rw [hu]; exact h1) this
      subst hx0
      rw [List.append_nil] at hu
      exact h2 ⟨_, hu ▸ hx⟩
    · exact h2 h
  · obtain ⟨d, h1⟩ := f3 i hm hi
    rcases hb with ⟨u, m', ⟨x, hu⟩, hx⟩ | ⟨h, _⟩
    · have := f4 i _ _ hx
      have hx0 : x = [] := reaches_metric_prefix ht (by rw [hu]; exact h1) this
      subst hx0
      rw [List.append_nil] at hu
      subst hu
      cases reaches_unique ht h1 this
    · exact hm h

/-- **C76 (no two at one place)** If two calls succeed then neither has registered a metric on the way to, or at the path
of, the other. -/
theorem C76_exclusive (hr : JRun w cs s H s' rs ab) {i j : ι} (hij : i ≠ j) (hm : (cs i).isMetric)
    (hi : rs i = .ok (.ok ())) (hj : rs j = .ok (.ok ())) : ¬ ab i <+: ab j := by
  rintro ⟨x, hx⟩
  have ht := reachable_isTree (hr.final i)
  obtain ⟨_, f2, f3, _⟩ := C76_final hr
  obtain ⟨m, _, _, _, h1, _⟩ := f2 i hm hi
  have hsome : ∃ n, Reaches s'.tree 0 (ab j) n := by
    by_cases hmj : (cs j).isMetric
    · obtain ⟨m, _, _, _, h1, _⟩ := f2 j hmj hj
      exact ⟨_, h1⟩
    · obtain ⟨d, h1⟩ := f3 j hmj hj
      exact ⟨_, h1⟩
  obtain ⟨n, hn⟩ := hsome
  have hx0 : x = [] := reaches_metric_prefix ht (by rw [hx]; exact hn) h1
  subst hx0
  rw [List.append_nil] at hx
  have hmj : (cs j).isMetric := by
    by_contra hmj
    obtain ⟨d, h2⟩ := f3 j hmj hj
    rw [hx] at h1
    cases reaches_unique ht h1 h2
  obtain ⟨A1, e, A2, m1, _, _, _, a1, a2, a3, a4, _⟩ := hr.stored hm hi
  obtain ⟨B1, e', B2, m2, _, _, _, b1, b2, b3, b4, _⟩ := hr.stored hmj hj
  have hee : e ≠ e' := by
    rintro rfl
    rw [a2] at b2
    exact hij (Option.some.inj b2)
  rw [a1] at b1
  rcases List.append_eq_append_iff.mp b1 with ⟨C, c1, c2⟩ | ⟨C, c1, c2⟩
  · cases C with
    | nil => exact hee (List.cons.inj c2).1
    | cons y C =>
      obtain ⟨rfl, c3⟩ := List.cons.inj c2
      exact b3 _ (((hr.after i a1).1 _ _ _ (hx ▸ a4)).1 e' (by rw [c3]; simp))
  · cases C with
    | nil => exact hee (List.cons.inj c2).1.symm
    | cons y C =>
      obtain ⟨rfl, c3⟩ := List.cons.inj c2
      have hH : H = B1 ++ e' :: B2 := a1.trans b1
      exact a3 _ (((hr.after i hH).1 _ _ _ (hx ▸ b4)).1 e (by rw [c3]; simp))

/-- the result is success or `ErrPathInUse`, if the value can be registered -/
theorem joint_fine (hr : JRun w cs s H s' rs ab) {i : ι}
    (hv : ∀ σ ∈ H.map JEv.pre ++ [s'], (cs i).ValueFine w σ) : rs i = .ok (.ok ()) ∨ rs i = .ok (.error .pathInUse) := by
  rcases (hr.call i).2 with ⟨h, _⟩ | ⟨_, ⟨h, _⟩ | ⟨_, _, σ, h1, h2⟩⟩
  · exact Or.inl h
  · exact Or.inr h
  · refine absurd (hv σ ?_) h2
    have : (H.map (JEv.own i)).map Ev.pre = H.map JEv.pre := by rw [List.map_map]; rfl
    rwa [statesOf, this] at h1

/-- **C76 (compatible calls)** If nothing is in the way of any of the calls when all begins, no metric is to be registered
on the way to or at the path of another call, and the values can be registered, then all calls succeed, in whatever order
their steps are taken. -/
theorem C76_compatible (hr : JRun w cs s H s' rs ab) (hb : ∀ i, ¬ (cs i).Blocked s.tree (ab i))
    (hd : ∀ i j, i ≠ j → (cs i).isMetric → ¬ ab i <+: ab j)
    (hv : ∀ i, ∀ σ ∈ H.map JEv.pre ++ [s'], (cs i).ValueFine w σ) (i : ι) : rs i = .ok (.ok ()) := by
  rcases joint_fine hr (hv i) with h | h
  · exact h
  · rcases C76_error hr h with h | ⟨j, hj, ⟨h1, _, h2⟩ | ⟨h1, h2, _⟩⟩
    · exact absurd h (hb i)
    · exact absurd h2 (hd j i hj h1)
    · exact absurd h2 (hd i j hj.symm h1)

/-- **C76 (the race for a path)** If all calls register metrics at one path, at which and on the way to which there is
nothing but directories when all begins, and the values can be registered, then exactly one call succeeds and all others
return `ErrPathInUse`. -/
theorem C76_race (hr : JRun w cs s H s' rs ab) [Nonempty ι] {p : List Str} (hp : ∀ i, ab i = p)
    (hm : ∀ i, (cs i).isMetric) (hb : ∀ i, ¬ (cs i).Blocked s.tree (ab i))
    (hv : ∀ i, ∀ σ ∈ H.map JEv.pre ++ [s'], (cs i).ValueFine w σ) :
    ∃ i, rs i = .ok (.ok ()) ∧ ∀ j, j ≠ i → rs j = .ok (.error .pathInUse) := by
  have hex : ∃ i, rs i = .ok (.ok ()) := by
    by_contra hno
    obtain ⟨i⟩ := ‹Nonempty ι›
    rcases joint_fine hr (hv i) with h | h
    · exact hno ⟨i, h⟩
    · rcases C76_error hr h with h | ⟨j, _, ⟨_, h, _⟩ | ⟨_, _, h⟩⟩
      · exact hb i h
      · exact hno ⟨j, h⟩
      · exact h (hm j) (by rw [hp, hp])
  obtain ⟨i, hi⟩ := hex
  refine ⟨i, hi, fun j hj => ?_⟩
  rcases joint_fine hr (hv j) with h | h
  · exact absurd (by rw [hp, hp]) (C76_exclusive hr hj.symm (hm i) hi h)
  · exact h

/-! ### Examples -/

/-- two goroutines register metrics: one from the root, by the path `/a/x/y`, the other in the directory `/a`, by the path
`x/y` -/
def exRace : Bool → RegCall
  | true => .metric 0 (lit "/a/x/y") (.func 1 0) none .none (lit "first")
  | false => .metric 1 (lit "x/y") (.func 1 0) none .byte (lit "second")

/-- they create directories by turns; then the second goroutine is faster -/
def exTurns : List Bool := [true, false, true, false, true]

def exRes : Bool → Out (Except RegErr Unit)
  | true => .ok (.error .pathInUse)
  | false => .ok (.ok ())

theorem exRace_run : ∃ H s', JRun exW exRace exS H s' exRes (fun _ => [nA, lit "x", lit "y"]) := by
  obtain ⟨H, s', h1, h2, _⟩ := playsJ_joint (w := exW) (all := [true, false]) (is := exTurns) (by decide)
    (ps := fun i => (exRace i).prog exW) (s := exS) (rs := exRes) (Q := fun _ _ => true) (by decide +kernel)
  refine ⟨H, s', h1, exS_reachable, fun i => ?_, fun e he hn => absurd hn (h2 e he)⟩
  have ht := reachable_isTree exS_reachable
  cases i
  · exact ⟨[nA], [lit "x", lit "y"], (resolve_iff ht).mp (by decide +kernel),
      by rw [show [lit "x", lit "y"] = newPathSpec (lit "x/y") by decide +kernel]; exact C01_components _, by decide⟩
  · exact ⟨[], [nA, lit "x", lit "y"], .here 0,
      by rw [show [nA, lit "x", lit "y"] = newPathSpec (lit "/a/x/y") by decide +kernel]; exact C01_components _, by decide⟩

theorem exRace_free (i : Bool) : ¬ (exRace i).Blocked exS.tree [nA, lit "x", lit "y"] := by
  have ht := reachable_isTree exS_reachable
  rintro (⟨u, m, hu, hx⟩ | ⟨_, n, hx⟩)
  · have hx := (resolve_iff ht).mpr hx
    have hl : u.length ≤ 3 := hu.length_le
    rw [List.prefix_iff_eq_take.mp hu] at hx
    generalize u.length = k at hl hx
    have h4 : ∀ k < 4, ∀ m, exS.tree.resolve 0 ([nA, lit "x", lit "y"].take k) = some (.metric m) → False := by
      intro k hk m
      have : k = 0 ∨ k = 1 ∨ k = 2 ∨ k = 3 := by omega
      rcases this with rfl | rfl | rfl | rfl
      · rw [show exS.tree.resolve 0 ([nA, lit "x", lit "y"].take 0) = some (.dir 0) by decide +kernel]; exact fun h => nomatch h
      · rw [show exS.tree.resolve 0 ([nA, lit "x", lit "y"].take 1) = some (.dir 1) by decide +kernel]; exact fun h => nomatch h
      · rw [show exS.tree.resolve 0 ([nA, lit "x", lit "y"].take 2) = none by decide +kernel]; exact fun h => nomatch h
      · rw [show exS.tree.resolve 0 ([nA, lit "x", lit "y"].take 3) = none by decide +kernel]; exact fun h => nomatch h
    exact h4 k (by omega) m hx
  · have hx := (resolve_iff ht).mpr hx
    rw [show exS.tree.resolve 0 [nA, lit "x", lit "y"] = none by decide +kernel] at hx
    cases hx

/-- whether a function can be registered depends on its type only -/
theorem exRace_value (i : Bool) (σ : State) : (exRace i).ValueFine exW σ := by
  cases i <;> rfl

/-- the hypotheses of `C76_race` hold here, and those of `C76_error` for the first goroutine -/
example : ∃ H s', JRun exW exRace exS H s' exRes (fun _ => [nA, lit "x", lit "y"]) ∧
    (∀ i, (exRace i).isMetric ∧ ¬ (exRace i).Blocked exS.tree [nA, lit "x", lit "y"]) ∧
    (∀ i, ∀ σ ∈ H.map JEv.pre ++ [s'], (exRace i).ValueFine exW σ) ∧ exRes true = .ok (.error .pathInUse) := by
  obtain ⟨H, s', h⟩ := exRace_run
  exact ⟨H, s', h, fun i => ⟨by cases i <;> trivial, exRace_free i⟩, fun i σ _ => exRace_value i σ, rfl⟩

/-- one goroutine registers a metric, `/a/x/y`, the other a directory, `/a/x`: nobody is in the way of the other -/
def exBoth : Bool → RegCall
  | true => .metric 0 (lit "/a/x/y") (.func 1 0) none .none (lit "first")
  | false => .directory 1 (lit "x")
def exBothAt : Bool → List Str
  | true => [nA, lit "x", lit "y"]
  | false => [nA, lit "x"]

/-- the hypotheses of `C76_compatible` -/
example : ∃ H s', JRun exW exBoth exS H s' (fun _ => .ok (.ok ())) exBothAt ∧
    (∀ i, ¬ (exBoth i).Blocked exS.tree (exBothAt i)) ∧ (∀ i j, i ≠ j → (exBoth i).isMetric → ¬ exBothAt i <+: exBothAt j) ∧
    (∀ i, ∀ σ ∈ H.map JEv.pre ++ [s'], (exBoth i).ValueFine exW σ) := by
  obtain ⟨H, s', h1, h2, _⟩ := playsJ_joint (w := exW) (all := [true, false]) (is := [true, false, true, true]) (by decide)
    (ps := fun i => (exBoth i).prog exW) (s := exS) (rs := fun _ => .ok (.ok ())) (Q := fun _ _ => true) (by decide +kernel)
  have ht := reachable_isTree exS_reachable
  refine ⟨H, s', ⟨h1, exS_reachable, fun i => ?_, fun e he hn => absurd hn (h2 e he)⟩, fun i => ?_, ?_,
    fun i σ _ => by cases i; exacts [trivial, rfl]⟩
  · cases i
    · exact ⟨[nA], [lit "x"], (resolve_iff ht).mp (by decide +kernel),
        by rw [show [lit "x"] = newPathSpec (lit "x") by decide +kernel]; exact C01_components _, by decide⟩
    · exact ⟨[], [nA, lit "x", lit "y"], .here 0,
        by rw [show [nA, lit "x", lit "y"] = newPathSpec (lit "/a/x/y") by decide +kernel]; exact C01_components _, by decide⟩
  · cases i
    · rintro (⟨u, m, hu, hx⟩ | ⟨h, _⟩)
      · have hx := (resolve_iff ht).mpr hx
        have hl : u.length ≤ 2 := hu.length_le
        rw [List.prefix_iff_eq_take.mp hu] at hx
        generalize u.length = k at hl hx
        have : k = 0 ∨ k = 1 ∨ k = 2 := by omega
        rcases this with rfl | rfl | rfl
        · rw [show exS.tree.resolve 0 ((exBothAt false).take 0) = some (.dir 0) by decide +kernel] at hx; cases hx
        · rw [show exS.tree.resolve 0 ((exBothAt false).take 1) = some (.dir 1) by decide +kernel] at hx; cases hx
        · rw [show exS.tree.resolve 0 ((exBothAt false).take 2) = none by decide +kernel] at hx; cases hx
      · exact h
    · exact exRace_free true
  · intro i j hij hm
    cases i
    · exact hm.elim
    · cases j
      · decide +kernel
      · exact absurd rfl hij

end Tricorder
