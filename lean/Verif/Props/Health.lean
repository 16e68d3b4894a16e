import Verif.Proof.Health
/-!
# C53: the health server

`Run tr s`: some interleaving of any number of goroutines with calls of the package leads from the start of the program
to the state `s`; `tr` are the calls and returns in the order in which they happened.
-/

namespace Tricorder.Health
open Go Spec

/-- **C53** In every run the calls behave as if each took effect at one moment between its start and its end: there is an
order of the calls, with each call that returned before another one started coming first, such that each result is the
one for the latest setting before it in this order, see `Spec.result`. -/
theorem C53_linearizable {tr : List Ev} {s : State} (hr : Run tr s) : ∃ L, Explains tr L := by
  obtain ⟨L, h⟩ := run_inv hr
  exact ⟨L, inv_explains h⟩

/-- **C53 (`/healthz`, 200)** In an order of calls: `/healthz` answers 200 with `OK` exactly if every accepted
`SetNotHealthy` has a `SetHealthy` after it. -/
theorem C53_healthy (before : List Call) : result before .healthz = .page 200 (lit "OK") ↔
    ∀ a s b, before = a ++ .setNotHealthy s :: b → ¬ Rejected s → Call.setHealthy ∈ b := by
  refine page_ok.trans ⟨?_, ?_⟩
  · rintro h a s b rfl hs
    by_contra hb
    rcases latest_cases setsHealth none b with ⟨a', c, b', v, rfl, h1, h2, -⟩ | ⟨h1, -⟩
    · rw [show a ++ .setNotHealthy s :: (a' ++ c :: b') = (a ++ .setNotHealthy s :: a') ++ c :: b' by simp,
        latest_of h1 h2] at h
      rcases setsHealth_some.mp h1 with ⟨rfl, -⟩ | ⟨t, -, -, h3⟩
      · simp at hb
      · rw [h3] at h; cases h
    · rw [latest_of (setsHealth_some.mpr (Or.inr ⟨s, rfl, hs, rfl⟩)) h1] at h
      cases h
  · intro h
    rcases latest_cases setsHealth none before with ⟨a, c, b, v, rfl, h1, h2, h3⟩ | ⟨-, h1⟩
    · rw [h3]
      rcases setsHealth_some.mp h1 with ⟨rfl, h4⟩ | ⟨s, rfl, h5, h4⟩
      · exact h4
      · exact absurd rfl (setsHealth_none.mp (h2 _ (h a s b rfl h5))).1
    · exact h1

/-- **C53 (`/healthz`, 503)** It answers 503 with the text `s` exactly if `SetNotHealthy(s)` is the latest accepted
setting. -/
theorem C53_unhealthy (before : List Call) (s : Str) : result before .healthz = .page 503 (s ++ [10]) ↔
    ∃ a b, before = a ++ .setNotHealthy s :: b ∧ ¬ Rejected s ∧ Call.setHealthy ∉ b ∧
      ∀ t, Call.setNotHealthy t ∈ b → Rejected t := by
  refine page_bad.trans ⟨?_, ?_⟩
  · intro h
    rcases latest_cases setsHealth none before with ⟨a, c, b, v, rfl, h1, h2, h3⟩ | ⟨-, h1⟩
    · rw [h3] at h
      subst h
      rcases setsHealth_some.mp h1 with ⟨-, h4⟩ | ⟨s', rfl, h5, h4⟩
      · cases h4
      · cases h4
        exact ⟨a, b, rfl, h5, fun hm => (setsHealth_none.mp (h2 _ hm)).1 rfl,
          fun t hm => (setsHealth_none.mp (h2 _ hm)).2 t rfl⟩
    · rw [h1] at h; cases h
  · rintro ⟨a, b, rfl, h1, h2, h3⟩
    refine latest_of (setsHealth_some.mpr (Or.inr ⟨s, rfl, h1, rfl⟩)) fun d hd => setsHealth_none.mpr ⟨?_, ?_⟩
    · rintro rfl; exact h2 hd
    · rintro t rfl; exact h3 t hd

/-- **C53 (`/readiness`, 200)** `/readiness` answers 200 with `OK` exactly if `SetReady` is the latest accepted setting. -/
theorem C53_ready (before : List Call) : result before .readiness = .page 200 (lit "OK") ↔
    ∃ a b, before = a ++ .setReady :: b ∧ ∀ t, Call.setNotReady t ∈ b → Rejected t := by
  refine page_ok.trans ⟨?_, ?_⟩
  · intro h
    rcases latest_cases setsReady (some (lit "not ready")) before with ⟨a, c, b, v, rfl, h1, h2, h3⟩ | ⟨-, h1⟩
    · rw [h3] at h
      subst h
      rcases setsReady_some.mp h1 with ⟨rfl, -⟩ | ⟨s, rfl, -, h4⟩
      · exact ⟨a, b, rfl, fun t hm => (setsReady_none.mp (h2 _ hm)).2 t rfl⟩
      · cases h4
    · rw [h1] at h; cases h
  · rintro ⟨a, b, rfl, h⟩
    rcases latest_cases setsReady (some (lit "not ready")) b with ⟨a', c, b', v, rfl, h1, h2, -⟩ | ⟨h1, -⟩
    · rw [show a ++ .setReady :: (a' ++ c :: b') = (a ++ .setReady :: a') ++ c :: b' by simp, latest_of h1 h2]
      rcases setsReady_some.mp h1 with ⟨-, h3⟩ | ⟨t, rfl, h4, -⟩
      · exact h3
      · exact absurd (h t (by simp)) h4
    · exact latest_of rfl h1

/-- **C53 (`/readiness`, 503)** It answers 503 with the text `s` exactly if `SetNotReady(s)` is the latest accepted
setting, or if there is none and `s` is `not ready`. -/
theorem C53_unready (before : List Call) (s : Str) : result before .readiness = .page 503 (s ++ [10]) ↔
    (∃ a b, before = a ++ .setNotReady s :: b ∧ ¬ Rejected s ∧ Call.setReady ∉ b ∧
      ∀ t, Call.setNotReady t ∈ b → Rejected t) ∨
    (s = lit "not ready" ∧ Call.setReady ∉ before ∧ ∀ t, Call.setNotReady t ∈ before → Rejected t) := by
  refine page_bad.trans ⟨?_, ?_⟩
  · intro h
    rcases latest_cases setsReady (some (lit "not ready")) before with ⟨a, c, b, v, rfl, h1, h2, h3⟩ | ⟨h2, h1⟩
    · rw [h3] at h
      subst h
      rcases setsReady_some.mp h1 with ⟨-, h4⟩ | ⟨s', rfl, h5, h4⟩
      · cases h4
      · cases h4
        exact Or.inl ⟨a, b, rfl, h5, fun hm => (setsReady_none.mp (h2 _ hm)).1 rfl,
          fun t hm => (setsReady_none.mp (h2 _ hm)).2 t rfl⟩
    · rw [h1] at h
      cases h
      exact Or.inr ⟨rfl, fun hm => (setsReady_none.mp (h2 _ hm)).1 rfl,
        fun t hm => (setsReady_none.mp (h2 _ hm)).2 t rfl⟩
  · rintro (⟨a, b, rfl, h1, h2, h3⟩ | ⟨rfl, h2, h3⟩)
    · refine latest_of (setsReady_some.mpr (Or.inr ⟨s, rfl, h1, rfl⟩)) fun d hd => setsReady_none.mpr ⟨?_, ?_⟩
      · rintro rfl; exact h2 hd
      · rintro t rfl; exact h3 t hd
    · refine latest_start fun d hd => setsReady_none.mpr ⟨?_, ?_⟩
      · rintro rfl; exact h2 hd
      · rintro t rfl; exact h3 t hd

/-- **C53 (rejected arguments)** A call of a setting function panics exactly if its argument is rejected.  By
`C53_healthy` and the others such calls have no effect on any answer. -/
theorem C53_panics {tr : List Ev} {s : State} (hr : Run tr s) {i : ℕ} {r : Result} (h : Ev.ret i r ∈ tr) :
    ∃ c, Ev.inv i c ∈ tr ∧ (r = .panicked ↔ ∃ t, (c = .setNotHealthy t ∨ c = .setNotReady t) ∧ Rejected t) := by
  obtain ⟨L, hL⟩ := C53_linearizable hr
  obtain ⟨c, hc⟩ := hL.all i r h
  obtain ⟨a, b, hab⟩ := List.append_of_mem hc
  have := hL.results a i c b r (by rw [hab]; simp) h
  refine ⟨c, hL.made _ hc, ?_⟩
  rw [this]
  cases c <;> simp [result, Rejected]
  · exact or_iff_not_imp_left.symm
  · exact or_iff_not_imp_left.symm
  · cases latest setsHealth none (a.map Prod.snd) <;> exact fun h => nomatch h
  · cases latest setsReady (some (lit "not ready")) (a.map Prod.snd) <;> exact fun h => nomatch h

/-- **C53 (no data race)** No request reads a status that is being assigned. -/
theorem C53_no_race {tr : List Ev} {s : State} (hr : Run tr s) (i : ℕ) : Ev.ret i .garbage ∉ tr := by
  intro h
  obtain ⟨L, hL⟩ := C53_linearizable hr
  obtain ⟨c, hc⟩ := hL.all i _ h
  obtain ⟨a, b, hab⟩ := List.append_of_mem hc
  have := hL.results a i c b _ (by rw [hab]; simp) h
  revert this
  cases c <;> simp [result]
  · split <;> simp
  · split <;> simp
  · cases latest setsHealth none (a.map Prod.snd) <;> simp [page]
  · cases latest setsReady (some (lit "not ready")) (a.map Prod.snd) <;> simp [page]

/-- **C53 (no deadlock)** Every run can go on until all calls made so far have returned. -/
theorem C53_can_finish {tr : List Ev} {s : State} (hr : Run tr s) : ∃ tr' s', Run (tr ++ tr') s' ∧
    s'.calls.map Prod.fst = s.calls.map Prod.fst ∧ ∀ x ∈ s'.calls, ∃ r, x.2 = .done r := can_finish hr

/-- A run: while `SetNotHealthy("x")` (call 0) has the mutex, two requests start; call 2 has to wait for it. -/
def exSched : List (Call ⊕ ℕ) :=
  [.inl (.setNotHealthy [120]), .inr 0, .inr 0, .inr 0, .inl .readiness, .inl .healthz, .inr 2, .inr 0, .inr 0, .inr 2,
   .inr 2, .inr 2, .inr 2, .inl (.setNotReady (lit "OK")), .inr 3, .inr 1, .inr 1, .inr 1, .inr 1, .inr 1]

def exTrace : List Ev :=
  [.inv 0 (.setNotHealthy [120]), .inv 1 .readiness, .inv 2 .healthz, .ret 0 .returned, .ret 2 (.page 503 [120, 10]),
   .inv 3 (.setNotReady (lit "OK")), .ret 3 .panicked, .ret 1 (.page 503 (lit "not ready" ++ [10]))]

example : ∃ s, Run exTrace s := by
  have h : (sched exSched [] .init).map Prod.fst = some exTrace := by decide +kernel
  obtain ⟨⟨tr, s⟩, h1, h2⟩ := Option.map_eq_some_iff.mp h
  cases h2
  exact ⟨s, sched_run .init h1⟩

example : result [.setNotHealthy [120], .setHealthy, .setNotHealthy (lit "OK"), .setNotReady [121]] .healthz =
    .page 200 (lit "OK") := by decide +kernel

end Tricorder.Health
