import Verif.Proof.Fair
import Verif.Props.Embed
import Verif.Props.Live
/-!
# C79: every request finishes

C73 says that a request can finish.  Here the library runs for ever.  The scheduler is fair to the goroutine of the request and to the
event loops, update functions return, and the request does finish.  Nothing is assumed of the other goroutines: they may stop anywhere,
or go on for ever and take groups and give them back.
-/

namespace Tricorder.Whole
open Go Spec

variable {w : World} {A : Type}

/-- **C79 (every listing finishes)** In a run in which the scheduler is fair to goroutine `c` and to all event loops, a call of
`ListMetrics` by `c` ends, and `c` then holds no group.  If the tree never has `fuel` entries, the answer is not cut off. -/
theorem C79_listing {σ : ℕ → St Answer} {it : ℕ → Item Answer} (F : Forever w σ it) (hk : ∀ n, KnownGroup (it n)) {c : ℕ}
    (hf : FairTo w σ c) (hl : ∀ r, LoopRuns w σ r) {json : Bool} {fuel : ℕ} {path : Str} {n0 : ℕ}
    (h0 : (it n0).lab = .spawn c (listCall json fuel path)) :
    ∃ n > n0, ∃ ms st, (∀ m ≥ n, (σ m).procs[c]? = some ⟨.run (.ret (.listing ms st)), []⟩) ∧
      ((∀ m, (σ m).mem.tree.entries.length < fuel) → st = .ok ∨ st = .panic) := by
  obtain ⟨n, hn, a, h1⟩ := polite_fair ((Tidy.polite (listMetrics_tidy json fuel path)).map fun r => Answer.listing r.1 r.2) σ it F hk hl c n0 hf h0
  have hcut : ∃ b, (List.range n).map it = (List.range n0).map it ++ it n0 :: b := by
    obtain ⟨d, rfl⟩ := Nat.exists_eq_add_of_lt hn
    refine ⟨((List.range d).map fun i => n0 + 1 + i).map it, ?_⟩
    rw [show n0 + d + 1 = n0 + (1 + d) by omega, List.range_add, List.map_append, List.range_add]
    simp [List.map_map, Function.comp_def, Nat.add_assoc]
  obtain ⟨b, hb⟩ := hcut
  have hrun := F.run n
  rw [hb] at hrun
  obtain ⟨-, -, hri⟩ := hrun.call h0 (by
    exact ProgAll_bind (notTick_reads (listMetrics_reads json fuel path)) fun _ => trivial) (h1 n le_rfl)
  obtain ⟨ms, st, rfl⟩ : ∃ ms st, a = .listing ms st := by
    obtain ⟨_, _, r, _, -, -, h⟩ := RunI_bind hri
    exact ⟨r.1, r.2, (RunI_ret h).1.symm⟩
  exact ⟨n, hn, ms, st, h1, fun hfu => C72_ends hrun h0 (h1 n le_rfl) (hfu n)⟩

/-- C79: the same of `GetMetric`. -/
theorem C79_single (json : Bool) (path : Str) (f : Option (Out Metric) → A) :
    Finishes w ((getMetricMsg json path).bind fun r => .ret (f r)) :=
  polite_fair ((Tidy.polite (getMetricMsg_tidy json path)).map f)

/-- C79: the same of the HTML page, whatever the writer does. -/
theorem C79_html (fm : Fmts) {W : Type} (wr : Writer W) (path : Str) (x : W) (f : W × Status → A) :
    Finishes w ((htmlEndpoint fm wr path x).bind fun r => .ret (f r)) :=
  polite_fair ((Tidy.polite (htmlEndpoint_tidy fm wr path x)).map f)

/-- C79: the same of the text page. -/
theorem C79_text (fm : Fmts) {W : Type} (wr : Writer W) (fuel : ℕ) (path : Str) (x : W) (f : W × Status → A) :
    Finishes w ((textEndpoint fm wr fuel path x).bind fun r => .ret (f r)) :=
  polite_fair ((textEndpoint_polite fm wr fuel path x).map f)

/-- C79: an event loop to which the scheduler is fair comes back to its `select` again and again, whatever the goroutines do. -/
theorem C79_loop {σ : ℕ → St A} {it : ℕ → Item A} (F : Forever w σ it) {r n : ℕ} (hl : LoopRuns w σ r)
    (hr : r < (σ n).grp.regions.length) : ∃ m ≥ n, loopAt (σ m) r = some .select := by
  obtain ⟨m, hm, g, h1, h2⟩ := F.select hl hr
  exact ⟨m, hm, by simp [loopAt, h1, h2]⟩

/-! ### Example: the two requests of C70, and then nothing any more -/

/-- `Rests`, computed -/
def restsB (s : St Answer) : Bool :=
  (s.procs.all fun p => match p.pc with | .run (.ret _) => true | _ => false) && (s.grp.clients.all fun cl => cl.pc == .closed) &&
    s.grp.regions.all fun g => g.loop == .select

theorem restsB_ok {s : St Answer} (h : restsB s = true) : Rests s := by
  simp only [restsB, Bool.and_eq_true, List.all_eq_true, beq_iff_eq] at h
  obtain ⟨⟨h1, h2⟩, h3⟩ := h
  refine ⟨fun p hp => ?_, h2, h3⟩
  have := h1 p hp
  split at this
  · exact ⟨_, ‹_›⟩
  · cases this

theorem exPlay_rests :
    exPlay.map (fun x => (x.1.all knownB, restsB x.2, x.2.procs.length, decide (x.2.mem.tree.entries.length < 3))) = some (true, true, 4, true) := by
  decide +kernel

/-- the hypotheses of C79 hold of it -/
theorem exForever : ∃ (σ : ℕ → St Answer) (it : ℕ → Item Answer), Forever exW σ it ∧ (∀ n, KnownGroup (it n)) ∧
    (∀ r, LoopRuns exW σ r) ∧ (∀ c < 4, FairTo exW σ c) ∧ (∃ n, (it n).lab = .spawn 1 (listCall true 3 (lit "/"))) ∧
    ∃ n, (it n).lab = .spawn 3 (getCall true (lit "/b")) := by
  have h := exPlay_rests
  obtain ⟨⟨tr, s⟩, he⟩ : ∃ x, exPlay = some x := by
    cases hp : exPlay with
    | none => rw [hp] at h; cases h
    | some x => exact ⟨x, rfl⟩
  rw [he] at h
  simp only [Option.map_some, Option.some.injEq, Prod.mk.injEq] at h
  obtain ⟨h1, h2, h3, h4⟩ := h
  have hrun : Run exW tr s := playW_run .nil he
  obtain ⟨σ, it, k1, k2, k3, k4, k5, -⟩ := (restsB_ok h2).forever hrun fun i hi => knownB_ok (List.all_eq_true.mp h1 i hi)
  have hsp : ∀ c p, (∃ i ∈ tr, i.lab = .spawn c p) → ∃ n, (it n).lab = .spawn c p := by
    rintro c p ⟨i, hi, e⟩
    obtain ⟨n, hn, rfl⟩ := List.getElem_of_mem hi
    exact ⟨n, by rw [k5 n hn]; exact e⟩
  refine ⟨σ, it, k1, k2, k3, h3 ▸ k4, hsp _ _ ?_, hsp _ _ ?_⟩
  · unfold exPlay at he
    rw [List.append_assoc] at he
    exact playW_spawn he (by decide +kernel)
  · unfold exPlay at he
    exact playW_spawn he (by decide +kernel)

example : ∃ (σ : ℕ → St Answer) (it : ℕ → Item Answer) (n : ℕ) (ms : List Metric) (st : Status), Forever exW σ it ∧
    ∀ m ≥ n, (σ m).procs[1]? = some ⟨.run (.ret (.listing ms st)), []⟩ := by
  obtain ⟨σ, it, h1, h2, h3, h4, ⟨n0, h5⟩, -⟩ := exForever
  obtain ⟨n, -, ms, st, h6, -⟩ := C79_listing h1 h2 (h4 1 (by decide)) h3 h5
  exact ⟨σ, it, n, ms, st, h1, h6⟩

example : ∃ (σ : ℕ → St Answer) (it : ℕ → Item Answer) (n : ℕ) (a : Answer), Forever exW σ it ∧
    (∀ m ≥ n, (σ m).procs[3]? = some ⟨.run (.ret a), []⟩) ∧ ∃ m ≥ n, loopAt (σ m) 0 = some .select := by
  obtain ⟨σ, it, h1, h2, h3, h4, -, ⟨n0, h5⟩⟩ := exForever
  obtain ⟨n, -, a, h6⟩ := C79_single true (lit "/b") Answer.single σ it h1 h2 h3 3 n0 (h4 3 (by decide)) h5
  refine ⟨σ, it, n, a, h1, h6, C79_loop h1 (h3 0) (h1.region (n := 0) ?_ (Nat.zero_le n))⟩
  rw [h1.start]; decide

end Tricorder.Whole
