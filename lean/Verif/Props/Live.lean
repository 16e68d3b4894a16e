import Verif.Proof.Whole5
import Verif.Props.Whole
/-!
# C73: nobody keeps a call from finishing

A call may begin at any time, in any state of the other goroutines: they may hold groups, wait for an event loop, or never
execute another step.  From every state the call can still finish by its own steps and steps of the event loops.
-/

namespace Tricorder.Whole
open Go Spec

variable {w : World} {A : Type}

theorem polite_finish {p : Prog A} (hp : Polite p) (c : ℕ) : CanFinish w c p := by
  intro tr s hr hk hit
  obtain ⟨tr', s', r, h1, h2⟩ := polite_ends hp hr hk hit
  exact ⟨tr', s', r, h1.run, h1.alone, h1.mem, h1.others, h2⟩

/-- **C73 (nobody keeps a listing from finishing)** Wherever the call of `ListMetrics` in goroutine `c` is, and whatever the
other goroutines have done or hold, it can finish while all of them stand still. -/
theorem C73_listing (json : Bool) (fuel : ℕ) (path : Str) (f : List Metric × Status → A) (c : ℕ) :
    CanFinish w c ((listMetrics json fuel path).bind fun r => .ret (f r)) :=
  polite_finish ((Tidy.polite (listMetrics_tidy json fuel path)).map f) c

/-- C73: the same of `GetMetric`. -/
theorem C73_single (json : Bool) (path : Str) (f : Option (Out Metric) → A) (c : ℕ) :
    CanFinish w c ((getMetricMsg json path).bind fun r => .ret (f r)) :=
  polite_finish ((Tidy.polite (getMetricMsg_tidy json path)).map f) c

/-- C73: the same of the HTML page, whatever the writer does. -/
theorem C73_html (fm : Fmts) {W : Type} (wr : Writer W) (path : Str) (x : W) (f : W × Status → A) (c : ℕ) :
    CanFinish w c ((htmlEndpoint fm wr path x).bind fun r => .ret (f r)) :=
  polite_finish ((Tidy.polite (htmlEndpoint_tidy fm wr path x)).map f) c

/-- C73: the same of the text page. -/
theorem C73_text (fm : Fmts) {W : Type} (wr : Writer W) (fuel : ℕ) (path : Str) (x : W) (f : W × Status → A) (c : ℕ) :
    CanFinish w c ((textEndpoint fm wr fuel path x).bind fun r => .ret (f r)) :=
  polite_finish ((textEndpoint_polite fm wr fuel path x).map f) c

/-! ### Example: the first request holds the group and does not move

The second request is about to take the same group. -/

def exStall : Option (List (Item Answer) × St Answer) :=
  playW exW (exBefore ++ .spawn (listCall true 3 (lit "/")) ::
    (gos 1 3 ++ taking 1 0 0 [.writeVar 0 (.scalar none (.int .int64 6)), .writeVar 1 (.scalar none (.int .int64 8))] ⟨100, 0⟩ ++
      gos 1 1) ++ .spawn (listCall true 3 (lit "/")) :: gos 2 3) [] (start Answer)

/-- `KnownGroup`, computed -/
def knownB (it : Item Answer) : Bool :=
  match it.lab with
  | .own _ (.storeMetric _ _ _ v) | .upd _ (.storeMetric _ _ _ v) => v.region.all fun r => r < it.pre.regions.length
  | _ => true

theorem knownB_ok {it : Item Answer} (h : knownB it = true) : KnownGroup it := by
  intro d name desc v r hl hr
  unfold knownB at h
  rcases hl with ⟨c, hl⟩ | ⟨q, hl⟩ <;> rw [hl] at h <;> simp only [hr] at h <;> simpa using h

/-- whether goroutine `c` holds group 0 -/
def holdsB (s : St Answer) (c : ℕ) : Bool :=
  match s.procs[c]? with
  | some p => (p.held.lookup 0).isSome
  | none => false

/-- whether goroutine `c` asks for group 0 in its next step -/
def asksB (s : St Answer) (c : ℕ) : Bool :=
  match s.procs[c]? with
  | some ⟨.run (.op (.rlock r) _), _⟩ => r == 0
  | _ => false

theorem exStall_checks :
    exStall.map (fun x => (x.1.all knownB, holdsB x.2 1, asksB x.2 2)) = some (true, true, true) := by
  decide +kernel

example : ∃ (tr tr' : List (Item Answer)) (s s' : St Answer) (r : Answer), Run exW tr s ∧ holdsB s 1 = true ∧ asksB s 2 = true ∧
    Run exW (tr ++ tr') s' ∧ (∀ it ∈ tr', Alone 2 it) ∧ s'.procs[1]? = s.procs[1]? ∧ s'.procs[2]? = some ⟨.run (.ret r), []⟩ := by
  have h := exStall_checks
  obtain ⟨⟨tr, s⟩, he⟩ : ∃ x, exStall = some x := by
    cases hp : exStall with
    | none => rw [hp] at h; cases h
    | some x => exact ⟨x, rfl⟩
  rw [he] at h
  simp only [Option.map_some, Option.some.injEq, Prod.mk.injEq] at h
  obtain ⟨h1, h2, h3⟩ := h
  have hrun : Run exW tr s := playW_run .nil he
  obtain ⟨tr', s', r, k1, k2, -, k3, k4⟩ := C73_listing true 3 (lit "/") (fun r => Answer.listing r.1 r.2) 2 tr s hrun
    (fun it hit => knownB_ok (List.all_eq_true.mp h1 it hit))
    (by unfold exStall at he; exact playW_spawn he (by decide +kernel))
  exact ⟨tr, tr', s, s', r, hrun, h2, h3, k1, k2, k3 1 (by decide), k4⟩

end Tricorder.Whole
