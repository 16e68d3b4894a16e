import Verif.Proof.Fine4
import Verif.Props.Locks
/-!
# C110: the whole library behaves as if its methods were atomic
-/

namespace Tricorder.Fine
open Go Spec

variable {A : Type} {w : World} {n : ℕ} {tr : List (Item A)} {f : St A}

/-- **C110** Goroutines that call the library, event loops and update functions, with their critical sections interleaved field by
field, do what they do in `Model/Whole`, where every method is one step: the same effects, rendezvous and calls in the same order, the
same groups, the same answers. -/
theorem C110_whole (hw : Locks.Local w) (hr : Run w n tr f) : ∃ tr' s, Whole.Run w tr' s ∧ Same tr f tr' s := by
  obtain ⟨tr', s, h⟩ := follow hw hr
  exact ⟨tr', s, h.run, h.toSame hw⟩

/-- **C110** When nobody is inside a critical section, the whole memory is that of `Model/Whole`. -/
theorem C110_quiet (hw : Locks.Local w) (hr : Run w n tr f) (hq : Locks.Quiet f.lk) :
    ∃ tr' s, Whole.Run w tr' s ∧ Same tr f tr' s ∧ s.mem = Locks.whole f.lk.objs f.lk.shared := by
  obtain ⟨tr', s, h1, h2⟩ := C110_whole hw hr
  obtain ⟨o, h3, h4⟩ := h2.memory
  have : f.lk.objs = o := funext fun l => h4 l fun i cmd rest => hq i cmd l true rest
  exact ⟨tr', s, h1, h2, by rw [this]; exact h3⟩

/-- **C110** Nothing is lost: whatever happens in `Model/Whole` can happen here, if every method is one that may be called at that moment and
there are enough goroutines. -/
theorem C110_every {tr' : List (Whole.Item A)} {s : Whole.St A} (hw : Locks.Local w) (hr : Whole.Run w tr' s)
    (hc : ∀ it ∈ tr', ∀ i cmd, it.lab = .own i cmd ∨ it.lab = .upd i cmd → Locks.Callable (Locks.Shared.of it.pre) cmd) :
    ∃ N, ∀ n, N ≤ n → ∃ tr f, Run w n tr f ∧ Same tr f tr' s ∧ (∀ i, i < n → f.lk.phases[i]? = some .idle) ∧ f.procs = s.procs := by
  obtain ⟨N, hN⟩ := converse hw hr hc
  refine ⟨N, fun n hn => ?_⟩
  obtain ⟨tr, f, h1, h2⟩ := hN n hn
  exact ⟨tr, f, h1.1, h1.2.toSame hw, h2, (h1.rest_procs h2).symm⟩

/-- **C110** No deadlock between locks and groups: whatever the groups are doing, whoever waits for a group, and wherever the update
functions are, all methods that have been called can return, without a new call and without a step of an event loop. -/
theorem C110_returns (hw : Locks.Local w) (hr : Run w n tr f) : ∃ tr2 f2, Run w n (tr ++ tr2) f2 ∧
    (∀ it ∈ tr2, ∃ l, it.lab = .lk l ∧ ∀ c cmd, l ≠ .call c cmd) ∧ ∀ i, i < n → f2.lk.phases[i]? = some .idle := by
  obtain ⟨_, _, hj⟩ := follow hw hr
  obtain ⟨ls, lk, h1, h2, h3⟩ := Locks.C74_no_deadlock hj.locks
  obtain ⟨tr2, f2, h4, rfl, h5⟩ := lift hw hr ls lk h1 fun l hl c cmd e => h2 c cmd (e ▸ hl)
  exact ⟨tr2, f2, h4, h5, h3⟩

/-! ### Example

Goroutine 0 makes a distribution and has written one of the two fields that `SetUnit` writes.  Goroutine 1 has called `Snapshot` and must
wait for the lock.  Goroutine 2 has begun to take `DefaultGroup`. -/

/-- the three programs -/
def exProgs : List (Prog ℕ) :=
  [.op (.newDist [] true Time.zero) fun _ => .op (.setUnit 0 .second) fun _ => .ret 0,
    .op (.snapshot 0) fun _ => .ret 1, .op (.rlock 0) fun _ => .op (.runlock 0) fun _ => .ret 2]

example : ∃ (tr : List (Item ℕ)) (f : St ℕ), Run exW 6 tr f ∧ (f.lk.objs (.dist 0)).unitSet = true ∧
    (f.lk.objs (.dist 0)).unit = .unknown ∧ ¬ Locks.Free f.lk 2 (.dist 0) false ∧ f.grp.clients.length = 1 ∧ Locks.Local exW := by
  have r0 := ((((Run.nil : Run exW 6 [] (start ℕ 6)).snoc (.spawn _ (exProgs[0]'(by decide)))).snoc
    (.spawn _ (exProgs[1]'(by decide)))).snoc (.spawn _ (exProgs[2]'(by decide))))
  have r1 := r0.snoc (.call _ 0 [] (.newDist [] true Time.zero) _ _ rfl (.inl trivial) (.call _ 0 _ rfl trivial))
  have r2 := r1.snoc (.effect _ 0 (.newDist [] true Time.zero) _ _ trivial (.plain _ 0 _ _ rfl))
  have r3 := r2.snoc (.ret _ 0 [] (.newDist [] true Time.zero) _ _ _ rfl (.ret _ 0 _ _ _ rfl))
  have r4 := r3.snoc (.call _ 0 [] (.setUnit 0 .second) _ _ rfl (.inl trivial) (.call _ 0 _ rfl Nat.zero_lt_one))
  have r5 := r4.snoc (.quiet _ 0 _ (.acquire _ 0 (.setUnit 0 .second) _ _ _ rfl (by
    intro c p e hne hp hh
    rcases c with _ | _ | _ | _ | _ | _ | c
    · exact absurd rfl hne
    all_goals first | (cases hp; done) | (cases hp; cases hh))))
  have r6 := r5.snoc (.call _ 1 [] (.snapshot 0) _ _ rfl (.inl trivial) (.call _ 2 _ rfl Nat.zero_lt_one))
  have r7 := r6.snoc (.asks _ 2 0 [] _ rfl (by decide))
  have r8 := r7.snoc (.quiet _ 0 _ (.read _ 0 (.setUnit 0 .second) _ _ _ _ _ rfl))
  have r9 := r8.snoc (.quiet _ 0 _ (.write _ 0 (.setUnit 0 .second) _ _ _ _ rfl))
  refine ⟨_, _, r9, rfl, rfl, ?_, rfl, ?_⟩
  · intro hf
    exact absurd (hf 0 _ true (by decide) rfl rfl).1 (by decide)
  · exact ⟨fun _ _ _ => rfl, fun _ _ _ => rfl, fun _ _ _ => rfl, fun _ _ _ => rfl, by
      intro s s' h
      have : s.noise = s'.noise := congrArg Locks.Shared.noise h
      simp only [exW, this]⟩

/-- the first of these programs from beginning to end in `Model/Whole`, with what `C110_every` asks for -/
example : ∃ (tr' : List (Whole.Item ℕ)) (s : Whole.St ℕ), Whole.Run exW tr' s ∧ Answered s.procs 0 0 ∧ tr'.length = 3 ∧
    ∀ it ∈ tr', ∀ i cmd, it.lab = .own i cmd ∨ it.lab = .upd i cmd → Locks.Callable (Locks.Shared.of it.pre) cmd := by
  have r1 := (Whole.Run.nil : Whole.Run exW [] (Whole.start ℕ)).snoc (.spawn _ (exProgs[0]'(by decide)))
  have r2 := r1.snoc (.own _ 0 [] (.newDist [] true Time.zero) _ rfl trivial trivial)
  have r3 := r2.snoc (.own _ 0 [] (.setUnit 0 .second) _ rfl trivial trivial)
  refine ⟨_, _, r3, ⟨[], rfl⟩, rfl, ?_⟩
  intro it hit i cmd hl
  simp only [List.nil_append, List.cons_append, List.mem_cons, List.not_mem_nil, or_false] at hit
  rcases hit with rfl | rfl | rfl
  · rcases hl with e | e <;> cases e
  · rcases hl with e | e <;> cases e
    trivial
  · rcases hl with e | e <;> cases e
    exact Nat.zero_lt_one

end Tricorder.Fine
