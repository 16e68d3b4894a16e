import Verif.Proof.Locks3
import Verif.Props.Ex
/-!
# C74: the methods of directories, distributions and lists are atomic
-/

namespace Tricorder.Locks
open Go Spec

variable {w : World} {n : ℕ} {tr : List Lab} {s : St}

/-- **C74** The calls of any number of goroutines, with their critical sections interleaved field by field, give the results that
`Model/Sys` gives when it executes each method in one step, in the order in which they take effect.  The memory is the same, except
for the fields of an object that somebody is writing at this moment. -/
theorem C74_linear (hw : Local w) (hr : Run w n tr s) :
    ∃ o : Objs, Replays w State.init (effects tr) (whole o s.shared) ∧
      ∀ l, (∀ (c : ℕ) cmd rest, s.phases[c]? ≠ some (.inside cmd l true rest)) → s.objs l = o l := by
  obtain ⟨o, h⟩ := inv_run hw hr
  exact ⟨o, h.replay, h.sync⟩

/-- **C74** When nobody is inside a critical section, the whole memory is that of `Model/Sys`. -/
theorem C74_quiet (hw : Local w) (hr : Run w n tr s) (hq : Quiet s) :
    Replays w State.init (effects tr) (whole s.objs s.shared) := by
  obtain ⟨o, h1, h2⟩ := C74_linear hw hr
  have : s.objs = o := funext fun l => h2 l fun c cmd rest => hq c cmd l true rest
  rw [this]
  exact h1

/-- **C74** Every call takes effect exactly once, after it was made and before it returns, and returns the result it found then. -/
theorem C74_orderly (hr : Run w n tr s) (c : ℕ) : Orderly c (mine c tr) := by
  obtain ⟨h1, h2⟩ := fits_run hr
  by_cases hc : c < n
  · rw [← run_length hr] at hc
    exact (h1 c _ (List.getElem?_eq_getElem hc)).orderly
  · rw [h2 c (by omega)]; exact Or.inl .nil

/-- **C74** Two goroutines are in critical sections of the same object at the same time only if both only read. -/
theorem C74_exclusive (hw : Local w) (hr : Run w n tr s) {c c' : ℕ} {p p' : Phase} {l : Loc} {e e' : Bool} (hne : c ≠ c')
    (h1 : s.phases[c]? = some p) (h2 : s.phases[c']? = some p') (h3 : p.holds = some (l, e)) (h4 : p'.holds = some (l, e')) :
    e = false ∧ e' = false := by
  obtain ⟨o, h⟩ := inv_run hw hr
  exact h.excl c c' p p' l e e' hne h1 h2 h3 h4

/-- **C74** If the calls of goroutine `c` are those of a program, then the program has such a run in `Model/Sys`, among the calls of
the others, and with the same result.  So what is proved for all of these runs holds here. -/
theorem C74_programs {α : Type} (hw : Local w) (hr : Run w n tr s) {c : ℕ} {p : Prog α} {a : α}
    (hp : Path p ((effects tr).filter fun d => d.c == c) a) : ∃ h s', RunI w p State.init h s' a := by
  obtain ⟨o, h1, -⟩ := C74_linear hw hr
  obtain ⟨h, hr⟩ := h1.runI hp
  exact ⟨h, _, hr⟩

/-- **C74** No deadlock: however far they got, all goroutines can finish their calls without a new one being made. -/
theorem C74_no_deadlock (hr : Run w n tr s) :
    ∃ tr' s', Run w n (tr ++ tr') s' ∧ (∀ c cmd, .call c cmd ∉ tr') ∧ ∀ c, c < n → s'.phases[c]? = some .idle := by
  obtain ⟨t1, s1, h1, h2, h3, -⟩ := settle_all hr n
  have hq : ∀ (c : ℕ) p, s1.phases[c]? = some p → p = .idle ∨ ∃ cmd i, p = .wait cmd i := by
    intro c p hp
    refine h3 c p ?_ hp
    have := (List.getElem?_eq_some_iff.1 hp).1
    rwa [run_length h1] at this
  obtain ⟨t2, s2, h4, h5, -, h6⟩ := serve_all h1 hq n
  refine ⟨t1 ++ t2, s2, by simpa using h4, ?_, ?_⟩
  · intro c cmd hm
    rcases List.mem_append.1 hm with e | e
    · exact h2 _ e c cmd rfl
    · exact h5 _ e c cmd rfl
  · intro c hc
    rw [← run_length h4] at hc
    have := List.getElem?_eq_getElem hc
    rw [this, h6 c _ (by rw [run_length h4] at hc; exact hc) this]

/-- Goroutine 0 makes a distribution and has written one of the two fields that `SetUnit` writes; goroutine 1 has called `Snapshot`
and must wait. -/
example : ∃ tr s, Run exW 2 tr s ∧ (s.objs (.dist 0)).unitSet = true ∧ (s.objs (.dist 0)).unit = .unknown ∧
    (∃ rest, s.phases[0]? = some (.inside (.setUnit 0 .second) (.dist 0) true rest)) ∧
    s.phases[1]? = some (.wait (.snapshot 0) (.locked (.dist 0) false snapshot)) ∧ ¬ Free s 1 (.dist 0) false := by
  have r1 := (Run.nil : Run exW 2 [] (start 2)).snoc (.call _ 0 (.newDist [] true Time.zero) rfl trivial)
  have r2 := r1.snoc (.plain _ 0 (.newDist [] true Time.zero) _ rfl)
  have r3 := r2.snoc (.ret _ 0 _ _ _ rfl)
  have r4 := r3.snoc (.call _ 0 (.setUnit 0 .second) rfl Nat.zero_lt_one)
  have r5 := r4.snoc (.acquire _ 0 (.setUnit 0 .second) _ _ _ rfl (by
    intro c p e hne hp hh
    rcases c with _ | _ | c
    · exact absurd rfl hne
    · cases hp; cases hh
    · cases hp))
  have r6 := r5.snoc (.call _ 1 (.snapshot 0) rfl Nat.zero_lt_one)
  have r7 := r6.snoc (.read _ 0 (.setUnit 0 .second) _ _ _ _ _ rfl)
  have r8 := r7.snoc (.write _ 0 (.setUnit 0 .second) _ _ _ _ rfl)
  refine ⟨_, _, r8, rfl, rfl, ⟨_, rfl⟩, rfl, ?_⟩
  intro hf
  exact absurd (hf 0 _ true (by decide) rfl rfl).1 (by decide)

/-- such worlds exist -/
example : Local exW := ⟨fun _ _ _ => rfl, fun _ _ _ => rfl, fun _ _ _ => rfl, fun _ _ _ => rfl, by
  intro s s' h
  have : s.noise = s'.noise := congrArg Shared.noise h
  simp only [exW, this]⟩

end Tricorder.Locks
