import Verif.Proof.App
import Verif.Proof.Reads
import Verif.Props.Listing
import Verif.Model.Http
/-!
# Applications (C13, C88)
-/

namespace Tricorder.App
open Go Spec Tree

variable {α : Type} {w : World}

/-- **C13** Whatever an application does by calling the library: at every moment the registry is a tree. -/
theorem C13_application {H : List Item} {y : St} (hr : Run w start H y) : (∀ e ∈ H, IsTree e.pre.tree) ∧ IsTree y.mem.tree := by
  obtain ⟨h1, h2⟩ := run_good hr good_start
  exact ⟨fun e he => reachable_isTree (h2 e he).1, reachable_isTree h1.1⟩

/-- **C88** Whatever an application does by calling the library: all states are ones that the theorems about reachable states speak
about. -/
theorem C88_reachable {H : List Item} {y : St} (hr : Run w start H y) : (∀ e ∈ H, Reachable w e.pre) ∧ Reachable w y.mem := by
  obtain ⟨h1, h2⟩ := run_good hr good_start
  exact ⟨fun e he => (h2 e he).1, h1.1⟩

/-- **C88** Every call that a goroutine of an application makes is a run of the called function among steps of others, as the
theorems about single calls assume; until it has returned, it is the beginning of one. -/
theorem C88_calls {H0 H : List Item} {x y : St} (h0 : Run w start H0 x) (hr : Run w x H y) {i : ℕ} {p : Prog α} {f : α → G}
    (hi : x.gs[i]? = some (call p f)) :
    (∃ p', y.gs[i]? = some (call p' f) ∧
      ∀ h s r, RunI w p' y.mem h s r → RunI w p x.mem (H.map (Item.seen i) ++ h) s r) ∨
    ∃ H1 H2 z r, H = H1 ++ H2 ∧ Run w x H1 z ∧ Run w z H2 y ∧ z.gs[i]? = some (f r) ∧
      RunI w p x.mem (H1.map (Item.seen i)) z.mem r :=
  run_call hr (run_good h0 good_start).1 hi

/-- **C88** The steps of the other goroutines, between those of the call, are possible: their names come from paths and their handles
exist. -/
theorem C88_steps {H : List Item} {y : St} (hr : Run w start H y) : ∀ e ∈ H, e.cmd.Ok e.pre :=
  fun e he => ((run_good hr good_start).2 e he).2

theorem onlyLooks_of_reads {p : Prog α} (h : OnlyReads p) : OnlyLooks p := by
  induction p with
  | ret => trivial
  | op c k ih => exact ⟨(by have := h.1; cases c <;> first | trivial | cases this), fun r => ih r (h.2 r)⟩

/-- **C88** All requests are calls that an application may make. -/
theorem C88_requests {V : Type} (lib : JsonLib) (fm : Fmts) (rw' : RespWriter V) (json : Bool) (fuel : ℕ) (path : Str) (req : Req) (v : V) :
    OnlyLooks (listMetrics json fuel path) ∧ OnlyLooks (getMetricMsg json path) ∧ OnlyLooks (jsonHandler lib rw' fuel req v) ∧
    OnlyLooks (pageHandler fm rw' fuel req v) := by
  refine ⟨onlyLooks_of_reads (listMetrics_reads _ _ _), onlyLooks_of_reads (getMetricMsg_reads _ _), onlyLooks_of_reads ?_,
    onlyLooks_of_reads ?_⟩
  · unfold jsonHandler
    split
    · exact ProgAll_bind (getMetricMsg_reads _ _) fun _ => trivial
    · exact ProgAll_bind (listMetrics_reads _ _ _) fun _ => trivial
  · refine ProgAll_bind ?_ fun _ => trivial
    split
    · exact textEndpoint_reads _ _ _ _ _
    · exact htmlEndpoint_reads _ _ _ _

/-! ### Example: two goroutines

The first makes a variable, registers the directory `/d` and the metric `/d/x`.  Meanwhile the second gets the handle of the
directory from the first, registers `y` there, and then removes `/d/x`. -/

inductive Move where
  | start (g : G)
  | gets (i d : ℕ)
  | go (i : ℕ)

def play (w : World) : List Move → St → Option (List Item × St)
  | [], x => some ([], x)
  | .start g :: ms, x => play w ms ⟨x.mem, x.gs ++ [g]⟩
  | .gets i d :: ms, x => match x.gs[i]? with
    | some (.gets k) => if d < x.mem.tree.dirs.length then play w ms ⟨x.mem, x.gs.set i (k d)⟩ else none
    | _ => none
  | .go i :: ms, x => match x.gs[i]? with
    | some (.op c k) => (play w ms ⟨(exec w c x.mem).1, x.gs.set i (k (exec w c x.mem).2)⟩).map fun r => (⟨i, c, x.mem⟩ :: r.1, r.2)
    | _ => none

theorem play_run {ms : List Move} {x y : St} {H : List Item} (h : play w ms x = some (H, y)) (hc : ∀ g, .start g ∈ ms → Calls w.fnTy 1 g) :
    Run w x H y := by
  induction ms generalizing x H with
  | nil => cases h; exact .nil _
  | cons m ms ih =>
    have hc' : ∀ g, .start g ∈ ms → Calls w.fnTy 1 g := fun g hg => hc g (List.mem_cons_of_mem _ hg)
    cases m with
    | start g => exact .start g (hc g List.mem_cons_self) (ih h hc')
    | gets i d =>
      unfold play at h
      split at h
      · split at h
        · exact .gets i _ d ‹_› ‹_› (ih h hc')
        · cases h
      · cases h
    | go i =>
      unfold play at h
      split at h
      · obtain ⟨⟨H', y'⟩, h1, h2⟩ := Option.map_eq_some_iff.mp h
        cases h2
        exact .go i _ _ ‹_› (ih h1 hc')
      · cases h

def exFirst : G :=
  .op (.newVar (.scalar none (.int .int64 5))) fun (v : ℕ) =>
    call (Api.dirRegisterDirectory 0 (lit "/d")) fun
      | .error _ => .done
      | .ok d => call (Api.dirRegisterMetricInGroup exW.fnTy d (lit "x") (.ptr v) (some 0) .none []) fun _ => .done

def exSecond : G :=
  .gets fun d => call (Api.dirRegisterMetricInGroup exW.fnTy d (lit "y") (.ptr 0) (some 0) .none []) fun _ =>
    call (Api.dirUnregisterPath 0 (lit "/d/x")) fun _ => .done

theorem exFirst_calls : Calls exW.fnTy 1 exFirst := by
  refine .single _ trivial fun v m hm => .registerDirectory 0 (lit "/d") (by omega) fun r m' hm' hd => ?_
  cases r with
  | error => exact .done
  | ok d => exact .registerMetric d (lit "x") (.ptr v) (some 0) .none [] (hd d rfl) fun _ _ _ => .done

theorem exSecond_calls : Calls exW.fnTy 1 exSecond :=
  .gets fun d m hm hd => .registerMetric d (lit "y") (.ptr 0) (some 0) .none [] hd fun _ m' hm' =>
    .unregisterPath 0 (lit "/d/x") (by omega) fun _ _ _ => .done

def exMoves : List Move :=
  .start exFirst :: .start exSecond :: [.go 0, .go 0, .gets 1 1, .go 1, .go 0, .go 1, .go 0, .go 1, .go 1]

theorem exMoves_end : (play exW exMoves start).map (fun r => (r.1.map Item.who, r.2.gs.map fun g => match g with | .done => true | _ => false,
    (r.2.mem.tree.contents 1).map Prod.fst)) = some ([0, 0, 1, 0, 1, 0, 1, 1], [true, true], [lit "y"]) := by
  decide +kernel

/-- the hypotheses of `C13_application` and `C88_reachable` -/
example : ∃ (H : List Item) (y : St), Run exW start H y ∧ H.map Item.who = [0, 0, 1, 0, 1, 0, 1, 1] ∧
    (y.mem.tree.contents 1).map Prod.fst = [lit "y"] := by
  have h := exMoves_end
  obtain ⟨⟨H, y⟩, he⟩ : ∃ x, play exW exMoves start = some x := by
    cases hp : play exW exMoves start with
    | none => rw [hp] at h; cases h
    | some x => exact ⟨x, rfl⟩
  rw [he] at h
  simp only [Option.map_some, Option.some.injEq, Prod.mk.injEq] at h
  refine ⟨H, y, play_run he fun g hg => ?_, h.1, h.2.2⟩
  simp only [exMoves, List.mem_cons, reduceCtorEq, List.not_mem_nil, or_false, Move.start.injEq] at hg
  rcases hg with rfl | rfl
  · exact exFirst_calls
  · exact exSecond_calls

/-- the hypotheses of `C88_calls`: the second goroutine has just got the handle and is about to register -/
example : ∃ (H0 : List Item) (x : St) (f : Out (Except RegErr Unit) → G), Run exW start H0 x ∧
    x.gs[1]? = some (call (Api.dirRegisterMetricInGroup exW.fnTy 1 (lit "y") (.ptr 0) (some 0) .none []) f) ∧
    x.mem.tree.dirs.length = 2 := by
  have h : (play exW (exMoves.take 5) start).map (fun r => r.2.mem.tree.dirs.length) = some 2 := by decide +kernel
  obtain ⟨⟨H, y⟩, he⟩ : ∃ x, play exW (exMoves.take 5) start = some x := by
    cases hp : play exW (exMoves.take 5) start with
    | none => rw [hp] at h; cases h
    | some x => exact ⟨x, rfl⟩
  have hg : y.gs[1]? = some (call (Api.dirRegisterMetricInGroup exW.fnTy 1 (lit "y") (.ptr 0) (some 0) .none []) fun _ =>
      call (Api.dirUnregisterPath 0 (lit "/d/x")) fun _ => .done) := by
    have : (play exW (exMoves.take 5) start).bind (fun r => r.2.gs[1]?) =
        some (call (Api.dirRegisterMetricInGroup exW.fnTy 1 (lit "y") (.ptr 0) (some 0) .none []) fun _ =>
          call (Api.dirUnregisterPath 0 (lit "/d/x")) fun _ => .done) := rfl
    rw [he] at this
    exact this
  rw [he] at h
  refine ⟨H, y, _, play_run he fun g hg => ?_, hg, by simpa using h⟩
  simp only [exMoves, List.take_succ_cons, List.take_zero, List.mem_cons, reduceCtorEq, List.not_mem_nil, or_false, Move.start.injEq] at hg
  rcases hg with rfl | rfl
  · exact exFirst_calls
  · exact exSecond_calls

end Tricorder.App
