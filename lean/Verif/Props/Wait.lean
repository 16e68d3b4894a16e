import Verif.Proof.Wait2
import Verif.Proof.Handle
import Verif.Props.Whole
import Verif.Props.Path
import Verif.Model.Api
/-!
# Registering and recording never wait (C85)
-/

namespace Tricorder.Whole
open Go Spec Tree

variable {A : Type} {w : World}

/-- **C85** Registering a metric in a directory. -/
theorem C85_register_metric (d : ℕ) {path : Str} {comps : List Str} (hc : Components path comps) (spec : RegSpec) (g : Option ℕ)
    (unit : MUnit) (desc : Str) (f : Out (Except RegErr Unit) → A) :
    NeverWaits w (comps.length + 1) (fun s => d < s.tree.dirs.length)
      ((Api.dirRegisterMetricInGroup w.fnTy d path spec g unit desc).bind fun r => .ret (f r)) := by
  rw [C01_components_unique hc]
  exact never_waits f (registerMetric_short _ _ _ _ _ _ _) fun s hd _ => registerMetric_safeP d path spec g unit desc hd

/-- **C85** Registering a metric at the package level; the root always exists. -/
theorem C85_register_metric_root {path : Str} {comps : List Str} (hc : Components path comps) (spec : RegSpec) (g : Option ℕ)
    (unit : MUnit) (desc : Str) (f : Out (Except RegErr Unit) → A) :
    NeverWaits w (comps.length + 1) (fun _ => True)
      ((Api.registerMetricInGroup w.fnTy path spec g unit desc).bind fun r => .ret (f r)) := by
  rw [C01_components_unique hc]
  exact never_waits f (registerMetric_short _ _ _ _ _ _ _) fun s _ hd => registerMetric_safeP 0 path spec g unit desc hd

/-- **C85** Registering a directory in a directory, or at the package level. -/
theorem C85_register_directory (d : ℕ) {path : Str} {comps : List Str} (hc : Components path comps) (f : Except RegErr ℕ → A) :
    NeverWaits w comps.length (fun s => d < s.tree.dirs.length) ((Api.dirRegisterDirectory d path).bind fun r => .ret (f r)) ∧
    NeverWaits w comps.length (fun _ => True) ((Api.registerDirectory path).bind fun r => .ret (f r)) := by
  rw [C01_components_unique hc]
  have h : ∀ d n, d < n → SafeP (registerDirectory d (newPathSpec path)) n := fun d n hd => by
    have := registerDirectory_safeP (f := fun r => (Prog.ret r : Prog (Except RegErr ℕ))) (p := newPathSpec path)
      (fun x hx => newPathSpec_comp hx) hd (fun _ _ => trivial) fun _ _ _ _ => trivial
    exact (bind_ret (registerDirectory d (newPathSpec path))) ▸ this
  exact ⟨never_waits f (registerDirectory_short _ _) fun s hd _ => h d _ hd,
    never_waits f (registerDirectory_short _ _) fun s _ hd => h 0 _ hd⟩

/-- **C85** Unregistering a path or a directory. -/
theorem C85_unregister (d : ℕ) {path : Str} {comps : List Str} (hc : Components path comps) (f : Unit → A) :
    NeverWaits w comps.length (fun _ => True) ((Api.dirUnregisterPath d path).bind fun r => .ret (f r)) ∧
    NeverWaits w comps.length (fun _ => True) ((Api.unregisterPath path).bind fun r => .ret (f r)) ∧
    NeverWaits w 1 (fun _ => True) ((Api.unregisterDirectory d).bind fun r => .ret (f r)) := by
  rw [C01_components_unique hc]
  exact ⟨never_waits f (unregisterPath_short _ _) fun _ _ _ => SafeP_reads (unregisterPath_reads _ _) _,
    never_waits f (unregisterPath_short _ _) fun _ _ _ => SafeP_reads (unregisterPath_reads _ _) _,
    never_waits f ⟨trivial, fun _ => trivial⟩ fun _ _ _ => ⟨trivial, fun _ _ _ _ => trivial⟩⟩

/-- **C85** Looking up directories and metrics, without reading their values. -/
theorem C85_look_up (d : ℕ) {path : Str} {comps : List Str} (hc : Components path comps) (f : Option ℕ × Option ℕ → A)
    (f' : Except RegErr ℕ → A) :
    NeverWaits w comps.length (fun _ => True) ((Api.dirGetDirectoryOrMetric d path).bind fun r => .ret (f r)) ∧
    NeverWaits w comps.length (fun _ => True) ((apiGetDirectory path).bind fun r => .ret (f' r)) := by
  rw [C01_components_unique hc]
  exact ⟨never_waits f (getDirectoryOrMetric_short _ _) fun _ _ _ => SafeP_reads (getDirectoryOrMetric_reads _ _) _,
    never_waits f' (getDirectoryAndError_short _ _) fun _ _ _ => SafeP_reads (getDirectoryAndError_reads _ _) _⟩

/-- **C85** Creating distributions, lists and groups, adding to, updating and removing from distributions, and changing lists is a
single step. -/
theorem C85_record (c : Cmd) (f : c.Resp → A)
    (hc : (∃ p nc ts, c = .newDist p nc ts) ∨ (∃ a m ts, c = .newList a m ts) ∨ c = .newRegion ∨ (∃ i dc, c = .distCall i dc) ∨
      ∃ i a m ts, c = .changeList i a m ts) :
    NeverWaits w 1 (fun _ => True) (.op c fun r => .ret (f r)) := by
  refine short_never_waits ⟨?_, fun _ => trivial⟩ fun _ _ _ => ⟨?_, fun _ _ _ _ => trivial⟩ <;>
    rcases hc with ⟨_, _, _, rfl⟩ | ⟨_, _, _, rfl⟩ | rfl | ⟨_, _, rfl⟩ | ⟨_, _, _, _, rfl⟩ <;> trivial

/-! ### Example: a goroutine registers a metric while an update function hangs -/

def exRegister : Prog Answer :=
  (Api.registerMetricInGroup exW.fnTy (lit "/x/y") (.ptr 0) (some 0) .none []).bind fun _ => .ret .other

def exHang : Option (List (Item Answer) × St Answer) :=
  playW exW (exBefore ++ .spawn (listCall true 3 (lit "/")) :: gos 1 3 ++ [.go 1, .send 0 0, .handle 0] ++ .spawn exRegister :: gos 2 1)
    [] (start Answer)

def exUnfinished : Option (Proc Answer) → Bool
  | some ⟨.run (.op _ _), []⟩ => true
  | _ => false

example : ∃ (a : List (Item Answer)) (x : Item Answer) (b : List (Item Answer)) (s : St Answer) (tr : List (Item Answer))
    (s' : St Answer) (r : Answer), Run exW (a ++ x :: b) s ∧ x.lab = .spawn 2 exRegister ∧
    (s.grp.regions.map (·.loop))[0]? = some .calling ∧ exUnfinished s.procs[2]? = true ∧
    Run exW (a ++ x :: b ++ tr) s' ∧ (∀ it ∈ tr, OwnStep 2 it) ∧ tr.length ≤ 3 ∧ s'.procs[2]? = some ⟨.run (.ret r), []⟩ := by
  have h : exHang.map (fun x => ((x.2.grp.regions.map (·.loop))[0]?, exUnfinished x.2.procs[2]?)) = some (some .calling, true) := by
    decide +kernel
  obtain ⟨⟨tr, s⟩, he⟩ : ∃ x, exHang = some x := by
    cases hp : exHang with
    | none => rw [hp] at h; cases h
    | some x => exact ⟨x, rfl⟩
  rw [he] at h
  simp only [Option.map_some, Option.some.injEq, Prod.mk.injEq] at h
  have hr : Run exW tr s := playW_run .nil he
  obtain ⟨x, hx, hl⟩ := playW_spawn (c := 2) (p := exRegister) he (by decide +kernel)
  obtain ⟨a, b, rfl⟩ := List.append_of_mem hx
  obtain ⟨-, tr', s', r, h1, h2, h3, h4, -⟩ :=
    C85_register_metric_root (C01_components (lit "/x/y")) _ _ _ _ _ a x b s 2 hr hl trivial
  have hn : (newPathSpec (lit "/x/y")).length = 2 := by decide +kernel
  exact ⟨a, x, b, s, tr', s', r, hr, hl, h.1, h.2, h1, h2, by omega, h4⟩

end Tricorder.Whole
