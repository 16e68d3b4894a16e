import Verif.Proof.Kinds
import Verif.Props.Ex
/-!
# C48: the kind of a metric describes its value

`Grown w s`: the state `s` is the result of some interleaving of atomic steps of any goroutines, where each metric was
stored with the type of its source.  `C48_register` says that `RegisterMetric` stores no other metrics.
-/

namespace Tricorder
open Go Spec Tree

variable {w : World} {s s' : State}

/-- **C48 (registration)** In any run of `RegisterMetric`, among any steps of other goroutines: if it stores a metric,
the metric type is that of the Go type of the source at that moment. -/
theorem C48_register {d : ℕ} {path : Str} {spec : RegSpec} {group : Option ℕ} {u : MUnit} {desc : Str} {h : List Ev}
    {r : Out (Except RegErr Unit)} (hr : RunI w (apiRegisterMetric w.fnTy d path spec group u desc) s h s' r) :
    ∀ e ∈ h, e.own = true → StoreFits w e := register_fits hr

/-- With it `RegisterMetric`, among steps of other goroutines that store such metrics only, leads from states of this
kind to states of this kind. -/
theorem C48_register_grown (hs : Grown w s) {d : ℕ} (hd : d < s.tree.dirs.length) {path : Str} {spec : RegSpec}
    {group : Option ℕ} {u : MUnit} {desc : Str} {h : List Ev} {r : Out (Except RegErr Unit)}
    (hr : RunI w (apiRegisterMetric w.fnTy d path spec group u desc) s h s' r)
    (he : ∀ e ∈ h, e.own = false → StoreFits w e) : Grown w s' := by
  have hok := registerMetric_safe (fun _ hx => newPathSpec_comp hx) (grown_reachable hs) hd hr
  refine (RunI_inv (P := Grown w) hr hs fun e hm hg => ?_).2
  cases ho : e.own with
  | true => exact .step e.cmd hg (hok e hm ho) (fun _ _ _ _ hc => C48_register hr e hm ho _ _ _ _ hc)
  | false => exact .step e.cmd hg (RunI_env_ok hr e hm ho) (fun _ _ _ _ hc => he e hm ho _ _ _ _ hc)

/-- **C48 (listings)** Every metric in a listing, run from any state among any steps of other goroutines that register
metrics as `RegisterMetric` does, has the kind, subtype and bits of its value: `FromGoValueWithSubType(Value)` is
`(Kind, SubType)` exactly if the value is not of a type declared by a program, which it never is for 32 and 64 bit
integers, times, durations and distributions.  (If the metric is a flag with a `Get` method: as long as the method
keeps its result type.)

Partial: the claim is false for the other kinds, see `C48_named_false` and `C48_flag_false`. -/
theorem C48_listing_partial (hs : Grown w s) {fuel : ℕ} {path : Str} {h : List Ev} {ms : List Metric} {st : Status}
    (hr : RunI w (listMetrics false fuel path) s h s' (ms, st)) (he : ∀ e ∈ h, StoreFits w e) :
    ∀ x ∈ ms, ∃ m mv, (∃ σ ∈ statesOf h s', metricView σ.tree m = some mv) ∧ Describes x mv ∧
      (FlagKeeps w (· ∈ statesOf h s') mv.value → KindRight x) := by
  obtain ⟨hl, hf, hS, hT⟩ := grown_run hs (listMetrics_reads _ _ _) hr he
  obtain ⟨⟨U, sess, rfl, -, hU, -⟩, -⟩ := listMetrics_run (grown_reachable hs) hr
  intro x hx
  obtain ⟨u, hu, rfl⟩ := List.mem_map.mp hx
  obtain ⟨-, -, -, mv, y, ⟨σ, hσ, hv⟩, hy, hd, ht, -⟩ := hU u hu
  cases hy
  refine ⟨u.1.2, mv, ⟨σ, hσ, hv⟩, hd, fun hk => ?_⟩
  exact kind_core hl (vars_final hr) (view_fits hf (metricView_ext (hS σ hσ).1 hT (hS σ hσ).2 hv)) hd ht hk

/-- **C48 (single metrics)** The same for `GetMetric`. -/
theorem C48_get_partial (hs : Grown w s) {path : Str} {h : List Ev} {x : Metric}
    (hr : RunI w (getMetricMsg false path) s h s' (some (.ok x))) (he : ∀ e ∈ h, StoreFits w e) :
    ∃ m mv, (∃ σ ∈ statesOf h s', metricView σ.tree m = some mv) ∧ Describes x mv ∧
      (FlagKeeps w (· ∈ statesOf h s') mv.value → KindRight x) := by
  obtain ⟨hl, hf, hS, hT⟩ := grown_run hs (getMetricMsg_reads _ _) hr he
  have hv := vars_final hr
  obtain ⟨h1, s1, a, h2, rfl, r1, r2⟩ := RunI_bind hr
  cases a with
  | none => cases (RunI_ret r2).1
  | some m =>
    obtain ⟨h3, s3, h4, rfl, r3, r4⟩ := RunI_op r2
    cases hm : metricView s3.tree m with
    | none =>
      rw [show (exec w (.metric m) s3).2 = none from hm] at r4
      cases (RunI_ret r4).1
    | some mv =>
      rw [show (exec w (.metric m) s3).2 = some mv from hm] at r4
      obtain ⟨h5, s5, b, h6, rfl, r5, r6⟩ := RunI_bind r4
      have hb := (RunI_ret r6).1
      cases hb
      obtain ⟨h7, s7, c, h8, rfl, r7, r8⟩ := RunI_bind r5
      obtain ⟨h9, s9, -, h10, rfl, -, r10⟩ := RunI_bind r8
      have hc := (RunI_ret r10).1
      obtain ⟨c1, c2⟩ := c
      subst hc
      obtain ⟨y, hy, hd, ht, -⟩ := (initMetricIn_run r7).2 x rfl
      cases hy
      have hσ : s3 ∈ statesOf (h1 ++ (h3 ++ ⟨true, .metric m, s3⟩ :: (h7 ++ (h9 ++ h10) ++ h6))) s' := by
        simp [statesOf]
      refine ⟨m, mv, ⟨s3, hσ, hm⟩, hd, fun hk => ?_⟩
      refine kind_core hl hv (view_fits hf (metricView_ext (hS _ hσ).1 hT (hS _ hσ).2 hm)) hd (ht.mono ?_) hk
      rintro σ ⟨e, he, rfl⟩
      exact List.mem_append_left _ (List.mem_map.mpr ⟨e, by simp [he], rfl⟩)

/-- a world in which the `Get` method of flag 0 returns an `int8` at first and a string later -/
def exFlagW : World := { exW with
  flagGet := fun s _ => if s.noise = 0 then some (.scalar none (.int .int8 3)) else some (.scalar none (.string [104])) }

/-- variable 0 is of a type declared as `int8`, variable 1 an `int16`, variable 2 a named `int32` -/
def exKindVars : List Cmd := [.newVar (.scalar (some 4) (.int .int8 3)), .newVar (.scalar none (.int .int16 3)),
  .newVar (.scalar (some 5) (.int .int32 3))]

def exReg (name : Str) (spec : RegSpec) (s : State) : State :=
  ((apiRegisterMetric exFlagW.fnTy 0 name spec (some 0) .none []).run exFlagW s).1

/-- `/a` is variable 0, `/b` variable 1, `/d` variable 2, `/f` flag 0; then the clock ticks -/
def exKinds : State :=
  (exec exFlagW (.tick 1) (exReg nF (.flag 0 true) (exReg nD (.ptr 2) (exReg nB (.ptr 1) (exReg nA (.ptr 0)
    (exKindVars.foldl (fun s c => (exec exFlagW c s).1) State.init)))))).1

theorem exReg_grown {name : Str} {spec : RegSpec} (hs : Grown exFlagW s) (hd : 0 < s.tree.dirs.length) :
    Grown exFlagW (exReg name spec s) := by
  obtain ⟨h, h1, h2⟩ := RunI_of_run (w := exFlagW) (apiRegisterMetric exFlagW.fnTy 0 name spec (some 0) .none []) s
  exact C48_register_grown hs hd h1 fun e he ho => by rw [h2 e he] at ho; cases ho

theorem exKinds_grown : Grown exFlagW exKinds := by
  refine .step (.tick 1) (exReg_grown (exReg_grown (exReg_grown (exReg_grown ?_ ?_) ?_) ?_) ?_) trivial (fun _ _ _ _ h => nomatch h)
  · exact .step _ (.step _ (.step _ .init trivial (fun _ _ _ _ h => nomatch h)) trivial (fun _ _ _ _ h => nomatch h))
      trivial (fun _ _ _ _ h => nomatch h)
  all_goals decide +kernel

/-- what `GetMetric` answers -/
def exKind (path : Str) : Option (Val × Ty × Ty × ℕ) :=
  match ((getMetricMsg false path).run exFlagW exKinds).2 with
  | some (.ok x) => some (x.value, x.kind, x.subType, x.bits)
  | _ => none

theorem exKind_some {path : Str} {v : Val} {k t : Ty} {n : ℕ} (h : exKind path = some (v, k, t, n)) :
    ∃ x, ((getMetricMsg false path).run exFlagW exKinds).2 = some (.ok x) ∧ x.value = v ∧ x.kind = k ∧
      x.subType = t ∧ x.bits = n := by
  unfold exKind at h
  split at h
  · rename_i x hx
    simp only [Option.some.injEq, Prod.mk.injEq] at h
    exact ⟨x, hx, h⟩
  · cases h

/-- **C48 is false for named types**: a metric that was registered with a variable of a type declared as `int8` is
reported with this type, which `FromGoValueWithSubType` does not know. -/
theorem C48_named_false : ∃ x, ((getMetricMsg false [47, 97]).run exFlagW exKinds).2 = some (.ok x) ∧ x.kind = .int8 ∧
    x.value = .scalar (some 4) (.int .int8 3) ∧ fromGoValueWithSubType x.value = (.unknown, .unknown) := by
  have h : exKind [47, 97] = some (.scalar (some 4) (.int .int8 3), .int8, .unknown, 8) := by decide +kernel
  obtain ⟨x, hx, h1, h2, -⟩ := exKind_some h
  exact ⟨x, hx, h2, h1, by rw [h1]; rfl⟩

/-- **C48 is false for flags that change their type**: the kind is that at registration, the value that of now. -/
theorem C48_flag_false : ∃ x, ((getMetricMsg false [47, 102]).run exFlagW exKinds).2 = some (.ok x) ∧ x.kind = .int8 ∧
    x.value = .scalar none (.string [104]) ∧ fromGoValueWithSubType x.value = (.string, .unknown) := by
  have h : exKind [47, 102] = some (.scalar none (.string [104]), .int8, .unknown, 8) := by decide +kernel
  obtain ⟨x, hx, h1, h2, -⟩ := exKind_some h
  exact ⟨x, hx, h2, h1, by rw [h1]; rfl⟩

/-- values of unnamed types, and 32 and 64 bit integers of any type, are described -/
example : Grown exFlagW exKinds ∧ exKind [47, 98] = some (.scalar none (.int .int16 3), .int16, .unknown, 16) ∧
    exKind [47, 100] = some (.scalar none (.int .int32 3), .int32, .unknown, 32) ∧
    ((listMetrics false 9 []).run exFlagW exKinds).2.1.length = 4 :=
  ⟨exKinds_grown, by decide +kernel, by decide +kernel, by decide +kernel⟩

/-- a run of `RegisterMetric` that stores a metric -/
example : ((apiRegisterMetric exFlagW.fnTy 0 nF (.flag 0 true) (some 0) .none []).run exFlagW State.init).2 = .ok (.ok ()) := by
  decide +kernel

end Tricorder
