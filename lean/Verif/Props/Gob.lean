import Verif.Model.Gob
import Verif.Props.Kinds
/-!
# C75: what the RPC server can send

The value of a metric is an `interface{}` in the answers of the RPC server, so gob must know its type.
-/

namespace Tricorder
open Go Spec Tree

variable {w : World} {s s' : State}

theorem gob_of_kind {v : Val} (hd : v ≠ .dist none) (h : (fromGoValueWithSubType v).1 ≠ .unknown) :
    gobSends gobRegistry v = true := by
  cases v with
  | nil => rfl
  | scalar n b =>
    cases n with
    | some n => exact absurd rfl h
    | none =>
      cases b with
      | int k x => cases k <;> first | rfl | decide +kernel
      | _ => first | rfl | decide +kernel
  | dist d =>
    cases d with
    | none => exact absurd rfl hd
    | some d => rfl
  | slice n e l =>
    cases n with
    | some n => exact absurd rfl h
    | none =>
      obtain ⟨n, b⟩ := e
      cases n with
      | some n => exact absurd rfl h
      | none =>
        cases b with
        | int k => cases k <;> rfl
        | _ => rfl
  | other i => exact absurd rfl h

def unnamedTy : GobTy → Bool
  | .scalar t => t.named = none
  | .slice n e => n = none && e.named = none
  | .dist => true

theorem registry_unnamed : ∀ t ∈ gobRegistry, unnamedTy t = true := by decide +kernel

theorem gob_named {v : Val} (h : NamedVal v) : gobSends gobRegistry v = false := by
  rw [Bool.eq_false_iff]
  intro hg
  cases v with
  | scalar n b =>
    simp only [gobSends, List.contains_iff_mem] at hg
    exact h (by simpa [unnamedTy] using registry_unnamed _ hg)
  | slice n e l =>
    simp only [gobSends, List.contains_iff_mem] at hg
    have : n = none ∧ e.named = none := by simpa [unnamedTy] using registry_unnamed _ hg
    rcases h with h | h
    · exact h this.1
    · exact h this.2
  | _ => exact h

theorem gob_core {S : State → Prop} {mv : MetricView} {x : Metric} (hf : mv.value.valType ≠ .unknown)
    (hd : Describes x mv) (ht : PreTells w S mv x) (hk : KindRight x) :
    gobSends gobRegistry x.value = true ↔ ¬ NamedVal x.value := by
  refine ⟨fun h hn => ?_, fun hn => ?_⟩
  · rw [gob_named hn] at h; cases h
  · have h1 := hk.1.mpr hn
    have h2 : (fromGoValueWithSubType x.value).1 ≠ .unknown := by rw [h1, hd.2.2.2.1]; exact hf
    refine gob_of_kind (fun he => ?_) h2
    cases ht with
    | dist a1 a2 a3 a4 a5 a6 => rw [a6] at he; cases he
    | list a1 a2 a3 a4 a5 a6 a7 a8 =>
      rw [he, hd.2.2.2.1, a1] at h1
      cases h1
    | scalar a1 a2 a3 a4 a5 a6 =>
      rw [he, hd.2.2.2.1] at h1
      exact a1 (Prod.mk.inj h1).1.symm

theorem gob_time {S : State → Prop} {mv : MetricView} {x : Metric} {sess : Session} (ht : PreTells w S mv x)
    (hs : Timed sess mv x) : gobSendsTime gobRegistry x.timeStamp = true := by
  have : ∃ t, x.timeStamp = .time t := by
    cases ht with
    | dist a1 a2 a3 a4 a5 a6 a7 => exact ⟨_, a7⟩
    | list a1 a2 a3 a4 a5 a6 => exact ⟨_, a6⟩
    | scalar a1 a2 => obtain ⟨r, t, -, -, h⟩ := hs a1 a2; exact ⟨t, h⟩
  obtain ⟨t, h⟩ := this
  rw [h]; rfl

/-- what the proofs below say of one metric of an answer -/
theorem gob_one {S : State → Prop} {mv : MetricView} {x : Metric} {sess : Session} (hf : mv.value.valType ≠ .unknown)
    (hd : Describes x mv) (ht : PreTells w S mv x) (hs : Timed sess mv x) (hk : KindRight x) :
    gobMetric gobRegistry x = true ↔ ¬ NamedVal x.value := by
  rw [gobMetric, gob_time ht hs, Bool.and_true]
  exact gob_core hf hd ht hk

/-- no source of a metric and no list is of a type declared by the program, in the states `S` -/
def PlainSources (w : World) (S : State → Prop) : Prop :=
  ∀ σ, S σ → (∀ sc n b, current w σ sc = some (.scalar n b) → n = none) ∧
    ∀ i lv, listView σ i = some lv → ¬ NamedVal lv.val

theorem plain_interface {d : Dyn} {t : Ty} {p : Bool} {x : Val} (h : ∀ n b, d = .scalar n b → n = none)
    (hx : valueToInterface d t p = some x) : ¬ NamedVal x := by
  unfold valueToInterface at hx
  repeat' split at hx
  all_goals first | (simp only [Option.map_eq_some_iff] at hx; obtain ⟨_, -, rfl⟩ := hx; exact fun h => h rfl) | skip
  · cases d <;> simp only [Dyn.interface, Option.some.injEq, reduceCtorEq] at hx <;> subst hx
    · exact fun h' => h' (h _ _ rfl)
    all_goals exact fun h' => h'
  · cases hx

theorem plain_core {S : State → Prop} (hp : PlainSources w S) {mv : MetricView} {x : Metric} (ht : PreTells w S mv x) :
    ¬ NamedVal x.value := by
  cases ht with
  | dist a1 a2 a3 a4 a5 a6 => rw [a6]; exact fun h => h
  | list a1 a2 a3 a4 a5 a6 => rw [a5]; exact (hp _ a3).2 _ _ a4
  | scalar a1 a2 a3 a4 a5 a6 => exact plain_interface (fun n b h => (hp _ a4).1 _ n b (by rw [a5, h])) a6

/-- **C75 (listings)** The answer of RPC `ListMetrics`, in any state among any steps of other goroutines that register
metrics as `RegisterMetric` does, reaches the client exactly if no value in it is of a type declared by a program.
(Flags with a `Get` method: as long as the method keeps its result type.)

Partial: one would expect every answer to reach the client; false, see `C75_named_false`. -/
theorem C75_listing_partial (hs : Grown w s) {fuel : ℕ} {path : Str} {h : List Ev} {ms : List Metric} {st : Status}
    (hr : RunI w (listMetrics false fuel path) s h s' (ms, st)) (he : ∀ e ∈ h, StoreFits w e)
    (hk : ∀ σ ∈ statesOf h s', ∀ m mv, metricView σ.tree m = some mv → FlagKeeps w (· ∈ statesOf h s') mv.value) :
    rpcSend gobRegistry ms = some ms ↔ ∀ x ∈ ms, ¬ NamedVal x.value := by
  obtain ⟨hl, hf, hS, hT⟩ := grown_run hs (listMetrics_reads _ _ _) hr he
  obtain ⟨⟨U, sess, rfl, -, hU, -⟩, -⟩ := listMetrics_run (grown_reachable hs) hr
  have key : ∀ x ∈ U.map Prod.snd, (gobMetric gobRegistry x = true ↔ ¬ NamedVal x.value) := by
    intro x hx
    obtain ⟨u, hu, rfl⟩ := List.mem_map.mp hx
    obtain ⟨-, -, -, mv, y, ⟨σ, hσ, hv⟩, hy, hd, ht, htime, -⟩ := hU u hu
    cases hy
    have hfit := view_fits hf (metricView_ext (hS σ hσ).1 hT (hS σ hσ).2 hv)
    exact gob_one (fits_known hfit) hd ht htime (kind_core hl (vars_final hr) hfit hd ht (hk σ hσ _ _ hv))
  unfold rpcSend
  by_cases ha : (U.map Prod.snd).all (gobMetric gobRegistry) = true
  · rw [if_pos ha]
    exact ⟨fun _ x hx => (key x hx).mp (List.all_eq_true.mp ha x hx), fun _ => rfl⟩
  · rw [if_neg ha]
    refine ⟨fun h => (nomatch h), fun h => absurd (List.all_eq_true.mpr fun x hx => (key x hx).mpr (h x hx)) ha⟩

/-- **C75 (programs without declared types)** If no metric and no list of the program is of a type that the program
declares, then every listing reaches the client, whatever the other goroutines do. -/
theorem C75_plain (hs : Grown w s) {fuel : ℕ} {path : Str} {h : List Ev} {ms : List Metric} {st : Status}
    (hr : RunI w (listMetrics false fuel path) s h s' (ms, st)) (he : ∀ e ∈ h, StoreFits w e)
    (hk : ∀ σ ∈ statesOf h s', ∀ m mv, metricView σ.tree m = some mv → FlagKeeps w (· ∈ statesOf h s') mv.value)
    (hp : PlainSources w (· ∈ statesOf h s')) : rpcSend gobRegistry ms = some ms := by
  refine (C75_listing_partial hs hr he hk).mpr fun x hx => ?_
  obtain ⟨⟨U, sess, rfl, -, hU, -⟩, -⟩ := listMetrics_run (grown_reachable hs) hr
  obtain ⟨u, hu, rfl⟩ := List.mem_map.mp hx
  obtain ⟨-, -, -, mv, y, -, hy, -, ht, -⟩ := hU u hu
  cases hy
  exact plain_core hp ht

/-- **C75 (single metrics)** The same for RPC `GetMetric`. -/
theorem C75_get_partial (hs : Grown w s) {path : Str} {h : List Ev} {x : Metric}
    (hr : RunI w (getMetricMsg false path) s h s' (some (.ok x))) (he : ∀ e ∈ h, StoreFits w e)
    (hk : ∀ σ ∈ statesOf h s', ∀ m mv, metricView σ.tree m = some mv → FlagKeeps w (· ∈ statesOf h s') mv.value) :
    gobMetric gobRegistry x = true ↔ ¬ NamedVal x.value := by
  obtain ⟨hl, hf, hS, hT⟩ := grown_run hs (getMetricMsg_reads _ _) hr he
  have hv := vars_final hr
  obtain ⟨h1, s1, a, h2, rfl, r1, r2⟩ := RunI_bind hr
  cases a with
  | none => cases (RunI_ret r2).1
  | some m =>
    obtain ⟨h3, s3, h4, rfl, r3, r4⟩ := RunI_op r2
    cases hm : metricView s3.tree m with
    | none =>
      rw [show (exec w (.metric m) s3).2 = none from hm] at r4
      cases (RunI_ret r4).1
    | some mv =>
      rw [show (exec w (.metric m) s3).2 = some mv from hm] at r4
      obtain ⟨h5, s5, b, h6, rfl, r5, r6⟩ := RunI_bind r4
      have hb := (RunI_ret r6).1
      cases hb
      obtain ⟨h7, s7, c, h8, rfl, r7, r8⟩ := RunI_bind r5
      obtain ⟨h9, s9, -, h10, rfl, -, r10⟩ := RunI_bind r8
      have hc := (RunI_ret r10).1
      obtain ⟨c1, c2⟩ := c
      subst hc
      obtain ⟨y, hy, hd, ht, htime⟩ := (initMetricIn_run r7).2 x rfl
      cases hy
      have hσ : s3 ∈ statesOf (h1 ++ (h3 ++ ⟨true, .metric m, s3⟩ :: (h7 ++ (h9 ++ h10) ++ h6))) s' := by
        simp [statesOf]
      have hfit := view_fits hf (metricView_ext (hS _ hσ).1 hT (hS _ hσ).2 hm)
      refine gob_one (fits_known hfit) hd ht htime (kind_core hl hv hfit hd (ht.mono ?_) (hk _ hσ _ _ hm))
      rintro σ ⟨e, he, rfl⟩
      exact List.mem_append_left _ (List.mem_map.mpr ⟨e, by simp [he], rfl⟩)

/-- **C75 is false for declared types**: one metric of a type declared as `int8`, which `RegisterMetric` accepts, and the
listing of all metrics cannot be sent. -/
theorem C75_named_false : Grown exFlagW exKinds ∧ ((listMetrics false 9 []).run exFlagW exKinds).2.2 = .ok ∧
    ((listMetrics false 9 []).run exFlagW exKinds).2.1.length = 4 ∧
    rpcSend gobRegistry ((listMetrics false 9 []).run exFlagW exKinds).2.1 = none :=
  ⟨exKinds_grown, by decide +kernel, by decide +kernel, by decide +kernel⟩

/-- the listing of the one metric of a predeclared type can be sent -/
example : ((listMetrics false 9 [47, 98]).run exFlagW exKinds).2.1.length = 1 ∧
    rpcSend gobRegistry ((listMetrics false 9 [47, 98]).run exFlagW exKinds).2.1 =
      some ((listMetrics false 9 [47, 98]).run exFlagW exKinds).2.1 :=
  ⟨by decide +kernel, by decide +kernel⟩

/-- a world in which no flag has a `Get` method -/
def exGobW : World := { exW with flagGet := fun _ _ => none }

/-- `/b` is a variable of type `int16` -/
def exGob : State :=
  ((apiRegisterMetric exGobW.fnTy 0 nB (.ptr 0) (some 0) .none []).run exGobW
    (exec exGobW (.newVar (.scalar none (.int .int16 3))) State.init).1).1

theorem exGob_grown : Grown exGobW exGob := by
  obtain ⟨h, h1, h2⟩ := RunI_of_run (w := exGobW) (apiRegisterMetric exGobW.fnTy 0 nB (.ptr 0) (some 0) .none [])
    (exec exGobW (.newVar (.scalar none (.int .int16 3))) State.init).1
  exact C48_register_grown (.step (.newVar (.scalar none (.int .int16 3))) .init trivial (fun _ _ _ _ h => nomatch h))
    (by decide +kernel) h1
    fun e he ho => by rw [h2 e he] at ho; cases ho

/-- the hypotheses of `C75_listing_partial` and `C75_plain` hold for a run that lists one metric -/
example : ∃ h ms st, RunI exGobW (listMetrics false 9 []) exGob h exGob (ms, st) ∧ (∀ e ∈ h, StoreFits exGobW e) ∧
    (∀ σ ∈ statesOf h exGob, ∀ m mv, metricView σ.tree m = some mv →
      FlagKeeps exGobW (· ∈ statesOf h exGob) mv.value) ∧ PlainSources exGobW (· ∈ statesOf h exGob) ∧ ms.length = 1 := by
  obtain ⟨h, h1, h2, h3⟩ := RunI_alone (w := exGobW) (listMetrics_reads false 9 []) exGob
  refine ⟨h, _, _, h1, ?_, ?_, ?_, by decide +kernel⟩
  · intro e he d n ds v hc
    have := (RunI_reads (listMetrics_reads _ _ _) h1 (grown_reachable exGob_grown)).2 e he (h2 e he)
    rw [hc] at this
    cases this
  · intro σ _ m mv _ g τ d _ _ hd
    cases hd
  · intro σ hσ
    rw [h3 σ hσ]
    have hv : exGob.vars = [.scalar none (.int .int16 3)] := by decide +kernel
    have hl : exGob.lists = [] := by decide +kernel
    refine ⟨fun sc n b hc => ?_, fun i lv hl' => ?_⟩
    · cases sc with
      | var v =>
        rw [current, hv] at hc
        cases v with
        | zero => cases hc; rfl
        | succ v => cases hc
      | fn f =>
        change (exW.fn exGob f) = _ at hc
        unfold exW at hc
        simp only at hc
        split at hc
        · cases hc
        · split at hc <;> cases hc; rfl
      | flagGet g => cases hc
      | flagString g => cases hc; rfl
    · rw [listView, hl] at hl'
      cases hl'

end Tricorder
