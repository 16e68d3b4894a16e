import Verif.Proof.Setup2
import Verif.Props.Ex
/-!
# C54, C56, C61: the default metrics and the flags

`started w p now` is the state after the initialization of the package.  `Others w s h s'`: any goroutines take any
steps, `h`, from `s` to `s'`.
-/

namespace Tricorder
open Go Spec Tree

variable {w : World} {s s' : State}

/-! ### C61: which metrics there are -/

/-- **C61 (all)** After the initialization every metric of the table is registered with its description, unit and
group, and reports its variable or function with the metric type of that. -/
theorem C61_registered {p : Proc} (hf : FdInt w p) (now : Time) :
    ((initDefaultMetrics w.fnTy p now).run w State.init).2 = .ok () ∧
    ∀ r ∈ defaultRegs p.hasFds, ∃ m mo, Reaches (started w p now).tree 0 (newPathSpec r.path) (.metric m) ∧
      (started w p now).tree.metrics[m]? = some mo ∧ mo.description = r.description ∧
      StandsFor mo.value r.spec (some r.group) r.unit ∧ Fits w (started w p now) mo.value := by
  obtain ⟨h1, -, h3, -, -, h4⟩ := started_spec hf now
  refine ⟨h1, fun r hr => ?_⟩
  obtain ⟨m, mo, a, b, c, d⟩ := h4 r hr
  refine ⟨m, mo, a, b, c, ?_⟩
  rw [d]
  rcases defaultRegs_spec _ r hr with ⟨v, hv, hs⟩ | ⟨hb, hs⟩
  · refine ⟨?_, ?_⟩
    · rw [hs]; unfold StandsFor defaultVal; rw [hs]; exact ⟨rfl, rfl, rfl, rfl, rfl⟩
    · obtain ⟨d, e1, g, e2, e3⟩ := defaultVars_ty p v hv
      unfold Fits defaultVal
      rw [hs]
      obtain ⟨d', e4, e5⟩ := started_typed hf now v hv p d e1
      exact ⟨d', e4, g, by rw [e5]; exact e2, by rw [metricType_eq]; exact e3⟩
  · refine ⟨?_, ?_⟩
    · rw [hs]; unfold StandsFor defaultVal; rw [hs]; exact ⟨rfl, rfl, rfl, rfl, rfl⟩
    · unfold Fits defaultVal
      rw [hs]
      simp only [hf hb]
      rfl

/-- **C61 (no others)** -/
theorem C61_exact {p : Proc} (hf : FdInt w p) (now : Time) {q : List Str} {m : ℕ}
    (h : Reaches (started w p now).tree 0 q (.metric m)) : ∃ r ∈ defaultRegs p.hasFds, q = newPathSpec r.path :=
  (started_spec hf now).2.2.2.2.1 q m h

/-- which paths of the table of the design document are among the default ones -/
theorem design_regs (b : Bool) : ∀ x ∈ designTable,
    ((∃ r ∈ defaultRegs b, newPathSpec x.1 = newPathSpec r.path) ↔ x.2 = true) := by
  cases b <;> decide +kernel

/-- **C61 (design document)** Of the 17 default metrics in the table of the design document, exactly 14 are registered:
there is no `/proc/memory/max-set-size`, `/proc/memory/soft-page-faults` or `/proc/memory/hard-page-faults`.  (The code
says `max-resident-set-size`, `soft-page-fault` and `hard-page-fault`.) -/
theorem C61_design {p : Proc} (hf : FdInt w p) (now : Time) : ∀ x ∈ designTable,
    ((∃ m, Reaches (started w p now).tree 0 (newPathSpec x.1) (.metric m)) ↔ x.2 = true) := by
  intro x hx
  rw [← design_regs p.hasFds x hx]
  constructor
  · rintro ⟨m, hm⟩
    exact C61_exact hf now hm
  · rintro ⟨r, hr, he⟩
    obtain ⟨m, mo, hm, -⟩ := (C61_registered hf now).2 r hr
    exact ⟨m, he ▸ hm⟩

/-- **C61 (description)** `/proc/cpu/sys` carries the description of `/proc/cpu/user`, "User CPU time used". -/
theorem C61_sys_description {p : Proc} (hf : FdInt w p) (now : Time) : ∃ m mo,
    Reaches (started w p now).tree 0 (newPathSpec (lit "/proc/cpu/sys")) (.metric m) ∧
    (started w p now).tree.metrics[m]? = some mo ∧ mo.description = lit "User CPU time used" := by
  have hr : (⟨lit "/proc/cpu/sys", .ptr vSysTime, resourceUsageGroup, .second, lit "User CPU time used"⟩ : Reg) ∈
      defaultRegs p.hasFds := by
    cases p.hasFds <;> decide +kernel
  obtain ⟨m, mo, a, b, c, -⟩ := (C61_registered hf now).2 _ hr
  exact ⟨m, mo, a, b, c⟩

example : designTable.length = 17 ∧ (designTable.filter fun x => x.2).length = 14 := by decide +kernel

theorem defaultRegs_group (b : Bool) : ∀ r ∈ defaultRegs b, r.group < 3 := by
  cases b <;> decide +kernel

/-- what a default metric reports later -/
theorem row_later {p : Proc} (hf : FdInt w p) (now : Time) {r : Reg} (hr : r ∈ defaultRegs p.hasFds) {v : ℕ}
    (hs : r.spec = .ptr v) :
    ∃ m, Reaches (started w p now).tree 0 (newPathSpec r.path) (.metric m) ∧
      ∀ σ d x, Reachable w σ → Ext (started w p now).tree σ.tree →
        (∀ (g gid : ℕ), (started w p now).regions[g]? = some gid → σ.regions[g]? = some gid) →
        Reaches σ.tree 0 (newPathSpec r.path) (.metric m) → σ.vars[v]? = some d →
        valueToInterface d (defaultTy (.ptr v)) false = some x → GetTells w σ r.path x r.unit r.description r.group := by
  obtain ⟨-, -, -, hg, -, h4⟩ := started_spec hf now
  obtain ⟨m, mo, a, b, c, d⟩ := h4 r hr
  refine ⟨m, a, fun σ d' x h1 h2 h3 h5 h6 h7 => ?_⟩
  have hv : mo.value = ⟨some (.var v), some r.group, none, none, defaultTy (.ptr v), false, r.unit⟩ := by
    rw [d]; unfold defaultVal; rw [hs]
  have hgr : σ.regions[r.group]? = some r.group := by
    apply h3
    rw [hg]
    have := defaultRegs_group _ r hr
    interval_cases r.group <;> rfl
  have hty : defaultTy (.ptr v) ≠ .dist ∧ defaultTy (.ptr v) ≠ .list := by
    unfold defaultTy; constructor <;> (simp only; split <;> simp)
  obtain ⟨y, y1, y2, y3, y4, y5, y6⟩ := read_var h1 h5 (h2.metrics _ _ b) hv hty h6 h7 hgr
  exact ⟨y, y1, y2, y3, by rw [y5]; exact c, y6⟩

/-- the metrics whose values are fixed at start -/
def staticTable (p : Proc) (now : Time) : List (Str × Val × Str × ℕ) :=
  [(lit "/proc/name", .scalar none (.string p.name), lit "Program name", vName),
    (lit "/proc/args", .scalar none (.string (joinByte 124 p.args)), lit "Program args", vArgs),
    (lit "/proc/go/version", .scalar none (.string p.version), lit "Version of Go runtime", vGoVersion),
    (lit "/proc/start-time", .scalar none (.time now), lit "Program start time", vStart)]

theorem static_regs (b : Bool) : ∀ x ∈ [(lit "/proc/name", lit "Program name", vName), (lit "/proc/args", lit "Program args", vArgs),
    (lit "/proc/go/version", lit "Version of Go runtime", vGoVersion), (lit "/proc/start-time", lit "Program start time", vStart)],
    (⟨x.1, .ptr x.2.2, 0, .none, x.2.1⟩ : Reg) ∈ defaultRegs b := by
  cases b <;> decide +kernel

/-- **C61 (values)** `/proc/name`, `/proc/args`, `/proc/go/version` and `/proc/start-time` report the program's name, its
arguments separated by bars, the version of Go and the time of the initialization; whatever other goroutines did in the
meantime, as long as the metric is still registered and the variable was not assigned. -/
theorem C61_static {p : Proc} (hf : FdInt w p) (now : Time) : ∀ row ∈ staticTable p now, ∃ m,
    Reaches (started w p now).tree 0 (newPathSpec row.1) (.metric m) ∧ ∀ h s', Others w (started w p now) h s' →
      NoWrite (· = row.2.2.2) h → Reaches s'.tree 0 (newPathSpec row.1) (.metric m) →
      GetTells w s' row.1 row.2.1 .none row.2.2.1 0 := by
  obtain ⟨-, hre, hv, -⟩ := started_spec hf now
  have core : ∀ (path desc : Str) (v : ℕ) (d : Dyn) (x : Val), (⟨path, .ptr v, 0, .none, desc⟩ : Reg) ∈ defaultRegs p.hasFds →
      (started w p now).vars[v]? = some d → valueToInterface d (defaultTy (.ptr v)) false = some x →
      ∃ m, Reaches (started w p now).tree 0 (newPathSpec path) (.metric m) ∧ ∀ h s', Others w (started w p now) h s' →
      NoWrite (· = v) h → Reaches s'.tree 0 (newPathSpec path) (.metric m) → GetTells w s' path x .none desc 0 := by
    intro path desc v d x hr hd hx
    obtain ⟨m, h1, h2⟩ := row_later hf now hr rfl
    refine ⟨m, h1, fun h s' ho hn hm => ?_⟩
    exact h2 s' d x (others_reachable ho hre) (RunI_ext ho).2 (fun _ _ hg => others_regions ho hg) hm
      (others_var ho hn rfl hd) hx
  have hreg := static_regs p.hasFds
  simp only [List.forall_mem_cons] at hreg
  obtain ⟨g1, g2, g3, g4, -⟩ := hreg
  intro row hrow
  simp only [staticTable, List.mem_cons, List.not_mem_nil, or_false] at hrow
  rcases hrow with rfl | rfl | rfl | rfl
  · exact core _ _ _ _ _ g1 (by rw [hv]; rfl) rfl
  · exact core _ _ _ _ _ g2 (by rw [hv]; rfl) rfl
  · exact core _ _ _ _ _ g3 (by rw [hv]; rfl) rfl
  · exact core _ _ _ _ _ g4 (by rw [hv]; rfl) rfl

theorem memory_reg (b : Bool) : (⟨lit "/proc/memory/total", .ptr vTotalMemory, 1, .byte,
    lit "System memory currently allocated to process"⟩ : Reg) ∈ defaultRegs b := by
  cases b <;> decide +kernel

/-- **C61 (memory)** After the update function of its group, `/proc/memory/total` reports the memory obtained from the
system less the memory returned to it. -/
theorem C61_memory {p : Proc} (hf : FdInt w p) (now : Time) : ∃ m,
    Reaches (started w p now).tree 0 (newPathSpec (lit "/proc/memory/total")) (.metric m) ∧
    ∀ (sys released : ℕ) h s1 h' s2, released ≤ sys → sys < 2 ^ 64 → Others w (started w p now) h s1 →
      Others w ((updateMemory sys released).run w s1).1 h' s2 → NoWrite (· = vTotalMemory) h' →
      Reaches s2.tree 0 (newPathSpec (lit "/proc/memory/total")) (.metric m) →
      GetTells w s2 (lit "/proc/memory/total") (.scalar none (.int .uint64 ((sys : ℤ) - released))) .byte
        (lit "System memory currently allocated to process") 1 := by
  obtain ⟨-, hre, -, -⟩ := started_spec hf now
  obtain ⟨m, h1, h2⟩ := row_later hf now (memory_reg p.hasFds) rfl
  refine ⟨m, h1, fun sys released h s1 h' s2 hle hlt ho1 ho2 hn hm => ?_⟩
  have hr1 := others_reachable ho1 hre
  obtain ⟨d0, e1, e2⟩ := (started_typed hf now).others ho1 vTotalMemory (by decide) p (.scalar none (.int .uint64 0)) rfl
  have hrun : ((updateMemory sys released).run w s1).1 = (exec w (.writeVar vTotalMemory (.scalar none (.int .uint64 (sys - released : ℕ)))) s1).1 := by
    unfold updateMemory
    rw [if_pos hle]
    rfl
  rw [hrun] at ho2
  have hw := writeVar_run (w := w) (d := .scalar none (.int .uint64 (sys - released : ℕ))) e1 e2
  have hr2 : Reachable w (exec w (.writeVar vTotalMemory (.scalar none (.int .uint64 (sys - released : ℕ)))) s1).1 :=
    .step _ hr1 trivial
  have hext : Ext s1.tree (exec w (.writeVar vTotalMemory (.scalar none (.int .uint64 (sys - released : ℕ)))) s1).1.tree :=
    exec_ext _ _
  have hvar : (exec w (.writeVar vTotalMemory (.scalar none (.int .uint64 (sys - released : ℕ)))) s1).1.vars[vTotalMemory]? =
      some (.scalar none (.int .uint64 (sys - released : ℕ))) := by
    rw [hw]
    have := (List.getElem?_eq_some_iff.mp e1).1
    simp [this]
  refine h2 s2 _ _ (others_reachable ho2 hr2) (((RunI_ext ho1).2.trans hext).trans (RunI_ext ho2).2) (fun g gid hg =>
    others_regions ho2 (prefix_get (exec_idsExt _ _).regions (others_regions ho1 hg))) hm
    (others_var ho2 hn rfl hvar) ?_
  have : ((sys - released : ℕ) : ℤ) = (sys : ℤ) - released := by omega
  show some (Val.scalar none (.int .uint64 (u64 ((sys - released : ℕ) : ℤ).toNat : ℕ))) = _
  rw [Int.toNat_natCast]
  congr 3
  unfold u64
  omega

/-! ### C54: resource usage -/

theorem usage_regs (b : Bool) : ∀ x ∈ [(lit "/proc/memory/max-resident-set-size", MUnit.byte, vMaxResident, lit "Maximum resident set size"),
    (lit "/proc/memory/shared", .byte, vIxrss, lit "Integral shared memory size"),
    (lit "/proc/memory/unshared-data", .byte, vIdrss, lit "Integral unshared data size"),
    (lit "/proc/memory/soft-page-fault", .none, vMinflt, lit "Soft page faults"),
    (lit "/proc/memory/hard-page-fault", .none, vMajflt, lit "Hard page faults"),
    (lit "/proc/memory/swaps", .none, vNswap, lit "Swaps"),
    (lit "/proc/io/input", .none, vInblock, lit "Block input operations"),
    (lit "/proc/io/output", .none, vOublock, lit "Block output operations"),
    (lit "/proc/ipc/sent", .none, vMsgsnd, lit "IPC messages sent"),
    (lit "/proc/ipc/received", .none, vMsgrcv, lit "IPC messages received"),
    (lit "/proc/signals/received", .none, vNsignals, lit "Signals received"),
    (lit "/proc/scheduler/involuntary-switches", .none, vNivcsw, lit "Involuntary context switches"),
    (lit "/proc/scheduler/voluntary-switches", .none, vNvcsw, lit "Voluntary context switches"),
    (lit "/proc/cpu/user", .second, vUserTime, lit "User CPU time used"),
    (lit "/proc/cpu/sys", .second, vSysTime, lit "User CPU time used"),
    (lit "/proc/go/num-goroutines", .none, vNumGoroutines, lit "Number of goroutines"),
    (lit "/proc/memory/unshared-stack", .byte, vIsrss, lit "Integral unshared stack size")],
    (⟨x.1, .ptr x.2.2.1, 2, x.2.1, x.2.2.2⟩ : Reg) ∈ defaultRegs b := by
  cases b <;> decide +kernel

/-- The metric at `path` reports `x` in any state after the update function got the answer `k` from the kernel: whatever
other goroutines did before and after, as long as the metric is still registered and the variables of the group were not
assigned since the update. -/
def AfterUpdate (w : World) (p : Proc) (now : Time) (linux : Bool) (n : ℤ) (k : Rusage) (path : Str) (u : MUnit)
    (x : Val) : Prop :=
  ∃ m desc, Reaches (started w p now).tree 0 (newPathSpec path) (.metric m) ∧
    ∀ h s1 h' s2, Others w (started w p now) h s1 → Others w ((updateUsage linux n (some k)).run w s1).1 h' s2 →
      NoWrite UsageVar h' → Reaches s2.tree 0 (newPathSpec path) (.metric m) → GetTells w s2 path x u desc 2

theorem usage_core {p : Proc} (hf : FdInt w p) (now : Time) (linux : Bool) (n : ℤ) (k : Rusage) {path desc : Str} {u : MUnit} {v : ℕ}
    (hr : (⟨path, .ptr v, 2, u, desc⟩ : Reg) ∈ defaultRegs p.hasFds) (hu : UsageVar v) {d : Dyn} {x : Val}
    (hd : (v, d) ∈ usageWrites linux n k) (hx : valueToInterface d (defaultTy (.ptr v)) false = some x) :
    AfterUpdate w p now linux n k path u x := by
  obtain ⟨-, hre, -, -⟩ := started_spec hf now
  obtain ⟨m, h1, h2⟩ := row_later hf now hr rfl
  refine ⟨m, desc, h1, fun h s1 h' s2 ho1 ho2 hn hm => ?_⟩
  obtain ⟨a1, a2, a3, a4, -⟩ := updateUsage_run (others_reachable ho1 hre) ((started_typed hf now).others ho1) linux n k
  refine h2 s2 d x (others_reachable ho2 a1) ?_ (fun g gid hg => others_regions ho2 ?_) hm
    (others_var ho2 hn hu (a4 v d hd)) hx
  · refine (RunI_ext ho1).2.trans (Ext.trans ?_ (RunI_ext ho2).2)
    rw [a3.1]; exact Ext.refl _
  · rw [a3.2]; exact others_regions ho1 hg

theorem rssUnit_eq (linux : Bool) : rssUnit linux = kernelUnit linux := rfl

theorem int64_row {x : ℤ} (h : -2 ^ 63 ≤ x ∧ x < 2 ^ 63) :
    valueToInterface (int64Var (i64 x)) .int64 false = some (int64Val x) := by
  show some (Val.scalar none (.int .int64 (i64 (i64 x)))) = _
  have : i64 x = x := i64_eq (by unfold InI64; omega)
  rw [this, this]
  rfl

/-- the metric at `path` shows the variable `v`, to which the update function assigns a value that reads `x` -/
def Row (b linux : Bool) (n : ℤ) (k : Rusage) (path : Str) (u : MUnit) (x : Val) : Prop :=
  ∃ desc v d, (⟨path, .ptr v, 2, u, desc⟩ : Reg) ∈ defaultRegs b ∧ UsageVar v ∧ (v, d) ∈ usageWrites linux n k ∧
    valueToInterface d (defaultTy (.ptr v)) false = some x

theorem Row.after {p : Proc} (hf : FdInt w p) (now : Time) {linux : Bool} {n : ℤ} {k : Rusage} {path : Str} {u : MUnit} {x : Val} :
    Row p.hasFds linux n k path u x → AfterUpdate w p now linux n k path u x :=
  fun ⟨_, _, _, h1, h2, h3, h4⟩ => usage_core hf now linux n k h1 h2 h3 h4

theorem usage_rows (b linux : Bool) (n : ℤ) (k : Rusage) (hk : InRange k linux) :
    (∀ row ∈ usageTable linux k, Row b linux n k row.1 row.2.1 row.2.2) ∧
    (-2 ^ 63 ≤ n ∧ n < 2 ^ 63 → Row b linux n k (lit "/proc/go/num-goroutines") .none (int64Val n)) := by
  have hreg := usage_regs b
  simp only [List.forall_mem_cons] at hreg
  obtain ⟨g1, g2, g3, g4, g5, g6, g7, g8, g9, g10, g11, g12, g13, g14, g15, g16, g17, -⟩ := hreg
  obtain ⟨-, -, hk⟩ := hk
  simp only [List.forall_mem_cons] at hk
  obtain ⟨k1, k2, k3, k4, k5, k6, k7, k8, k9, k10, k11, k12, k13, -⟩ := hk
  constructor
  · intro row hrow
    simp only [usageTable, List.mem_cons, List.not_mem_nil, or_false] at hrow
    rcases hrow with rfl | rfl | rfl | rfl | rfl | rfl | rfl | rfl | rfl | rfl | rfl | rfl | rfl
    · exact ⟨_, _, _, g1, (by unfold UsageVar; decide), (List.mem_of_getElem? (i := 20) rfl), (int64_row k1)⟩
    · exact ⟨_, _, _, g2, (by unfold UsageVar; decide), (List.mem_of_getElem? (i := 6) rfl), (int64_row k2)⟩
    · exact ⟨_, _, _, g3, (by unfold UsageVar; decide), (List.mem_of_getElem? (i := 7) rfl), (int64_row k3)⟩
    · exact ⟨_, _, _, g4, (by unfold UsageVar; decide), (List.mem_of_getElem? (i := 8) rfl), (int64_row k4)⟩
    · exact ⟨_, _, _, g5, (by unfold UsageVar; decide), (List.mem_of_getElem? (i := 9) rfl), (int64_row k5)⟩
    · exact ⟨_, _, _, g6, (by unfold UsageVar; decide), (List.mem_of_getElem? (i := 10) rfl), (int64_row k6)⟩
    · exact ⟨_, _, _, g7, (by unfold UsageVar; decide), (List.mem_of_getElem? (i := 11) rfl), (int64_row k7)⟩
    · exact ⟨_, _, _, g8, (by unfold UsageVar; decide), (List.mem_of_getElem? (i := 12) rfl), (int64_row k8)⟩
    · exact ⟨_, _, _, g9, (by unfold UsageVar; decide), (List.mem_of_getElem? (i := 13) rfl), (int64_row k9)⟩
    · exact ⟨_, _, _, g10, (by unfold UsageVar; decide), (List.mem_of_getElem? (i := 14) rfl), (int64_row k10)⟩
    · exact ⟨_, _, _, g11, (by unfold UsageVar; decide), (List.mem_of_getElem? (i := 15) rfl), (int64_row k11)⟩
    · exact ⟨_, _, _, g12, (by unfold UsageVar; decide), (List.mem_of_getElem? (i := 17) rfl), (int64_row k13)⟩
    · exact ⟨_, _, _, g13, (by unfold UsageVar; decide), (List.mem_of_getElem? (i := 16) rfl), (int64_row k12)⟩
  · intro hn
    refine ⟨_, _, _, g16, (by unfold UsageVar; decide), (List.mem_of_getElem? (i := 0) rfl), ?_⟩
    show some (Val.scalar none (.int .int64 (i64 n))) = _
    rw [i64_eq (by unfold InI64; omega)]
    rfl

/-- **C54 (other fields)** Every metric of the table reports its own field of the kernel's record: memory in bytes, counts
as they are; and `/proc/go/num-goroutines` the number of goroutines.

Partial: `/proc/memory/unshared-stack` is missing in the table, see `C54_stack_false`; and see `C54_cpu_false`. -/
theorem C54_usage_partial {p : Proc} (hf : FdInt w p) (now : Time) (linux : Bool) (n : ℤ) (k : Rusage)
    (hk : InRange k linux) :
    (∀ row ∈ usageTable linux k, AfterUpdate w p now linux n k row.1 row.2.1 row.2.2) ∧
    (-2 ^ 63 ≤ n ∧ n < 2 ^ 63 → AfterUpdate w p now linux n k (lit "/proc/go/num-goroutines") .none (int64Val n)) :=
  ⟨fun row hrow => ((usage_rows _ linux n k hk).1 row hrow).after hf now, fun hn => ((usage_rows _ linux n k hk).2 hn).after hf now⟩

theorem timeVal_eq {t : Timeval} (h : 0 ≤ t.sec ∧ t.sec ≤ 9000000000 ∧ 0 ≤ t.usec ∧ t.usec < 1000000) :
    timeValToDuration ⟨i64 t.sec, i64 t.usec⟩ = nanos t - 999 * t.usec := by
  unfold timeValToDuration nanos
  rw [i64_eq (x := t.sec) (by unfold InI64; omega), i64_eq (x := t.usec) (by unfold InI64; omega)]
  simp only
  rw [i64_eq (x := t.sec * 1000000000) (by unfold InI64; omega), i64_eq (x := t.usec * 1) (by unfold InI64; omega),
    i64_eq (by unfold InI64; omega)]
  omega

theorem cpu_rows (b linux : Bool) (n : ℤ) (k : Rusage) (hk : InRange k linux) : ∀ row ∈ cpuTable k,
    Row b linux n k row.1 .second (.scalar none (.duration (nanos row.2 - 999 * row.2.usec))) := by
  have hreg := usage_regs b
  simp only [List.forall_mem_cons] at hreg
  obtain ⟨-, -, -, -, -, -, -, -, -, -, -, -, -, g14, g15, -⟩ := hreg
  obtain ⟨k1, k2, -⟩ := hk
  intro row hrow
  simp only [cpuTable, List.mem_cons, List.not_mem_nil, or_false] at hrow
  rcases hrow with rfl | rfl
  · refine ⟨_, _, _, g14, (by unfold UsageVar; decide), (List.mem_of_getElem? (i := 18) rfl), ?_⟩
    rw [timeVal_eq k1]
    rfl
  · refine ⟨_, _, _, g15, (by unfold UsageVar; decide), (List.mem_of_getElem? (i := 19) rfl), ?_⟩
    rw [timeVal_eq k2]
    rfl

/-- **C54 (CPU times)** `/proc/cpu/user` and `/proc/cpu/sys` report durations, in nanoseconds, that are short by 999
nanoseconds for each microsecond in the record.

Partial: so they are right if the microseconds are 0; see `C54_cpu_false`. -/
theorem C54_cpu_partial {p : Proc} (hf : FdInt w p) (now : Time) (linux : Bool) (n : ℤ) (k : Rusage)
    (hk : InRange k linux) : ∀ row ∈ cpuTable k, AfterUpdate w p now linux n k row.1 .second
      (.scalar none (.duration (nanos row.2 - 999 * row.2.usec))) :=
  fun row hrow => (cpu_rows _ linux n k hk row hrow).after hf now

theorem others_refl (s : State) : Others w s [] s := RunI.ret () s

/-- right after the first update -/
theorem afterUpdate_now {p : Proc} (hf : FdInt w p) {now : Time} {linux : Bool} {n : ℤ} {k : Rusage} {path : Str} {u : MUnit}
    {x : Val} (h : AfterUpdate w p now linux n k path u x) :
    ∃ desc, GetTells w ((updateUsage linux n (some k)).run w (started w p now)).1 path x u desc 2 := by
  obtain ⟨-, hre, -, -⟩ := started_spec hf now
  obtain ⟨m, desc, h1, h2⟩ := h
  obtain ⟨-, -, a3, -⟩ := updateUsage_run hre (started_typed hf now) linux n k
  refine ⟨desc, h2 [] _ [] _ (others_refl _) (others_refl _) (fun e he => by simp at he) ?_⟩
  rw [a3.1]
  exact h1

/-- **C54 is false for CPU times**: with any microseconds in the record, the metric does not report the kernel's time. -/
theorem C54_cpu_false {p : Proc} (hf : FdInt w p) (now : Time) (linux : Bool) (n : ℤ) (k : Rusage)
    (hk : InRange k linux) : ∀ row ∈ cpuTable k, row.2.usec ≠ 0 →
    ∃ x desc, GetTells w ((updateUsage linux n (some k)).run w (started w p now)).1 row.1 x .second desc 2 ∧
      x ≠ .scalar none (.duration (nanos row.2)) := by
  intro row hrow hne
  obtain ⟨desc, h⟩ := afterUpdate_now hf (C54_cpu_partial hf now linux n k hk row hrow)
  refine ⟨_, desc, h, fun hx => ?_⟩
  simp only [Val.scalar.injEq, Base.duration.injEq, true_and] at hx
  omega

/-- **C54 is false for the stack size**: `/proc/memory/unshared-stack` reports 0 whatever the kernel says. -/
theorem C54_stack_false {p : Proc} (hf : FdInt w p) (now : Time) (linux : Bool) (n : ℤ) (k : Rusage) :
    ∃ desc, GetTells w ((updateUsage linux n (some k)).run w (started w p now)).1 (lit "/proc/memory/unshared-stack")
      (int64Val 0) .byte desc 2 := by
  have hreg := usage_regs p.hasFds
  simp only [List.forall_mem_cons] at hreg
  obtain ⟨-, -, -, -, -, -, -, -, -, -, -, -, -, -, -, -, g17, -⟩ := hreg
  obtain ⟨-, hre, hv, -⟩ := started_spec hf now
  obtain ⟨m, h1, h2⟩ := row_later hf now g17 rfl
  obtain ⟨a1, a2, a3, a4, a5⟩ := updateUsage_run hre (started_typed hf now) linux n k
  refine ⟨_, h2 _ (int64Var 0) _ a1 (by rw [a3.1]; exact Ext.refl _) (fun g gid hg => by rw [a3.2]; exact hg)
    (by rw [a3.1]; exact h1) ?_ rfl⟩
  rw [a5, hv]
  rfl

/-- **C54 (errors)** If the system call fails, the record stays as it was. -/
theorem C54_error (linux : Bool) (n : ℤ) {v : ℕ} (hv : vUtimeSec ≤ v) {d : Dyn}
    (hd : s.vars[v]? = some d) : ((updateUsage linux n none).run w s).1.vars[v]? = some d := by
  have hno : ProgAll (fun c => ∀ i d, c = .writeVar i d → i ≠ v) (updateUsage linux n none) := by
    refine ⟨?_, fun _ => ⟨?_, fun _ => ⟨?_, fun _ => ⟨?_, fun _ => ⟨?_, fun _ => ⟨?_, fun _ => ⟨?_, fun _ => ⟨?_, fun _ =>
      ⟨?_, fun _ => trivial⟩⟩⟩⟩⟩⟩⟩⟩⟩ <;>
    · rintro i d h
      cases h
      try (unfold vUtimeSec at hv; simp only [vNumGoroutines, vUserTime, vSysTime, vMaxResident]; omega)
  obtain ⟨h, h1, h2⟩ := RunI_of_run (w := w) (updateUsage linux n none) s
  have hown := RunI_all hno h1
  exact (RunI_inv (P := fun σ => σ.vars[v]? = some d) h1 hd (fun e he hp => exec_var_same hp
    (fun d' hc => hown e he (h2 e he) v d' hc rfl))).2

/-! ### C56: flags

The full statement, every flag of every flag set, is false: a flag with a name that is inside the name of another, such
as `a/b` beside `a`, is skipped without a word (`C56_conflict_false`), and if `Get` of some flag returns nil then
`RegisterFlags` panics (`C56_nil_false`). -/

/-- the directory of the flags -/
def flagsDir : List Str := [lit "proc", lit "flags"]

/-- **C56 (registered)** With no metric in the place of `/proc/flags`, and flags that have values, every flag that does
not get in the way of an earlier one is registered below `/proc/flags`, with its usage as description, with its unit and
type; and nothing else but the tree changes. -/
theorem C56_flags_partial (hs : Reachable w s) (u : FlagUnits) {fs : List Flag}
    (hf : ∀ f ∈ fs, ∀ σ, SameButTree s σ → ∃ ty, flagTy w σ f = some ty)
    (hno : ∀ v m, v <+: flagsDir → ¬ Reaches s.tree 0 v (.metric m)) :
    ∃ s', (registerFlags w.fnTy u fs).run w s = (s', .ok ()) ∧ SameButTree s s' ∧
      (∀ d0 q n, Reaches s.tree d0 q n → Reaches s'.tree d0 q n) ∧
      ∀ pre f post, fs = pre ++ f :: post → newPathSpec f.name ≠ [] → Clear s.tree 0 (flagsDir ++ newPathSpec f.name) →
        (∀ g ∈ pre, Apart (newPathSpec g.name) (newPathSpec f.name)) →
        FlagIn w s u f s'.tree 0 (flagsDir ++ newPathSpec f.name) := by
  obtain ⟨h1, -, h3, h4, -, h6⟩ := registerFlags_run (w := w) u (reachable_isTree hs) hf hno
  exact ⟨_, Prod.ext rfl h1, h4, h3, h6⟩

theorem flagIn_const {u : FlagUnits} {f : Flag} {t : Tree MValue} {c : List Str} {ty : GoTy} (hty : ∀ σ, flagTy w σ f = some ty)
    (h : FlagIn w s u f t 0 c) : ∃ m mo, Reaches t 0 c (.metric m) ∧ t.metrics[m]? = some mo ∧ mo.description = f.usage ∧
      mo.value.unit = flagUnitOf u f ty ∧ ReportsFlag mo.value f ty := by
  obtain ⟨m, mo, a, b, c, σ, τ, ty1, ty2, -, e1, e2, -, e3, e4⟩ := h
  rw [hty] at e1 e3
  cases e1; cases e3
  exact ⟨m, mo, a, b, c, e2, e4⟩

/-- what a flag stands for fits the metric that reports it -/
theorem flag_fits {v : MValue} {f : Flag} {ty : GoTy} (hty : flagTy w s f = some ty) (hv : ReportsFlag v f ty) {d : Dyn}
    (hd : flagNow w s f ty = some d) : (∃ src, v.src = some src ∧ Spec.current w s src = some d) ∧ DynFits v d := by
  obtain ⟨-, -, -, h⟩ := hv
  unfold flagNow at hd
  have hstr : ∀ {d}, (w.flagString s f.g).map (fun s => Dyn.scalar none (.string s)) = some d →
      d.ty = some (.scalar ⟨none, .string⟩) := by
    intro d h
    obtain ⟨x, -, rfl⟩ := Option.map_eq_some_iff.mp h
    rfl
  cases hm : metricType ty with
  | none =>
    rw [hm] at h hd
    rw [if_neg (by simp)] at hd
    obtain ⟨h1, h2, h3⟩ := h
    exact ⟨⟨_, h1, hd⟩, _, hstr hd, by rw [h2, h3]; rfl⟩
  | some q =>
    obtain ⟨t, p⟩ := q
    rw [hm] at h hd
    obtain ⟨h1, h2, h3⟩ := h
    unfold flagTy at hty
    cases hg : f.getter with
    | true =>
      rw [hg] at h1 hd hty
      rw [if_pos (by simp)] at hd
      rw [if_pos rfl] at h1 hty
      rw [hd] at hty
      exact ⟨⟨_, h1, hd⟩, _, hty, by rw [h2, h3]; exact hm⟩
    | false =>
      rw [hg] at h1 hd hty
      rw [if_neg (by simp)] at hd hty h1
      refine ⟨⟨_, h1, hd⟩, _, hstr hd, ?_⟩
      rw [h2, h3, ← hm]
      cases hstring : w.flagString s f.g with
      | none => rw [hstring] at hty; cases hty
      | some x => rw [hstring] at hty; cases hty; rfl

/-- **C56 (reported)** If further the flag always has a value of the same type then as long as the metric stays there
`GetMetric("/proc/flags/<name>")` reports the flag's value at that time, with its unit, its usage and group 0; a value
without metric type as a string. -/
theorem C56_value_partial (hs : Reachable w s) (u : FlagUnits) {fs pre post : List Flag} {f : Flag}
    (hf : ∀ f ∈ fs, ∀ σ, SameButTree s σ → ∃ ty, flagTy w σ f = some ty)
    (hno : ∀ v m, v <+: flagsDir → ¬ Reaches s.tree 0 v (.metric m))
    (he : fs = pre ++ f :: post) (hne : newPathSpec f.name ≠ []) (hc : Clear s.tree 0 (flagsDir ++ newPathSpec f.name))
    (ha : ∀ g ∈ pre, Apart (newPathSpec g.name) (newPathSpec f.name)) {ty : GoTy} (hty : ∀ σ, flagTy w σ f = some ty) :
    ∃ m, Reaches ((registerFlags w.fnTy u fs).run w s).1.tree 0 (newPathSpec (lit "/proc/flags/" ++ f.name)) (.metric m) ∧
      ∀ h σ d, Others w ((registerFlags w.fnTy u fs).run w s).1 h σ →
        Reaches σ.tree 0 (newPathSpec (lit "/proc/flags/" ++ f.name)) (.metric m) → flagNow w σ f ty = some d →
        ∃ x t p, metricType ((metricType ty).elim (.scalar ⟨none, .string⟩) fun _ => ty) = some (t, p) ∧
          valueToInterface d t p = some x ∧
          GetTells w σ (lit "/proc/flags/" ++ f.name) x (flagUnitOf u f ty) f.usage 0 := by
  obtain ⟨s', h1, -, -, h4⟩ := C56_flags_partial hs u hf hno
  obtain ⟨m, mo, a, b, c, e2, e4⟩ := flagIn_const hty (h4 pre f post he hne hc ha)
  have hre := flags_reachable u (fs := fs) hs
  rw [h1] at hre ⊢
  refine ⟨m, by rw [flag_path]; exact a, fun h σ d hoth hr hd => ?_⟩
  obtain ⟨⟨src, f1, f2⟩, f3⟩ := flag_fits (hty σ) e4 hd
  obtain ⟨x, hx⟩ := interface_total f3
  have hsc : ∃ g, metricType g = some (mo.value.valType, mo.value.isPtr) := ⟨_, f3.choose_spec.2⟩
  obtain ⟨g, hg⟩ := hsc
  have hreσ := others_reachable hoth hre
  obtain ⟨y, y1, y2, y3, y4, y5, y6⟩ := read_src hreσ hr ((RunI_ext hoth).2.metrics _ _ b) f1 e4.2.2.1
    (metricType_scalar hg) f2 hx (region_zero hreσ)
  refine ⟨x, _, _, ?_, hx, y, y1, y2, y3.trans e2, y5.trans c, y6⟩
  have h5 := e4.2.2.2
  cases hm : metricType ty with
  | none =>
    rw [hm] at h5
    rw [h5.2.1, h5.2.2]
    rfl
  | some q =>
    obtain ⟨t, p⟩ := q
    rw [hm] at h5
    rw [h5.2.1, h5.2.2]
    exact hm

/-- **C56 (units)** `SetFlagUnit` sets the unit of that flag and of no other. -/
theorem C56_setFlagUnit (u : FlagUnits) (name : Str) (unit : MUnit) (f : Flag) (ty : GoTy) :
    flagUnitOf (setFlagUnit u name unit) f ty = if f.name = name then unit else flagUnitOf u f ty := by
  unfold flagUnitOf setFlagUnit
  rw [List.lookup_cons]
  by_cases h : f.name = name
  · have : (f.name == name) = true := by simpa using h
    simp only [if_pos h, this]
  · have : (f.name == name) = false := by simpa using h
    simp only [if_neg h, this]

/-- **C56 (units by default)** -/
theorem C56_default (f : Flag) (ty : GoTy) : flagUnitOf [] f ty = if ty = .scalar ⟨none, .duration⟩ then .second else .none := rfl

/-- **C56 (panic)** With a metric in the place of `/proc/flags` nothing is registered: `RegisterFlags` panics. -/
theorem C56_panic (hs : Reachable w s) (u : FlagUnits) (fs : List Flag) {v : List Str} {m : ℕ} (hv : v <+: flagsDir)
    (hm : Reaches s.tree 0 v (.metric m)) : (registerFlags w.fnTy u fs).run w s = (s, .panic) := by
  have ht := reachable_isTree hs
  have hg : ∀ x ∈ flagsDir, GoodName x := by
    intro x hx
    unfold flagsDir at hx
    rw [← flags_comps] at hx
    exact newPathSpec_comp hx
  obtain ⟨i1, i2, i3, i4, -, i6⟩ := registerDirectory_run (w := w) ht ht.rootIn hg
  rcases i6 with ⟨-, -, -, -, h1, h2⟩ | ⟨d, -, h2, -⟩
  · have hr : (registerDirectory 0 [lit "proc", lit "flags"]).run w s = (s, .error .pathInUse) :=
      Prod.ext (i1.trans (by rw [h2])) h1
    rw [registerFlags, apiRegisterDirectory, flags_comps, run_bind, hr]
    rfl
  · exfalso
    obtain ⟨q, hq⟩ := hv
    generalize ((registerDirectory 0 flagsDir).run w s).1.tree = t at i2 i4 h2
    rw [← hq] at h2
    obtain rfl := reaches_metric_prefix i2 h2 (i4 _ _ _ hm)
    rw [List.append_nil] at h2
    cases reaches_unique i2 h2 (i4 _ _ _ hm)

/-! ### the statement as given is false -/

/-- flag 0 is a duration, the value of flag 1 has a type that is no metric type, flag 2 is nil -/
def exFlagsW : World := { exW with
  flagGet := fun _ g => match g with
    | 0 => some (.scalar none (.duration 5))
    | 1 => some (.other 5)
    | 2 => some .invalid
    | _ => some (.scalar none (.bool true))
  flagString := fun _ _ => some (lit "text") }

/-- `RegisterFlags` in a new program -/
def exFlagsRun (u : FlagUnits) (fs : List Flag) : State × Out Unit := (registerFlags exFlagsW.fnTy u fs).run exFlagsW State.init

def exGet (s : State) (path : Str) : Option (Out Metric) := ((getMetricMsg false path).run exFlagsW s).2

/-- **C56 is false for flags with a slash**: flag `a/b` beside flag `a` is not there, and nobody is told. -/
theorem C56_conflict_false :
    let r := exFlagsRun [] [⟨lit "a", [], 0, true⟩, ⟨lit "a/b", [], 3, true⟩]
    (match r.2 with | .ok _ => true | .panic => false) = true ∧ (exGet r.1 (lit "/proc/flags/a")).isSome = true ∧
    exGet r.1 (lit "/proc/flags/a/b") = none := by
  refine ⟨by decide +kernel, by decide +kernel, Option.isNone_iff_eq_none.mp (by decide +kernel)⟩

/-- **C56 is false for flags that return nil**: `RegisterFlags` panics, and the flags after it are not there. -/
theorem C56_nil_false :
    let r := exFlagsRun [] [⟨lit "a", [], 2, true⟩, ⟨lit "b", [], 3, true⟩]
    r.2 = .panic ∧ exGet r.1 (lit "/proc/flags/b") = none := by
  have h : (match (exFlagsRun [] [⟨lit "a", [], 2, true⟩, ⟨lit "b", [], 3, true⟩]).2 with | .ok _ => false | .panic => true) = true := by
    decide +kernel
  refine ⟨?_, Option.isNone_iff_eq_none.mp (by decide +kernel)⟩
  revert h
  generalize (exFlagsRun [] [⟨lit "a", [], 2, true⟩, ⟨lit "b", [], 3, true⟩]).2 = x
  cases x with
  | panic => intro _; rfl
  | ok _ => intro h; cases h

/-! ### examples -/

def exFlags : List Flag := [⟨lit "timeout", lit "how long", 0, true⟩, ⟨lit "log/level", lit "level", 1, true⟩,
  ⟨lit "plain", [], 3, false⟩, ⟨lit "log/file", lit "file", 4, true⟩]

theorem exFlags_has : ∀ f ∈ exFlags, ∀ σ, SameButTree State.init σ → ∃ ty, flagTy exFlagsW σ f = some ty := by
  unfold exFlags
  simp only [List.forall_mem_cons]
  exact ⟨fun σ _ => ⟨_, rfl⟩, fun σ _ => ⟨_, rfl⟩, fun σ _ => ⟨_, rfl⟩, fun σ _ => ⟨_, rfl⟩, fun _ h => nomatch h⟩

theorem init_no_metric (v : List Str) (m : ℕ) : ¬ Reaches State.init.tree 0 v (.metric m) := by
  intro h
  cases v with
  | nil => cases h
  | cons x v => exact (init_clear (c := x :: v) (by simp)).2 _ h

/-- all hypotheses are met by the second and last flag of a set of four, `log/level`, which is reported as a string,
and `log/file`, which is in the same directory; the first has its unit by default -/
example : FlagIn exFlagsW State.init [] ⟨lit "log/level", lit "level", 1, true⟩ (exFlagsRun [] exFlags).1.tree 0
      (flagsDir ++ newPathSpec (lit "log/level")) ∧
    FlagIn exFlagsW State.init [] ⟨lit "log/file", lit "file", 4, true⟩ (exFlagsRun [] exFlags).1.tree 0
      (flagsDir ++ newPathSpec (lit "log/file")) := by
  obtain ⟨s', h1, -, -, h4⟩ := C56_flags_partial (w := exFlagsW) .init [] exFlags_has (fun v m _ => init_no_metric v m)
  unfold exFlagsRun
  rw [h1]
  exact ⟨h4 [⟨lit "timeout", lit "how long", 0, true⟩] _ _ rfl (by decide +kernel) (init_clear (by decide +kernel)) (by decide +kernel),
    h4 _ _ [] (List.dropLast_append_getLast? _ rfl).symm (by decide +kernel) (init_clear (by decide +kernel)) (by decide +kernel)⟩

/-- `GetMetric("/proc/flags/timeout")` -/
example : GetTells exFlagsW (exFlagsRun [] exFlags).1 (lit "/proc/flags/timeout") (.scalar none (.duration 5)) .second (lit "how long") 0 ∧
    GetTells exFlagsW (exFlagsRun [] exFlags).1 (lit "/proc/flags/log/level") (.scalar none (.string (lit "text"))) .none (lit "level") 0 := by
  constructor
  · obtain ⟨m, h1, h2⟩ := C56_value_partial (w := exFlagsW) .init [] exFlags_has (fun v m _ => init_no_metric v m) (pre := [])
      (f := ⟨lit "timeout", lit "how long", 0, true⟩) rfl (by decide +kernel) (init_clear (by decide +kernel)) (by decide +kernel)
      (ty := .scalar ⟨none, .duration⟩) (fun _ => rfl)
    obtain ⟨x, t, p, a, b, c⟩ := h2 [] _ (.scalar none (.duration 5)) (others_refl _) h1 rfl
    cases a
    cases b
    exact c
  · obtain ⟨m, h1, h2⟩ := C56_value_partial (w := exFlagsW) .init [] exFlags_has (fun v m _ => init_no_metric v m)
      (pre := [⟨lit "timeout", lit "how long", 0, true⟩])
      (f := ⟨lit "log/level", lit "level", 1, true⟩) rfl (by decide +kernel) (init_clear (by decide +kernel)) (by decide +kernel)
      (ty := .other 5) (fun _ => rfl)
    obtain ⟨x, t, p, a, b, c⟩ := h2 [] _ (.scalar none (.string (lit "text"))) (others_refl _) h1 rfl
    cases a
    cases b
    exact c

/-- a metric in the place of the directory -/
def exTaken : State := ((apiRegisterMetric exW.fnTy 0 (lit "proc") (.func 1 0) (some 0) .none []).run exW State.init).1

example : (registerFlags exW.fnTy [] exFlags).run exW exTaken = (exTaken, .panic) := by
  have hre : Reachable exW exTaken := register_reachable .init (by decide +kernel) _ _ _ _ _
  refine C56_panic hre [] exFlags (v := [lit "proc"]) (m := 0) ⟨[lit "flags"], rfl⟩ ?_
  refine (resolve_iff (reachable_isTree hre)).mp ?_
  decide +kernel

/-- a program and a record of the kernel -/
def exProc : Proc := ⟨lit "/bin/prog", [lit "-x", lit "1"], lit "go1.5", false⟩

def exRusage : Rusage := ⟨⟨12, 500000⟩, ⟨3, 0⟩, 4096, 1, 2, 3, 70, 8, 0, 9, 10, 11, 12, 5, 6, 7⟩

theorem exProc_fd : FdInt exW exProc := fun h => nomatch h

theorem exRusage_ok : InRange exRusage true := by
  refine ⟨by decide, by decide, by decide⟩

/-- the hypotheses of the theorems on start-up and on resource usage are met; half a second comes out as half a
microsecond -/
example : (∃ desc, GetTells exW ((updateUsage true 4 (some exRusage)).run exW (started exW exProc Time.zero)).1
      (lit "/proc/memory/max-resident-set-size") (int64Val 4194304) .byte desc 2) ∧
    (∃ x desc, GetTells exW ((updateUsage true 4 (some exRusage)).run exW (started exW exProc Time.zero)).1 (lit "/proc/cpu/user")
      x .second desc 2 ∧ x ≠ .scalar none (.duration 12500000000)) := by
  refine ⟨?_, ?_⟩
  · exact afterUpdate_now exProc_fd ((C54_usage_partial exProc_fd Time.zero true 4 exRusage exRusage_ok).1
      (lit "/proc/memory/max-resident-set-size", .byte, int64Val 4194304) (List.mem_of_getElem? (i := 0) rfl))
  · exact C54_cpu_false exProc_fd Time.zero true 4 exRusage exRusage_ok (lit "/proc/cpu/user", ⟨12, 500000⟩)
      (List.mem_of_getElem? (i := 0) rfl) (by decide)

end Tricorder
