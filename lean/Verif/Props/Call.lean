import Verif.Proof.Call
import Verif.Props.Finite
import Verif.Props.Setup
/-!
# C90: one listing shows one call of each update function
-/

namespace Tricorder.Whole
open Go Spec Tree

variable {A : Type} {w : World}

/-- **C90 (listings)** In a listing, all scalars of a group come from one call of its update function.  They carry the time
which that call returned.  And if it executes a program on variables that only it changes, then they are reported as if it had
been executed in one step, whatever other goroutines do in between. -/
theorem C90_listing {tr : List (Item Answer)} {s : St Answer} (hr : Run w tr s) {c fuel : ℕ} {json : Bool} {path : Str}
    (hc : ∃ it ∈ tr, it.lab = .spawn c (listCall json fuel path)) {ms : List Metric} {st : Status} {held : List (ℕ × ℕ)}
    (hd : s.procs[c]? = some ⟨.run (.ret (.listing ms st)), held⟩) :
    ∃ V, List.Forall₂ (Reports c tr json) V ms ∧
      ∀ r, (∃ v ∈ V, Scalar v.1 ∧ v.1.value.region = some r) → OneCall w tr r V := by
  obtain ⟨V, h1, h2⟩ := C70_listing hr hc hd
  exact ⟨V, h1, fun r hv => (h2 r hv).oneCall hr⟩

/-- C90, single metric: likewise. -/
theorem C90_single {tr : List (Item Answer)} {s : St Answer} (hr : Run w tr s) {c : ℕ} {json : Bool} {path : Str}
    (hc : ∃ it ∈ tr, it.lab = .spawn c (getCall json path)) {x : Metric} {held : List (ℕ × ℕ)}
    (hd : s.procs[c]? = some ⟨.run (.ret (.single (some (.ok x)))), held⟩) :
    ∃ v, Reports c tr json v x ∧ ∀ r, Scalar v.1 → v.1.value.region = some r → OneCall w tr r [v] := by
  obtain ⟨v, h1, h2⟩ := C70_single hr hc hd
  exact ⟨v, h1, fun r hs hreg => (h2 r hs hreg).oneCall hr⟩

/-! ### The default metrics -/

theorem UsesVars.bind {α β : Type} {X : ℕ → Prop} {p : Prog α} {f : α → Prog β} (hp : UsesVars X p) (hf : ∀ a, UsesVars X (f a)) :
    UsesVars X (p.bind f) := by
  induction p with
  | ret a => exact hf a
  | op cmd k ih => exact ⟨hp.1, fun x => ih x (hp.2 x)⟩

theorem UsesVars.writeVars {X : ℕ → Prop} : ∀ {l : List (ℕ × Dyn)}, (∀ x ∈ l, X x.1) → UsesVars X (writeVars l)
  | [], _ => trivial
  | x :: l, h => ⟨.inr ⟨_, _, h x (by simp), rfl⟩, fun _ => UsesVars.writeVars fun y hy => h y (by simp [hy])⟩

theorem updateUsage_uses (linux : Bool) (n : ℤ) (k : Rusage) : UsesVars UsageVar (updateUsage linux n (some k)) := by
  have hw : ∀ {v d}, UsageVar v → (∃ i, UsageVar i ∧ (Cmd.writeVar v d) = .readVar i) ∨ ∃ i d', UsageVar i ∧ (Cmd.writeVar v d) = .writeVar i d' :=
    fun h => .inr ⟨_, _, h, rfl⟩
  have hr : ∀ {v}, UsageVar v → (∃ i, UsageVar i ∧ (Cmd.readVar v) = .readVar i) ∨ ∃ i d', UsageVar i ∧ (Cmd.readVar v) = .writeVar i d' :=
    fun h => .inl ⟨_, h, rfl⟩
  have tv : ∀ {a b}, UsageVar a → UsageVar b → UsesVars UsageVar (readTimeval a b) :=
    fun h1 h2 => ⟨hr h1, fun _ => ⟨hr h2, fun _ => trivial⟩⟩
  refine ⟨hw (by unfold UsageVar; decide), fun _ => UsesVars.bind ?_ fun _ => UsesVars.bind (tv ?_ ?_) fun _ =>
    ⟨hw (by unfold UsageVar; decide), fun _ => UsesVars.bind (tv ?_ ?_) fun _ => ⟨hw (by unfold UsageVar; decide), fun _ =>
      ⟨hr (by unfold UsageVar; decide), fun _ => ⟨hw (by unfold UsageVar; decide), fun _ => trivial⟩⟩⟩⟩⟩
  · refine UsesVars.writeVars fun x hx => ?_
    have : x.1 ∈ [6, 7, 8, 9, 10, 11, 12, 14, 15, 16, 17, 18, 19, 20, 21, 22, 23] := List.mem_map_of_mem (f := Prod.fst) hx
    have : 2 ≤ x.1 ∧ x.1 ≤ 23 := by revert this; generalize x.1 = y; intro h; simp at h; omega
    exact this
  all_goals unfold UsageVar; decide

theorem Path.typed {s s' : St A} {l : List (Item A)} (h : Path w s l s') (ht : VarsTyped s.mem) : VarsTyped s'.mem := by
  induction h with
  | nil => exact ht
  | cons hs _ ih => exact ih (by cases hs <;> first | exact ht | exact ht.exec _)

/-- what a metric of the default groups looks like -/
theorem registeredAt_value {p : Tricorder.Proc} (hf : FdInt w p) {now : Time} {path desc : Str} {v g : ℕ} {u : MUnit}
    (hr : (⟨path, .ptr v, g, u, desc⟩ : Reg) ∈ defaultRegs p.hasFds) {mv : MetricView}
    (h : RegisteredAt (started w p now) path mv) :
    mv.value = ⟨some (.var v), some g, none, none, defaultTy (.ptr v), false, u⟩ := by
  obtain ⟨-, hre, -, -, -, h4⟩ := started_spec hf now
  obtain ⟨m, h1, h2⟩ := h
  obtain ⟨m', mo, a, b, c, d⟩ := h4 _ hr
  have : m' = m := by
    have := reaches_unique (reachable_isTree hre) a h1
    cases this
    rfl
  subst this
  unfold metricView at h2
  rw [b] at h2
  split at h2
  · rename_i e1 e2
    cases e1
    cases h2
    rw [d]
    rfl
  · cases h2

theorem IsCall.typed {p : Tricorder.Proc} (hf : FdInt w p) {now : Time} {tr : List (Item A)} {s : St A} (hr : Run w tr s) {r : ℕ} {t : Time}
    {a l b : List (Item A)} {x u : Item A} (hcall : IsCall r t tr a x l u b) (hst : ∃ y ∈ a ++ [x], y.post = started w p now) :
    ∃ sx, Run w (a ++ [x]) sx ∧ sx.mem = x.post ∧ VarsTyped sx.mem := by
  have hr' := hr
  rw [hcall.split, List.append_cons] at hr'
  obtain ⟨sx, hrx, -⟩ := hr'.path
  obtain ⟨s0, e0, hp⟩ := Path.last (b := []) hrx
  cases hp
  refine ⟨_, hrx, e0, ?_⟩
  obtain ⟨y, hy, hyp⟩ := hst
  obtain ⟨b1, b2, hb⟩ := List.append_of_mem hy
  rw [hb] at hrx
  obtain ⟨s1, e1, hp⟩ := Path.last hrx
  exact hp.typed (by rw [e1, hyp]; exact started_typed hf now)

/-- **C90 (resource usage)** After the initialization of the package: in a listing all metrics of the resource usage group show
values of one and the same call of its update function.  If that got the answer `k` from the kernel, and `n` goroutines, each
shows its own field of `k`; the CPU times as in C54. -/
theorem C90_usage {p : Tricorder.Proc} (hf : FdInt w p) (now : Time) {tr : List (Item Answer)} {s : St Answer} (hr : Run w tr s)
    {c fuel : ℕ} {json : Bool} {path : Str} (hc : ∃ it ∈ tr, it.lab = .spawn c (listCall json fuel path)) {ms : List Metric}
    {st : Status} {held : List (ℕ × ℕ)} (hd : s.procs[c]? = some ⟨.run (.ret (.listing ms st)), held⟩) :
    ∃ V, List.Forall₂ (Reports c tr json) V ms ∧
      ((∃ v ∈ V, Scalar v.1 ∧ v.1.value.region = some 2) → ∃ a x l u b t, IsCall 2 t tr a x l u b ∧
        ∀ linux n k, (∃ y ∈ a ++ [x], y.post = started w p now) → InRange k linux → -2 ^ 63 ≤ n ∧ n < 2 ^ 63 →
          Does w 2 (updateUsage linux n (some k)) l → (∀ i, UsageVar i → OnlyUpdate w 2 (.var i) (l ++ u :: b)) →
          ∀ row ∈ usageRows linux n k, ∀ v ∈ V, RegisteredAt (started w p now) row.1 v.1 →
            v.2.timeStamp = .time t ∧ v.2.value = row.2) := by
  obtain ⟨V, h1, h2⟩ := C90_listing hr hc hd
  refine ⟨V, h1, fun hv => ?_⟩
  obtain ⟨a, x, l, u, b, t, hcall, h3⟩ := h2 2 hv
  refine ⟨a, x, l, u, b, t, hcall, fun linux n k hst hk hn hdoes ho row hrow v hvV hat => ?_⟩
  obtain ⟨un, hR⟩ : ∃ un, Row p.hasFds linux n k row.1 un row.2 := by
    simp only [usageRows, List.mem_cons, List.mem_append, List.mem_map] at hrow
    rcases hrow with rfl | ⟨r, hm, rfl⟩ | ⟨r, hm, rfl⟩
    · exact ⟨_, (usage_rows _ linux n k hk).2 hn⟩
    · exact ⟨_, (usage_rows _ linux n k hk).1 r hm⟩
    · exact ⟨_, cpu_rows _ linux n k hk r hm⟩
  obtain ⟨desc, i, d, hreg, hi, hw, hx⟩ := hR
  have hval := registeredAt_value hf hreg hat
  have hsc : Scalar v.1 := by
    unfold Scalar
    rw [hval]
    unfold defaultTy
    constructor <;> (simp only; split <;> simp)
  obtain ⟨ht, h4⟩ := h3 v hvV hsc (by rw [hval])
  refine ⟨ht, ?_⟩
  obtain ⟨d', e1, e2⟩ := h4 _ _ hdoes (updateUsage_uses linux n k) ho i hi (by rw [hval])
  obtain ⟨sx, hrx, hmem, htyped⟩ := hcall.typed hf hr hst
  obtain ⟨-, -, -, hfin, -⟩ := updateUsage_run (hrx.reach fun _ => ⟨0, 0⟩) (show VarsTyped (code 0 sx.mem) from htyped) linux n k
  have hag := (updateUsage_uses linux n k).agree (w := w) (w' := timed w fun _ => ⟨0, 0⟩) (σ := x.post) (τ := code 0 sx.mem)
    (fun i _ => by rw [hmem]; rfl) i hi
  rw [hag, hfin i d hw] at e1
  cases e1
  rw [hval, hx] at e2
  exact (Option.some.inj e2).symm

/-- **C90 (memory)** Likewise `/proc/memory/total` shows the memory obtained from the system less the memory returned to it, both
from one and the same call. -/
theorem C90_memory {p : Tricorder.Proc} (hf : FdInt w p) (now : Time) {tr : List (Item Answer)} {s : St Answer} (hr : Run w tr s)
    {c fuel : ℕ} {json : Bool} {path : Str} (hc : ∃ it ∈ tr, it.lab = .spawn c (listCall json fuel path)) {ms : List Metric}
    {st : Status} {held : List (ℕ × ℕ)} (hd : s.procs[c]? = some ⟨.run (.ret (.listing ms st)), held⟩) :
    ∃ V, List.Forall₂ (Reports c tr json) V ms ∧
      ((∃ v ∈ V, Scalar v.1 ∧ v.1.value.region = some 1) → ∃ a x l u b t, IsCall 1 t tr a x l u b ∧
        ∀ sys released : ℕ, (∃ y ∈ a ++ [x], y.post = started w p now) → released ≤ sys → sys < 2 ^ 64 →
          Does w 1 (updateMemory sys released) l → OnlyUpdate w 1 (.var vTotalMemory) (l ++ u :: b) →
          ∀ v ∈ V, RegisteredAt (started w p now) (lit "/proc/memory/total") v.1 →
            v.2.timeStamp = .time t ∧ v.2.value = .scalar none (.int .uint64 ((sys : ℤ) - released))) := by
  obtain ⟨V, h1, h2⟩ := C90_listing hr hc hd
  refine ⟨V, h1, fun hv => ?_⟩
  obtain ⟨a, x, l, u, b, t, hcall, h3⟩ := h2 1 hv
  refine ⟨a, x, l, u, b, t, hcall, fun sys released hst hle hlt hdoes ho v hvV hat => ?_⟩
  have hval := registeredAt_value hf (memory_reg p.hasFds) hat
  have hsc : Scalar v.1 := by
    unfold Scalar
    rw [hval]
    unfold defaultTy
    constructor <;> (simp only; split <;> simp)
  obtain ⟨ht, h4⟩ := h3 v hvV hsc (by rw [hval])
  refine ⟨ht, ?_⟩
  have huse : UsesVars (· = vTotalMemory) (updateMemory sys released) := by
    unfold updateMemory
    rw [if_pos hle]
    exact ⟨.inr ⟨_, _, rfl, rfl⟩, fun _ => trivial⟩
  obtain ⟨d', e1, e2⟩ := h4 _ _ hdoes huse (by rintro i rfl; exact ho) _ rfl (by rw [hval])
  obtain ⟨sx, hrx, hmem, htyped⟩ := hcall.typed hf hr hst
  obtain ⟨d0, f1, f2⟩ := htyped vTotalMemory (by decide) p (.scalar none (.int .uint64 0)) rfl
  rw [hmem] at f1
  have hrun : ((updateMemory sys released).run w x.post).1 =
      (exec w (.writeVar vTotalMemory (.scalar none (.int .uint64 (sys - released : ℕ)))) x.post).1 := by
    unfold updateMemory
    rw [if_pos hle]
    rfl
  rw [hrun, writeVar_run (d := .scalar none (.int .uint64 (sys - released : ℕ))) f1 f2] at e1
  have hlt' := (List.getElem?_eq_some_iff.mp f1).1
  simp only [List.getElem?_set_self hlt', Option.some.injEq] at e1
  subst e1
  rw [hval] at e2
  have e2 : some (Val.scalar none (.int .uint64 (u64 ((sys - released : ℕ) : ℤ).toNat : ℕ))) = some v.2.value := e2
  rw [← Option.some.inj e2, Int.toNat_natCast]
  congr 2
  unfold u64
  omega

/-! ### Example: resource usage while another request arrives

The package is initialized.  A listing of `/proc/ipc` takes the group; in the middle of the update another request arrives. -/

/-- a program that a goroutine executes alone -/
theorem Path.alone {s s' : St A} {l : List (Item A)} {c : ℕ} (h : Path w s l s') (hl : ∀ it ∈ l, ∃ cmd, it.lab = .own c cmd) :
    ∀ {p : Prog A} {held : List (ℕ × ℕ)}, s.procs[c]? = some ⟨.run p, held⟩ →
    (∃ a held', s'.procs[c]? = some ⟨.run (.ret a), held'⟩) → s'.mem = (p.run w s.mem).1 := by
  induction h with
  | nil s =>
    rintro p held h1 ⟨a, held', h2⟩
    rw [h1] at h2
    cases h2
    rfl
  | @cons s it s1 l s' hs _ ih =>
    intro p held h1 h2
    obtain ⟨cmd, hlab⟩ := hl it (by simp)
    have hc : c < s.procs.length := (List.getElem?_eq_some_iff.mp h1).1
    have ih := fun {p held} => ih (fun y hy => hl y (by simp [hy])) (p := p) (held := held)
    cases hs with
    | own c' held' cmd' k h3 h4 h5 =>
      cases hlab
      rw [h1] at h3
      cases h3
      exact ih (p := k (exec w cmd s.mem).2) (held := held) (List.getElem?_set_self hc) h2
    | newGroup c' held' k h3 =>
      cases hlab
      rw [h1] at h3
      cases h3
      exact ih (p := k s.mem.regions.length) (held := held) (List.getElem?_set_self hc) h2
    | _ => cases hlab

/-- the steps of a program -/
def cmdsOf (w : World) {α : Type} : Prog α → State → List Cmd
  | .ret _, _ => []
  | .op cmd k, σ => cmd :: cmdsOf w (k (exec w cmd σ).2) (exec w cmd σ).1

def exStart : Prog Answer := (initDefaultMetrics exW.fnTy exProc Time.zero).bind fun _ => .ret .other

def exUpds : List Cmd := cmdsOf exW (updateUsage true 4 (some exRusage)) (started exW exProc Time.zero)

def exInit : Option (List (Item Answer) × St Answer) := playW exW (.spawn exStart :: gos 0 115) [] (start Answer)

def exUse : Option (List (Item Answer) × St Answer) :=
  playW exW ((.spawn exStart :: gos 0 115) ++ .spawn (listCall true 3 (lit "/proc/ipc")) :: (gos 1 6 ++ [.send 0 2, .handle 2] ++
    (exUpds.take 10).map (.upd 2) ++ [.spawn (getCall true (lit "/proc/name")), .go 2] ++ (exUpds.drop 10).map (.upd 2) ++
    [.updated 2 ⟨100, 0⟩, .receive 0 2, .visited 0] ++ gos 1 7 ++ releasing 1 2 0)) [] (start Answer)

def sameCmd : Cmd → Cmd → Bool
  | .readVar i, .readVar j => i = j
  | .writeVar i (.scalar none b), .writeVar j (.scalar none b') => i = j ∧ b = b'
  | _, _ => false

theorem sameCmd_eq {a b : Cmd} (h : sameCmd a b = true) : b = a := by
  unfold sameCmd at h
  split at h <;> simp_all

def doesB (w : World) (r : ℕ) : List (Item Answer) → Prog Unit → Bool
  | [], .ret _ => true
  | [], .op _ _ => false
  | it :: l, p => match it.lab with
    | .upd r' cmd' => if r' = r then match p with
        | .op cmd k => sameCmd cmd cmd' && doesB w r l (k (exec w cmd it.pre).2)
        | .ret _ => false
      else doesB w r l p
    | _ => doesB w r l p

theorem doesB_does {r : ℕ} {l : List (Item Answer)} {p : Prog Unit} (h : doesB w r l p = true) : Does w r p l := by
  induction l generalizing p with
  | nil =>
    cases p with
    | ret => exact .ret
    | op => cases h
  | cons it l ih =>
    unfold doesB at h
    split at h
    · rename_i r' cmd' e
      split at h
      · subst r'
        split at h
        · rw [Bool.and_eq_true] at h
          rw [sameCmd_eq h.1] at e
          exact .own e (ih h.2)
        · cases h
      · exact .skip (fun cmd hc => by rw [e] at hc; cases hc; contradiction) (ih h)
    · rename_i e
      exact .skip (fun cmd hc => e _ _ hc) (ih h)

def isBegin (r : ℕ) (it : Item Answer) : Bool := it.evs.any fun e => match e with | .updBegin r' _ => r' = r | _ => false
def isEnd (r : ℕ) (it : Item Answer) : Bool := it.evs.any fun e => match e with | .updEnd r' _ _ => r' = r | _ => false
def isOwn (it : Item Answer) : Bool := match it.lab with | .own 0 _ => true | _ => false
def reads : Cmd → Bool
  | .getEntry _ _ | .list _ | .metric _ | .dirAbsPath _ | .readVar _ | .regionId _ => true
  | _ => false
def isWrite (r : ℕ) (it : Item Answer) : Bool := match it.lab with | .own _ cmd => !reads cmd | .upd r' _ => r' ≠ r | _ => false

/-- the only call of the update function of group `r` begins in step `m`, ends in step `m + n + 1`, and executes `p` -/
def callChecks (r m n : ℕ) (p : Prog Unit) (tr : List (Item Answer)) : List Bool :=
  [(tr.take (m + 1)).map (isBegin r) = List.replicate m false ++ [true], (tr.drop (m + 1)).all fun it => !isBegin r it,
    (tr.take (m + n + 2)).map (isEnd r) = List.replicate (m + n + 1) false ++ [true], (tr.drop (m + n + 2)).all fun it => !isEnd r it,
    doesB exW r ((tr.take (m + n + 1)).drop (m + 1)) p, (tr.drop (m + 1)).all fun it => !isWrite r it]

theorem exUse_checks : exUse.map (fun x => callChecks 2 124 28 (updateUsage true 4 (some exRusage)) x.1) = some (List.replicate 6 true) := by
  decide +kernel

theorem exUse_answer : exUse.map (fun x => exFlAnswer x.2.procs[1]?) = some (some
    [(lit "/proc/ipc/received", false, some (.int .int64 12)), (lit "/proc/ipc/sent", false, some (.int .int64 11))]) := by
  decide +kernel

theorem playW_append {ms ms' : List (Move A)} {tr tr' : List (Item A)} {s s' : St A}
    (h : playW w (ms ++ ms') tr s = some (tr', s')) : ∃ tr1 s1, playW w ms tr s = some (tr1, s1) ∧ playW w ms' tr1 s1 = some (tr', s') := by
  induction ms generalizing tr s with
  | nil => exact ⟨tr, s, rfl, h⟩
  | cons m ms ih =>
    rw [List.cons_append] at h
    unfold playW at h
    split at h
    · cases h
    · rename_i e
      obtain ⟨tr1, s1, h1, h2⟩ := ih h
      exact ⟨tr1, s1, by rw [playW, e]; exact h1, h2⟩

theorem playW_path {ms : List (Move A)} {tr tr' : List (Item A)} {s s' : St A} (h : playW w ms tr s = some (tr', s')) :
    ∃ l, tr' = tr ++ l ∧ Path w s l s' := by
  induction ms generalizing tr s with
  | nil => cases h; exact ⟨[], by simp, .nil _⟩
  | cons m ms ih =>
    unfold playW at h
    split at h
    · cases h
    · obtain ⟨l, rfl, hp⟩ := ih h
      exact ⟨_ :: l, (List.append_assoc _ [_] l), .cons (move_step ‹_›) hp⟩

def exDone : Option (Proc Answer) → Bool
  | some ⟨.run (.ret _), _⟩ => true
  | _ => false

theorem exInit_checks :
    exInit.map (fun x => [decide (x.1.length = 116), (x.1.drop 1).all isOwn, exDone x.2.procs[0]?]) = some [true, true, true] := by
  decide +kernel

theorem exInit_mem {tr : List (Item Answer)} {s : St Answer} (h : exInit = some (tr, s)) :
    tr.length = 116 ∧ ∃ y ∈ tr, y.post = started exW exProc Time.zero := by
  have hc := exInit_checks
  rw [h] at hc
  simp only [Option.map_some, Option.some.injEq, List.cons.injEq, and_true, decide_eq_true_eq] at hc
  obtain ⟨h1, h2, h3⟩ := hc
  have hr : Run exW tr s := playW_run .nil h
  unfold exInit at h
  obtain ⟨tr1, s1, h4, h5⟩ := playW_append (ms := [.spawn exStart]) (ms' := gos 0 115) h
  cases h4
  obtain ⟨l, rfl, hp⟩ := playW_path h5
  refine ⟨h1, ?_⟩
  have hmem : s.mem = started exW exProc Time.zero := by
    have := hp.alone (c := 0) (p := exStart) (held := []) (fun it hi => by
      have := List.all_eq_true.mp h2 it (by simpa using hi)
      unfold isOwn at this
      split at this
      · exact ⟨_, ‹_›⟩
      · cases this) rfl (by
        revert h3
        generalize s.procs[0]? = q
        intro h3
        unfold exDone at h3
        split at h3
        · exact ⟨_, _, rfl⟩
        · cases h3)
    rw [this]
    unfold exStart started
    rw [run_bind]
    rfl
  obtain ⟨y, hy⟩ : ∃ y, (l.getLast? : Option (Item Answer)) = some y := by
    cases l with
    | nil => simp at h1
    | cons x l => exact ⟨_, List.getLast?_eq_some_getLast (by simp)⟩
  obtain ⟨l', rfl⟩ := List.getLast?_eq_some_iff.mp hy
  refine ⟨y, by simp, ?_⟩
  rw [← List.append_assoc] at hr
  obtain ⟨s0, e0, hp0⟩ := Path.last (b := []) hr
  cases hp0
  rw [← e0, hmem]

theorem only_at {α : Type} {P : α → Bool} {n : ℕ} {tr a b : List α} {x : α} (h1 : (tr.take (n + 1)).map P = List.replicate n false ++ [true])
    (h2 : ((tr.drop (n + 1)).all fun y => !P y) = true) (h : tr = a ++ x :: b) (hx : P x = true) : a.length = n := by
  have hi : tr[a.length]? = some x := by rw [h]; simp
  rcases Nat.lt_trichotomy a.length n with hlt | he | hgt
  · have : ((tr.take (n + 1)).map P)[a.length]? = some true := by
      rw [List.getElem?_map, List.getElem?_take_of_lt (by omega), hi, Option.map_some, hx]
    rw [h1, List.getElem?_append_left (by simpa using hlt), List.getElem?_replicate] at this
    simp at this
  · exact he
  · have : x ∈ tr.drop (n + 1) := by
      rw [h, List.drop_append_of_le_length (by omega)]
      simp
    have := List.all_eq_true.mp h2 x this
    simp [hx] at this

/-- a metric by its path -/
def findB (t : Tree MValue) : ℕ → List Str → Option ℕ
  | _, [] => none
  | d, [name] => match (t.contents d).find? fun x => x.1 = name with
    | none => none
    | some x => match t.entries[x.2]? with
      | none => none
      | some en => en.metric
  | d, name :: p => match (t.contents d).find? fun x => x.1 = name with
    | none => none
    | some x => match t.entries[x.2]? with
      | none => none
      | some en => match en.dir with
        | none => none
        | some d' => findB t d' p

theorem findB_reaches {t : Tree MValue} {d : ℕ} {p : List Str} {m : ℕ} (h : findB t d p = some m) : Reaches t d p (.metric m) := by
  fun_induction findB t d p with
  | case1 => cases h
  | case2 => cases h
  | case3 => cases h
  | case4 d name x hx en hen =>
    have h1 := List.find?_some hx
    have h2 := List.mem_of_find?_eq_some hx
    simp only [decide_eq_true_eq] at h1
    subst h1
    exact .metric h2 hen h
  | case5 => cases h
  | case6 => cases h
  | case7 => cases h
  | case8 d name p hp x hx en hen d' hd ih =>
    have h1 := List.find?_some hx
    have h2 := List.mem_of_find?_eq_some hx
    simp only [decide_eq_true_eq] at h1
    subst h1
    exact .dir h2 hen hd (ih h)

/-- what the goroutine of the listing looked at: metrics of group `r`, registered by the initialization -/
def exLooks (r : ℕ) (paths : List Str) (it : Item Answer) : Bool := match it.lab with
  | .own 1 (.metric m) => match metricView it.pre.tree m with
    | none => false
    | some v => (v.value.region = some r ∧ v.value.valType ≠ .dist ∧ v.value.valType ≠ .list) ∧ v.path ∈ paths ∧
      findB (started exW exProc Time.zero).tree 0 (newPathSpec v.path) = some m ∧
      metricView (started exW exProc Time.zero).tree m = some v
  | _ => true

theorem exUse_looks : exUse.map (fun x => x.1.all (exLooks 2 [lit "/proc/ipc/received", lit "/proc/ipc/sent"])) = some true := by
  decide +kernel

theorem exLooks_spec {tr : List (Item Answer)} {r : ℕ} {paths : List Str} (h : tr.all (exLooks r paths) = true) {json : Bool}
    {v : MetricView × Metric} {x : Metric} (hv : Reports 1 tr json v x) : Scalar v.1 ∧ v.1.value.region = some r ∧
      v.1.path ∈ paths ∧ RegisteredAt (started exW exProc Time.zero) v.1.path v.1 := by
  obtain ⟨-, -, ⟨it, hi, m, h1, h2⟩, -⟩ := hv
  have := List.all_eq_true.mp h it hi
  unfold exLooks at this
  rw [h1] at this
  simp only [h2, decide_eq_true_eq] at this
  obtain ⟨⟨a1, a2⟩, a3, a4, a5⟩ := this
  exact ⟨a2, a1, a3, m, findB_reaches a4, a5⟩

theorem callChecks_spec {tr : List (Item Answer)} {s : St Answer} (hrun : Run exW tr s) {r m n : ℕ} {p : Prog Unit}
    (hc : callChecks r m n p tr = List.replicate 6 true) {tr1 l1 : List (Item Answer)} (hl1 : tr = tr1 ++ l1) (hl : tr1.length ≤ m + 1)
    {y : Item Answer} (hy : y ∈ tr1) {a x l u b t} (hcall : IsCall r t tr a x l u b) :
    y ∈ a ++ [x] ∧ Does exW r p l ∧ ∀ i, OnlyUpdate exW r (.var i) (l ++ u :: b) := by
  simp only [callChecks, List.replicate, List.cons.injEq, and_true, decide_eq_true_eq] at hc
  obtain ⟨c1, c2, c3, c4, c5, c6⟩ := hc
  have ha : a.length = m := by
    obtain ⟨f, hf⟩ := hcall.begins
    refine only_at (P := isBegin r) c1 c2 hcall.split ?_
    unfold isBegin
    exact List.any_eq_true.mpr ⟨_, hf, by simp⟩
  have hu : (a ++ x :: l).length = m + n + 1 := by
    obtain ⟨f, hf⟩ := hcall.ends
    refine only_at (P := isEnd r) (x := u) (b := b) c3 c4 (by rw [hcall.split]; simp) ?_
    unfold isEnd
    exact List.any_eq_true.mpr ⟨_, hf, by simp⟩
  refine ⟨?_, ?_, fun i it hi hne => ?_⟩
  · have : a ++ [x] = tr.take (m + 1) := by
      rw [hcall.split, List.append_cons a x (l ++ u :: b), List.take_left' (by simp [ha])]
    rw [this, hl1, List.take_append]
    refine List.mem_append_left _ ?_
    rw [List.take_of_length_le (by omega)]
    exact hy
  · refine doesB_does ?_
    have : l = (tr.take (m + n + 1)).drop (m + 1) := by
      rw [hcall.split, show a ++ x :: (l ++ u :: b) = (a ++ x :: l) ++ u :: b by simp, List.take_left' hu, List.append_cons,
        List.drop_left' (by simp [ha])]
    rw [this]
    exact c5
  · have hd : it ∈ tr.drop (m + 1) := by
      rw [hcall.split, List.append_cons, List.drop_left' (by simp [ha])]
      exact hi
    have hw := List.all_eq_true.mp c6 it hd
    obtain ⟨q, hq⟩ := List.append_of_mem (List.mem_of_mem_drop hd)
    obtain ⟨q', hq⟩ := hq
    rw [hq] at hrun
    obtain ⟨s0, -, hp⟩ := hrun.path
    cases hp with
    | cons hs _ =>
      cases hs with
      | own c held cmd k a1 a2 a3 =>
        show (exec exW cmd s0.mem).1.vars[i]? = s0.mem.vars[i]?
        cases cmd <;> first | rfl | simp [isWrite, reads] at hw
      | newGroup c held k a1 => rfl
      | upd r' g cmd a1 a2 a3 a4 =>
        by_cases e : r' = r
        · subst e; exact absurd rfl (hne cmd)
        · simp [isWrite, e] at hw
      | _ => rfl

/-- a run that begins with the initialization -/
theorem exRun_finished {ms' : List (Move Answer)} {path : Str} {rest : List (Move Answer)}
    (hms : ms' = (.spawn exStart :: gos 0 115) ++ .spawn (listCall true 3 path) :: rest) {r m n : ℕ} {p : Prog Unit} {paths : List Str}
    {rows : List (Str × Bool × Option Base)} (hm : 115 ≤ m)
    (h : (playW exW ms' [] (start Answer)).map (fun x => exFlAnswer x.2.procs[1]?) = some (some rows))
    (hc : (playW exW ms' [] (start Answer)).map (fun x => callChecks r m n p x.1) = some (List.replicate 6 true))
    (hk : (playW exW ms' [] (start Answer)).map (fun x => x.1.all (exLooks r paths)) = some true) :
    ∃ tr s ms, Run exW tr s ∧ (∃ it ∈ tr, it.lab = .spawn 1 (listCall true 3 path)) ∧
      s.procs[1]? = some ⟨.run (.ret (.listing ms .ok)), []⟩ ∧ ms.map Metric.path = rows.map Prod.fst ∧
      (∀ a x l u b t, IsCall r t tr a x l u b → (∃ y ∈ a ++ [x], y.post = started exW exProc Time.zero) ∧
        Does exW r p l ∧ ∀ i, OnlyUpdate exW r (.var i) (l ++ u :: b)) ∧ tr.all (exLooks r paths) = true := by
  obtain ⟨⟨tr, s⟩, he⟩ : ∃ x, playW exW ms' [] (start Answer) = some x := by
    cases hp : playW exW ms' [] (start Answer) with
    | none => rw [hp] at h; cases h
    | some x => exact ⟨x, rfl⟩
  rw [he] at h hc hk
  simp only [Option.map_some, Option.some.injEq] at h hc hk
  have hrun : Run exW tr s := playW_run .nil he
  rw [hms] at he
  have hsp : ∃ it ∈ tr, it.lab = .spawn 1 (listCall true 3 path) := playW_spawn he (by decide +kernel)
  obtain ⟨ms, h1, h2⟩ : ∃ ms, s.procs[1]? = some ⟨.run (.ret (.listing ms .ok)), []⟩ ∧
      ms.map Metric.path = rows.map Prod.fst := by
    revert h
    generalize s.procs[1]? = p
    intro h
    unfold exFlAnswer at h
    split at h
    · simp only [Option.some.injEq] at h
      refine ⟨_, rfl, ?_⟩
      have := congrArg (List.map Prod.fst) h
      rw [List.map_map] at this
      exact this
    · cases h
  refine ⟨tr, s, ms, hrun, hsp, h1, h2, fun a x l u b t hcall => ?_, hk⟩
  obtain ⟨tr1, s1, h4, h5⟩ := playW_append (ms := .spawn exStart :: gos 0 115) he
  obtain ⟨hl, y, hy, hyp⟩ := exInit_mem h4
  obtain ⟨l1, hl1, -⟩ := playW_path h5
  obtain ⟨g1, g2⟩ := callChecks_spec hrun hc hl1 (by omega) hy hcall
  exact ⟨⟨y, g1, hyp⟩, g2⟩

/-- the hypotheses of C90 hold of it -/
theorem exUse_finished : ∃ tr s ms, Run exW tr s ∧ (∃ it ∈ tr, it.lab = .spawn 1 (listCall true 3 (lit "/proc/ipc"))) ∧
    s.procs[1]? = some ⟨.run (.ret (.listing ms .ok)), []⟩ ∧ ms.map Metric.path = [lit "/proc/ipc/received", lit "/proc/ipc/sent"] ∧
    (∀ a x l u b t, IsCall 2 t tr a x l u b → (∃ y ∈ a ++ [x], y.post = started exW exProc Time.zero) ∧
      Does exW 2 (updateUsage true 4 (some exRusage)) l ∧ ∀ i, OnlyUpdate exW 2 (.var i) (l ++ u :: b)) ∧
    tr.all (exLooks 2 [lit "/proc/ipc/received", lit "/proc/ipc/sent"]) = true :=
  exRun_finished rfl (by decide) exUse_answer exUse_checks exUse_looks

/-- the listing shows the fields of the kernel's answer -/
example : ∃ (tr : List (Item Answer)) (s : St Answer) (ms : List Metric) (V : List (MetricView × Metric)), Run exW tr s ∧
    s.procs[1]? = some ⟨.run (.ret (.listing ms .ok)), []⟩ ∧
    ms.map Metric.path = [lit "/proc/ipc/received", lit "/proc/ipc/sent"] ∧ List.Forall₂ (Reports 1 tr true) V ms ∧
    ∀ v ∈ V, (v.1.path, v.2.value) = (lit "/proc/ipc/received", int64Val 12) ∨ (v.1.path, v.2.value) = (lit "/proc/ipc/sent", int64Val 11) := by
  obtain ⟨tr, s, ms, h1, h2, h3, h4, h5, h6⟩ := exUse_finished
  obtain ⟨V, k1, k2⟩ := C90_usage exProc_fd Time.zero h1 h2 h3
  have hl : V.length = 2 := by
    rw [k1.length_eq]
    simpa using congrArg List.length h4
  have look : ∀ v ∈ V, Scalar v.1 ∧ v.1.value.region = some 2 ∧ v.1.path ∈ [lit "/proc/ipc/received",
      lit "/proc/ipc/sent"] ∧ RegisteredAt (started exW exProc Time.zero) v.1.path v.1 := fun v hv => by
    obtain ⟨x, hr⟩ := forall₂_mem_left k1 v hv
    exact exLooks_spec h6 hr
  obtain ⟨v0, V', rfl⟩ : ∃ v V', V = v :: V' := by
    cases V with
    | nil => cases hl
    | cons v V' => exact ⟨v, V', rfl⟩
  obtain ⟨a, x, l, u, b, t, hcall, hrows⟩ := k2 ⟨v0, by simp, (look v0 (by simp)).1, (look v0 (by simp)).2.1⟩
  obtain ⟨e1, e2, e3⟩ := h5 a x l u b t hcall
  have hrows := hrows true 4 exRusage e1 exRusage_ok (by decide) e2 (fun i _ => e3 i)
  refine ⟨tr, s, ms, _, h1, h3, h4, k1, fun v hv => ?_⟩
  obtain ⟨-, -, hp, hreg⟩ := look v hv
  simp only [List.mem_cons, List.not_mem_nil, or_false] at hp
  rcases hp with hp | hp <;> rw [hp] at hreg ⊢
  · left
    rw [(hrows (lit "/proc/ipc/received", int64Val 12) (List.mem_of_getElem? (i := 10) rfl) v hv hreg).2]
  · right
    rw [(hrows (lit "/proc/ipc/sent", int64Val 11) (List.mem_of_getElem? (i := 9) rfl) v hv hreg).2]

/-- the theorem for listings, on this one -/
example : ∃ (tr : List (Item Answer)) (ms : List Metric) (V : List (MetricView × Metric)), ms.length = 2 ∧
    List.Forall₂ (Reports 1 tr true) V ms ∧ OneCall exW tr 2 V := by
  obtain ⟨tr, s, ms, h1, h2, h3, h4, h5, h6⟩ := exUse_finished
  obtain ⟨V, k1, k2⟩ := C90_listing h1 h2 h3
  have hm : ms.length = 2 := by simpa using congrArg List.length h4
  refine ⟨tr, ms, V, hm, k1, k2 2 ?_⟩
  cases k1 with
  | nil => cases hm
  | cons hv _ => exact ⟨_, by simp, (exLooks_spec h6 hv).1, (exLooks_spec h6 hv).2.1⟩

example : ∃ (tr : List (Item Answer)) (m : Metric) (v : MetricView × Metric), exBase m.value = some (.int .int64 9) ∧
    Reports 3 tr true v m ∧ ∀ r, Scalar v.1 → v.1.value.region = some r → OneCall exW tr r [v] := by
  obtain ⟨tr, s, h1, -, -, h2, m, h3, h4⟩ := exPlay_finished
  obtain ⟨v, hv⟩ := C90_single h1 h2 h3
  exact ⟨tr, m, v, h4, hv⟩

/-! ### Example: memory -/

def exMem : Option (List (Item Answer) × St Answer) :=
  playW exW ((.spawn exStart :: gos 0 115) ++ .spawn (listCall true 3 (lit "/proc/memory/total")) :: (gos 1 6 ++ [.send 0 1, .handle 1] ++
    (cmdsOf exW (updateMemory 1000 300) (started exW exProc Time.zero)).map (.upd 1) ++
    [.updated 1 ⟨100, 0⟩, .receive 0 1, .visited 0] ++ gos 1 3 ++ releasing 1 1 0)) [] (start Answer)

theorem exMem_answer : exMem.map (fun x => exFlAnswer x.2.procs[1]?) = some (some
    [(lit "/proc/memory/total", false, some (.int .uint64 700))]) := by
  decide +kernel

theorem exMem_checks : exMem.map (fun x => callChecks 1 124 1 (updateMemory 1000 300) x.1) = some (List.replicate 6 true) := by
  decide +kernel

theorem exMem_looks : exMem.map (fun x => x.1.all (exLooks 1 [lit "/proc/memory/total"])) = some true := by
  decide +kernel

example : ∃ (tr : List (Item Answer)) (s : St Answer) (ms : List Metric) (V : List (MetricView × Metric)), Run exW tr s ∧
    s.procs[1]? = some ⟨.run (.ret (.listing ms .ok)), []⟩ ∧ ms.map Metric.path = [lit "/proc/memory/total"] ∧
    List.Forall₂ (Reports 1 tr true) V ms ∧ ∀ v ∈ V, v.2.value = .scalar none (.int .uint64 700) := by
  obtain ⟨tr, s, ms, h1, h2, h3, h4, h5, h6⟩ := exRun_finished (path := lit "/proc/memory/total") rfl (by decide) exMem_answer
    exMem_checks exMem_looks
  obtain ⟨V, k1, k2⟩ := C90_memory exProc_fd Time.zero h1 h2 h3
  have look : ∀ v ∈ V, Scalar v.1 ∧ v.1.value.region = some 1 ∧ v.1.path ∈ [lit "/proc/memory/total"] ∧
      RegisteredAt (started exW exProc Time.zero) v.1.path v.1 := fun v hv => by
    obtain ⟨x, hr⟩ := forall₂_mem_left k1 v hv
    exact exLooks_spec h6 hr
  refine ⟨tr, s, ms, V, h1, h3, h4, k1, fun v hv => ?_⟩
  obtain ⟨a1, a2, a3, a4⟩ := look v hv
  obtain ⟨a, x, l, u, b, t, hcall, hval⟩ := k2 ⟨v, hv, a1, a2⟩
  obtain ⟨e1, e2, e3⟩ := h5 a x l u b t hcall
  rw [List.mem_singleton.mp a3] at a4
  rw [(hval 1000 300 e1 (by decide) (by decide) e2 (e3 _) v hv a4).2]
  rfl

end Tricorder.Whole
