import Verif.Props.Whole
import Verif.Proof.Whole4
import Verif.Proof.Request
/-!
# C52 with everything running: metrics that only the update function of their group changes
-/

namespace Tricorder.Whole
open Go Spec Tree

variable {A : Type} {w : World}

/-- once goroutine `c` has taken group `r`, only the update function of `r` changes what `sc` gives -/
def UpdateOnly (w : World) (c : ℕ) (tr : List (Item A)) (r : ℕ) (sc : Src) : Prop :=
  ∀ a x b cl t, tr = a ++ x :: b → x.lab = .took c r cl t → OnlyUpdate w r sc b

theorem Run.isTree {tr : List (Item A)} {s : St A} (h : Run w tr s) : IsTree s.mem.tree :=
  show IsTree (code 0 s.mem).tree from reachable_isTree (h.reach (fun _ => ⟨0, 0⟩))

/-- a metric looks the same forever -/
theorem Run.view {tr : List (Item A)} {s : St A} (h : Run w tr s) {it : Item A} (hi : it ∈ tr) {m : ℕ} {mv : MetricView}
    (hm : metricView it.pre.tree m = some mv) : metricView s.mem.tree m = some mv := by
  induction h with
  | nil => cases hi
  | @snoc tr s it' s' hr hs ih =>
    have hx : Ext s.mem.tree s'.mem.tree := by
      cases hs <;> first | exact exec_ext _ _ | exact Ext.refl _
    have hm' : metricView s.mem.tree m = some mv := by
      rcases List.mem_append.mp hi with hi | hi
      · exact ih hi
      · rw [List.mem_singleton.mp hi, hs.mem.1] at hm; exact hm
    exact metricView_ext hr.isTree (hr.snoc hs).isTree hx hm'

/-- two reads of one source while the group is held give the same -/
theorem Past.same {tr : List (Item A)} {s : St A} {c : ℕ} {g : Gh} (hr : Run w tr s) (hp : Past w c tr g) (hn : g.locks.Nodup)
    {sc : Src} {d d' : Option Dyn} {ss ss' : Session} {r : ℕ} {t t' : Time} (h : (sc, d, ss) ∈ g.reads) (h' : (sc, d', ss') ∈ g.reads)
    (hs : ss.lookup r = some t) (hs' : ss'.lookup r = some t') (ho : UpdateOnly w c tr r sc) : d = d' := by
  have hnd : (tooks c tr).Nodup := by rw [hp.locks]; exact List.nodup_reverse.mpr hn
  have look : ∀ {d ss t}, (sc, d, ss) ∈ g.reads → ss.lookup r = some t → ∃ a x b rd e cl, tr = a ++ x :: (b ++ rd :: e) ∧
      x.lab = .took c r cl t ∧ Quiet r b ∧ current w rd.pre sc = d := by
    intro d ss t h hs
    obtain ⟨a, rd, b, k1, k2, k3, k4⟩ := hp.reads _ h
    obtain ⟨a', u, b', rfl, e1, e2, x, e3, cl, e4⟩ := k4 r t hs
    obtain ⟨p, q, rfl⟩ := List.append_of_mem e3
    exact ⟨a' ++ u :: p, x, q, rd, b, cl, by simpa using k1, e4, fun y hy => e2 y (by simp [hy]), k3⟩
  obtain ⟨a, x, b, rd, e, cl, k1, k2, k3, k4⟩ := look h hs
  obtain ⟨a', x', b', rd', e', cl', k1', k2', k3', k4'⟩ := look h' hs'
  obtain ⟨rfl, rfl, -⟩ := split_unique (y := r) hnd k1 k1' (by simp [k2]) (by simp [k2'])
  have o := ho a x _ cl t k1 k2
  have o' := ho a x _ cl t k1' k2
  have f := hr.unchanged (u := x) k1 k3 fun y hy => o y (by simp [hy])
  have f' := hr.unchanged (u := x) k1' k3' fun y hy => o' y (by simp [hy])
  rw [← k4, ← k4', ← f, ← f']

/-- **C52 (groups)** With everything running: a listing contains no infinite or NaN floating point metric among those whose source is
changed, once the listing has taken the group, only by the update function of the group.  (That is how groups are meant to be used.
`C52_false` changes the source otherwise.) -/
theorem C52_group {tr : List (Item Answer)} {s : St Answer} (hr : Run w tr s) {c fuel : ℕ} {json : Bool} {path : Str}
    (hc : ∃ it ∈ tr, it.lab = .spawn c (listCall json fuel path)) {ms : List Metric} {st : Status} {held : List (ℕ × ℕ)}
    (hd : s.procs[c]? = some ⟨.run (.ret (.listing ms st)), held⟩) :
    ∃ V, List.Forall₂ (fun v x => Reports c tr json v x ∧ (x.kind.isFloat = true → ∀ r sc, v.1.value.region = some r →
      v.1.value.src = some sc → UpdateOnly w c tr r sc → ¬ OddFloat x.value)) V ms := by
  obtain ⟨p, g, h1, h2, h3⟩ := hr.follows (listCall_wp json fuel path) hc
  rw [hd] at h1
  cases h1
  cases h2 with
  | run hw hl =>
    obtain ⟨hn, V, hV⟩ := hw ms st rfl
    refine ⟨V, hV.imp fun v x ⟨m, hk, mv, hm, ht⟩ => ⟨h3.reports hk, fun hf r sc hreg hsrc ho hodd => ?_⟩⟩
    obtain ⟨i1, a1, -, a3⟩ := h3.views _ hm
    obtain ⟨i2, b1, -, b3⟩ := h3.views _ hk.2.2.1
    have hmv : mv = v.1 := Option.some.inj ((hr.view a1 a3).symm.trans (hr.view b1 b3))
    subst hmv
    obtain ⟨e1, e2⟩ := encode_float hk.1 hf
    have hkf : v.1.value.valType.isFloat = true := by rw [← hk.2.1.2.2.2.1, e1]; exact hf
    obtain ⟨sc0, d0, ss0, t1, t2, t3, t4⟩ := ht hkf
    rw [hsrc] at t1; cases t1
    obtain ⟨t, t4⟩ := t4 r hreg
    obtain ⟨sc1, d1, ss1, r1, u, k1, k2, k3, k4, k5, -⟩ := hk.2.2.2 (by intro h; rw [h] at hkf; cases hkf)
      (by intro h; rw [h] at hkf; cases hkf)
    rw [hsrc] at k1; cases k1
    rw [hreg] at k4; cases k4
    cases h3.same hr hn t2 k2 t4 k5 ho
    rw [← e2] at hodd
    have hodd := interface_odd hkf k3 hodd
    revert t3 hodd
    cases d0 with
    | scalar n b => cases b <;> simp [Dyn.float, InfNaN] <;> intro h1 h2 <;> simp [h1, h2]
    | _ => simp [InfNaN]

/-! ### Example: the update function makes one of two variables infinite

Two floating point variables of the default group are 1.  A listing takes the group, and the update function sets the first to
infinity and the second to 2.  The listing contains the second only. -/

def exFlVar (x : Fl) : Dyn := .scalar none (.float64 x)

def exFlSetup : Prog Answer :=
  (newVars [exFlVar (.fin 1), exFlVar (.fin 1)]).bind fun _ =>
    (registerList exW.fnTy [⟨lit "/a", .ptr 0, 0, .none, []⟩, ⟨lit "/b", .ptr 1, 0, .none, []⟩]).bind fun _ => .ret .other

def exFl : Option (List (Item Answer) × St Answer) :=
  playW exW ((.spawn exFlSetup :: gos 0 6) ++ .spawn (listCall true 3 (lit "/")) :: (gos 1 2 ++
    taking 1 0 0 [.writeVar 0 (exFlVar (.inf false)), .writeVar 1 (exFlVar (.fin 2))] ⟨100, 0⟩ ++ gos 1 6 ++ releasing 1 0 0))
    [] (start Answer)

def exSame : Option Dyn → Option Dyn → Bool
  | some (.scalar none b), some (.scalar none b') => b = b'
  | _, _ => false

theorem exSame_eq {x y : Option Dyn} (h : exSame x y = true) : x = y := by
  unfold exSame at h
  split at h
  · simp_all
  · cases h

def exUpd (it : Item Answer) : Bool :=
  match it.lab with
  | .upd 0 _ => true
  | _ => false

/-- the group is taken in step 18 only, and afterwards only the update function changes the variables -/
def exFlChecks (tr : List (Item Answer)) : Bool :=
  ((tr.take 18).all fun it => match exKind it with | .took .. => false | _ => true) ∧
  ((tr.drop 18).all fun it => exUpd it ∨ (exSame (current exW it.post (.var 0)) (current exW it.pre (.var 0)) ∧
    exSame (current exW it.post (.var 1)) (current exW it.pre (.var 1))))

def exFlAnswer : Option (Proc Answer) → Option (List (Str × Bool × Option Base))
  | some ⟨.run (.ret (.listing ms .ok)), []⟩ => some (ms.map fun m => (m.path, m.kind.isFloat, exBase m.value))
  | _ => none

theorem exFl_checks : exFl.map (fun x => exFlChecks x.1) = some true := by
  decide +kernel

theorem exFl_answer : exFl.map (fun x => exFlAnswer x.2.procs[1]?) =
    some (some [(lit "/b", true, some (.float64 (.fin 2)))]) := by
  decide +kernel

theorem exFlChecks_only {tr : List (Item Answer)} (h : exFlChecks tr = true) {v : ℕ} (hv : v = 0 ∨ v = 1) :
    UpdateOnly exW 1 tr 0 (.var v) := by
  unfold exFlChecks at h
  simp only [Bool.decide_and, Bool.and_eq_true, decide_eq_true_eq, List.all_eq_true] at h
  obtain ⟨h1, h2⟩ := h
  intro a x b cl t htr hx it hit hne
  have hlen : 18 ≤ a.length := by
    by_contra hlt
    have hm : x ∈ tr.take 18 := by
      rw [htr, List.take_append]
      refine List.mem_append_right _ ?_
      obtain ⟨n, hn⟩ : ∃ n, 18 - a.length = n + 1 := ⟨17 - a.length, by omega⟩
      rw [hn]
      simp
    have := h1 x hm
    simp [exKind, hx] at this
  have hm : it ∈ tr.drop 18 := by
    rw [htr, List.drop_append, show 18 - a.length = 0 by omega]
    exact List.mem_append_right _ (by simp [hit])
  have := h2 it hm
  have hu : exUpd it = false := by
    unfold exUpd
    split
    · exact absurd ‹_› (hne _)
    · rfl
  simp only [hu, Bool.false_eq_true, false_or] at this
  rcases hv with rfl | rfl
  · exact exSame_eq (by simpa using this.1)
  · exact exSame_eq (by simpa using this.2)

/-- the hypotheses of `C52_group` hold of it -/
theorem exFl_finished : ∃ tr s ms x, Run exW tr s ∧ (∃ it ∈ tr, it.lab = .spawn 1 (listCall true 3 (lit "/"))) ∧
    s.procs[1]? = some ⟨.run (.ret (.listing ms .ok)), []⟩ ∧ ms = [x] ∧ x.kind.isFloat = true ∧ x.path = lit "/b" ∧
    exBase x.value = some (.float64 (.fin 2)) ∧ UpdateOnly exW 1 tr 0 (.var 0) ∧ UpdateOnly exW 1 tr 0 (.var 1) := by
  have h := exFl_answer
  have hc := exFl_checks
  obtain ⟨⟨tr, s⟩, he⟩ : ∃ x, exFl = some x := by
    cases hp : exFl with
    | none => rw [hp] at h; cases h
    | some x => exact ⟨x, rfl⟩
  rw [he] at h hc
  simp only [Option.map_some, Option.some.injEq] at h hc
  have hrun : Run exW tr s := playW_run .nil he
  have hsp : ∃ it ∈ tr, it.lab = .spawn 1 (listCall true 3 (lit "/")) := by
    unfold exFl at he
    exact playW_spawn he (by decide +kernel)
  obtain ⟨ms, x, h1, h2, h3, h4, h5⟩ : ∃ ms x, s.procs[1]? = some ⟨.run (.ret (.listing ms .ok)), []⟩ ∧ ms = [x] ∧
      x.kind.isFloat = true ∧ x.path = lit "/b" ∧ exBase x.value = some (.float64 (.fin 2)) := by
    revert h
    generalize s.procs[1]? = p
    intro h
    unfold exFlAnswer at h
    split at h
    · rename_i ms
      simp only [Option.some.injEq] at h
      obtain ⟨x, rfl⟩ := List.length_eq_one_iff.mp (by simpa using congrArg List.length h : ms.length = 1)
      simp only [List.map_cons, List.map_nil, List.cons.injEq, Prod.mk.injEq, and_true] at h
      exact ⟨_, x, rfl, rfl, h.2.1, h.1, h.2.2⟩
    · cases h
  exact ⟨tr, s, ms, x, hrun, hsp, h1, h2, h3, h4, h5, exFlChecks_only hc (.inl rfl), exFlChecks_only hc (.inr rfl)⟩

example : ∃ (tr : List (Item Answer)) (s : St Answer) (ms : List Metric) (V : List (MetricView × Metric)), Run exW tr s ∧
    ms.length = 1 ∧ (∀ v, v = 0 ∨ v = 1 → UpdateOnly exW 1 tr 0 (.var v)) ∧ List.Forall₂ (fun v x => Reports 1 tr true v x ∧
      (x.kind.isFloat = true → ∀ r sc, v.1.value.region = some r → v.1.value.src = some sc → UpdateOnly exW 1 tr r sc →
        ¬ OddFloat x.value)) V ms := by
  obtain ⟨tr, s, ms, x, h1, h2, h3, h4, -, -, -, h5, h6⟩ := exFl_finished
  obtain ⟨V, hV⟩ := C52_group h1 h2 h3
  exact ⟨tr, s, ms, V, h1, by simp [h4], by rintro v (rfl | rfl) <;> assumption, hV⟩

end Tricorder.Whole
