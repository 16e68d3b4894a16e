import Verif.Proof.Zero
import Verif.Spec.Dist
/-!
# C104: objects that no constructor made
-/

namespace Tricorder.Group
open Go Zero

variable {τ : Type} [Inhabited τ]

/-- **C104 (a declared group is silent)** A group that was declared and not made by `NewGroup` accepts and answers nothing,
its update function is not called, and no visit to it returns. -/
theorem C104_group_silent {tr : List (ZEv τ)} {z : State τ} {r : Rid} (hr : ZRun (init τ) tr z) (hd : .declared r ∈ tr) :
    ∀ e, .ev e ∈ tr → isUpdate r e = false ∧ isTraffic r e = false ∧ ∀ c t, e ≠ .visit c r t := by
  intro e he
  have hno := ((declared_run hr).2 r hd).2
  refine ⟨(hno e he).1, (hno e he).2, ?_⟩
  rintro c t rfl
  obtain ⟨tr', s', h1, h2, -⟩ := sim_run rel_init hr
  have hv : .visit c r t ∈ tr' := bare_mem h2 he (by intro e' h; cases e' <;> simp_all [bare])
  obtain ⟨a, b, e⟩ := List.append_of_mem hv
  have hl := C16_latest h1 e
  have : lastUpdate r a = none := by
    have := lastUpdate_append (r := r) (a := []) (b := a) ?_
    · simpa [lastUpdate] using this
    · intro x hx
      have hx' : x ∈ tr' := by rw [e]; simp [hx]
      cases x <;> try rfl
      · next r' f => exact (hno _ (mem_bare h2 hx' (by rintro (_ | e') h <;> simp [bareZ, bare] at h ⊢; revert h; cases e' <;> simp [bare]))).1
      · next r' f t => exact (hno _ (mem_bare h2 hx' (by rintro (_ | e') h <;> simp [bareZ, bare] at h ⊢; revert h; cases e' <;> simp [bare]))).1
  rw [this] at hl; cases hl

/-- **C104 (a request that visits it hangs)** A request that has begun to visit such a group, or a goroutine that has begun to
set its update function, is never heard of again, whatever all others do. -/
theorem C104_group_hangs {tr tr2 : List (ZEv τ)} {z z2 : State τ} {r : Rid} {c : Cid} {cl : Client τ}
    (hr : ZRun (init τ) tr z) (hd : .declared r ∈ tr) (hc : z.clients[c]? = some cl)
    (hp : cl.pc = .lockSend r ∨ ∃ f, cl.pc = .fnSend r f) (h2 : ZRun z tr2 z2) :
    z2.clients[c]? = some cl ∧ .ev (.closeBegin c) ∉ tr2 :=
  stuck_run h2 ((declared_run hr).2 r hd).1 hc hp

/-- **C104 (and takes the other groups with it)** The groups that such a request visited before are never updated again: all
later visits to them, by any request, return the time of its visit. -/
theorem C104_group_starves {tr tr2 : List (ZEv τ)} {z z2 : State τ} {r r' : Rid} {c : Cid} {cl : Client τ} {t : τ}
    (hr : ZRun (init τ) tr z) (hd : .declared r ∈ tr) (hc : z.clients[c]? = some cl) (hp : cl.pc = .lockSend r)
    (hv : (r', t) ∈ cl.visited) (h2 : ZRun z tr2 z2) :
    (∀ e, .ev e ∈ tr2 → isUpdate r' e = false) ∧ ∀ c' t', .ev (.visit c' r' t') ∈ tr2 → t' = t := by
  obtain ⟨-, hcb⟩ := C104_group_hangs hr hd hc (.inl hp) h2
  obtain ⟨t1, s1, g1, g2, g3⟩ := sim_run rel_init hr
  obtain ⟨t2, s2, g4, g5, -⟩ := sim_run g3 h2
  have hc1 : s1.clients[c]? = some cl := g3.clients ▸ hc
  have hse : seen cl r' t := ⟨by simp [hp, isOpen], .inl hv⟩
  have hno : .closeBegin c ∉ t2 := fun h =>
    hcb (mem_bare g5 h (by rintro (_ | e') h <;> simp [bareZ, bare] at h ⊢; revert h; cases e' <;> simp [bare]))
  have hi := inv_of_run g1
  obtain ⟨-, hu⟩ := Run.stays_seen hi g4 hc1 hse hno
  refine ⟨fun e he => ?_, fun c' t' he => ?_⟩
  · cases e <;> try rfl
    all_goals exact hu _ (bare_mem g5 he (by intro e' h; cases e' <;> simp_all [bare]))
  · have hm : .visit c' r' t' ∈ t2 := bare_mem g5 he (by intro e' h; cases e' <;> simp_all [bare])
    obtain ⟨a, b, e⟩ := List.append_of_mem hm
    have h5 := C16_latest (g1.trans g4) (pre := t1 ++ a) (post := b) (by rw [e, List.append_assoc])
    rw [lastUpdate_append (fun x hx => hu x (by rw [e]; simp [hx])), (hi.i4 c cl r' t hc1 hse).1] at h5
    exact (Option.some.inj h5).symm

/-- **C104 (nothing else changes)** Whatever happens in a program that also declares groups happens in one that makes them
with `NewGroup` and never gets an answer from them; so what C14–C19, C21 and C24 say of events holds of it too. -/
theorem C104_group_others {tr : List (ZEv τ)} {z : State τ} (hr : ZRun (init τ) tr z) :
    ∃ tr' s', Run (init τ) tr' s' ∧ tr'.map bare = tr.map bareZ ∧ s'.clients = z.clients := by
  obtain ⟨tr', s', h1, h2, h3⟩ := sim_run rel_init hr
  exact ⟨tr', s', h1, h2, h3.clients.symm⟩

theorem zrun_of_run {s s' : State τ} {tr : List (Ev τ)} (h : Run s tr s') : ZRun s (tr.map .ev) s' := by
  induction h with
  | nil => exact .nil
  | snoc _ hs ih => rw [List.map_append]; exact ih.snoc (.step hs)

theorem zrun_trans {s0 s1 s2 : State τ} {a b : List (ZEv τ)} (h1 : ZRun s0 a s1) (h2 : ZRun s1 b s2) : ZRun s0 (a ++ b) s2 := by
  induction h2 with
  | nil => simpa using h1
  | snoc _ hs ih => rw [← List.append_assoc]; exact ih.snoc hs

/-- a working group 0 with update function 7 and a declared group 1: request 0 has visited group 0, at time 100, and waits
for group 1 -/
example : ∃ tr z, ZRun (init ℕ) tr z ∧ .declared 1 ∈ tr ∧ z.clients[0]? = some ⟨[(0, 100)], .lockSend 1⟩ := by
  have r1 : Run (init ℕ) [.newGroup 0 7 0] ⟨[newRegion 0 7], [], 1⟩ := play_run (as := [.newGroup 7]) rfl
  have r2 : Run (⟨[newRegion 0 7, zeroGroup], [], 1⟩ : State ℕ)
      [.opened 0, .accept 0 0 1, .updBegin 0 7, .updEnd 0 7 100, .answer 0 0 100, .visit 0 0 100]
      ⟨[⟨0, 1, 7, 100, .select⟩, zeroGroup], [⟨[(0, 100)], .lockSend 1⟩], 1⟩ :=
    play_run (as := [.openSession, .visit 0 0, .send 0 0, .handle 0, .updated 0 100, .receive 0 0, .visitDone 0, .visit 0 1]) rfl
  have r := zrun_trans ((zrun_of_run r1).snoc (.declare _)) (zrun_of_run r2)
  exact ⟨_, _, r, by simp, rfl⟩

end Tricorder.Group

namespace Tricorder.Zero
open Go

/-- **C104 (distributions)** A distribution that was declared, or made by a declared `Bucketer`, stays empty whatever is
called: every call other than the registrations panics, with at most the time stamp changed, and its snapshot is an empty
distribution without ranges. -/
theorem C104_dist {d : Dist Fl} (hd : (∃ zero, d = zeroDist zero) ∨ ∃ nc ts gid, d = newDist zeroBucketer nc ts gid)
    (hist : List DCall) :
    (∀ co ∈ Spec.trace d hist, (∃ u, co.1 = .setUnit u) ∨ co.2 ≠ none) ∧
    (d.calls hist).snapshot = some
      { min := Arith.lit 0, max := Arith.lit 0, average := Arith.lit 0, median := Arith.lit 0, sum := Arith.lit 0, count := 0,
        generation := 0, isNotCumulative := false,
        timeStamp := Spec.lastStamp [some .index] d.timeStamp (Spec.trace d hist), breakdown := [] } := by
  have h0 : d.pieces = [] ∧ d.counts = [] ∧ d.count = 0 := by
    rcases hd with ⟨zero, rfl⟩ | ⟨nc, ts, gid, rfl⟩ <;> exact ⟨rfl, rfl, rfl⟩
  clear hd
  induction hist generalizing d with
  | nil => obtain ⟨h1, h2, h3⟩ := h0; simp [Spec.trace, Spec.lastStamp, Dist.calls, Dist.snapshot, h1, h2, h3]
  | cons c cs ih =>
    obtain ⟨h1, h2, h3⟩ := h0
    have key : ((d.call c).1.pieces = [] ∧ (d.call c).1.counts = [] ∧ (d.call c).1.count = 0) ∧
        ((∃ u, c = .setUnit u) ∨ (d.call c).2 ≠ none) ∧
        (d.call c).1.timeStamp = Spec.lastStamp [some .index] d.timeStamp [(c, (d.call c).2)] := by
      cases c with
      | setUnit u =>
        simp only [Dist.call, Dist.setUnit]
        split <;> simp [h1, h2, h3, Spec.lastStamp, Spec.stamp]
      | add v ts =>
        simp only [Dist.call, Dist.addWithTs]
        split
        · next p hp =>
          have : p ≠ .index := by
            rintro rfl
            revert hp
            unfold Dist.valueToFloat goDurationToFloat
            split
            · simp
            · split
              · split <;> simp
              all_goals simp
          simp [h1, h2, h3, Spec.lastStamp, Spec.stamp, this]
        · simp [Dist.add, h1, h2, h3, Spec.lastStamp, Spec.stamp]
      | update o n ts =>
        simp only [Dist.call, Dist.updateWithTs]
        have hne : ∀ {v p}, d.valueToFloat v = .error p → p ≠ .index := by
          rintro v p hp rfl
          revert hp
          unfold Dist.valueToFloat goDurationToFloat
          split
          · simp
          · split
            · split <;> simp
            all_goals simp
        split
        · next p hp => simp [h1, h2, h3, Spec.lastStamp, Spec.stamp, hne hp]
        · split
          · next p hp => simp [h1, h2, h3, Spec.lastStamp, Spec.stamp, hne hp]
          · unfold Dist.update
            split <;> simp [h1, h2, h3, Spec.lastStamp, Spec.stamp]
      | remove v ts =>
        simp only [Dist.call, Dist.removeWithTs]
        split
        · next p hp =>
          have : p ≠ .index := by
            rintro rfl
            revert hp
            unfold Dist.valueToFloat goDurationToFloat
            split
            · simp
            · split
              · split <;> simp
              all_goals simp
          simp [h1, h2, h3, Spec.lastStamp, Spec.stamp, this]
        · unfold Dist.remove
          split <;> simp [h1, h2, h3, Spec.lastStamp, Spec.stamp]
    obtain ⟨k1, k2, k3⟩ := key
    obtain ⟨i1, i2⟩ := ih k1
    refine ⟨?_, ?_⟩
    · intro co hco
      simp only [Spec.trace, List.mem_cons] at hco
      rcases hco with rfl | hco
      exacts [k2, i1 co hco]
    · simp only [Dist.calls, Spec.trace]
      rw [i2, k3]
      congr 2
      simp only [Spec.lastStamp]
      split
      · split <;> rfl
      · rfl

/-- registered, then a value added: the call panics and leaves its time stamp behind -/
example (zero ts : Time) : Spec.trace (zeroDist zero) [.setUnit .none, .add (.scalar none (.float64 (Arith.lit 3))) ts] =
    [(.setUnit .none, none), (.add (.scalar none (.float64 (Arith.lit 3))) ts, some .index)] ∧
    ((zeroDist zero).calls [.setUnit .none, .add (.scalar none (.float64 (Arith.lit 3))) ts]).timeStamp = ts := by
  exact ⟨rfl, rfl⟩

/-- **C104 (lists)** A list that was declared cannot be changed, every `Change` panics; and every reader panics, whatever was
called before. -/
theorem C104_list (zero : Time) (calls : List (Slice × Time)) :
    calls.foldl (fun l c => (l.change c.1 c.2).1) (zeroList zero) = zeroList zero ∧
    (∀ c ∈ calls, ((zeroList zero).change c.1 c.2).2 = false) ∧ (zeroList zero).read = none := by
  have key : ∀ c : Slice × Time, (zeroList zero).change c.1 c.2 = (zeroList zero, false) := by
    rintro ⟨_ | ⟨xs, t⟩, ts⟩ <;> simp [ZList.change, zeroList]
  refine ⟨?_, fun c _ => by rw [key], rfl⟩
  induction calls with
  | nil => rfl
  | cons c cs ih => rw [List.foldl_cons, key]; exact ih

/-- of a list made by `NewList` the same functions are those of C37 -/
example (t0 t1 : Time) : ((⟨3, some .int64, some [.int .int64 1], t0⟩ : ZList).change (some ([.int .int64 2], .int64)) t1).1.read =
    some ([.int .int64 2], t1) := rfl

variable {D : Type}

/-- **C104 (directories)** In a directory that was declared nothing is found and nothing can be registered: registering a
directory panics, registering a metric returns the error for its type or unit if it is registered directly in it, and
panics otherwise; unregistering does nothing; the empty path is the directory itself.  It stays so. -/
theorem C104_dir (self fresh : D) (below : D → List Str → Res D) (value : Res Unit) (there : D → Str → Res Unit)
    (path : List Str) :
    getDir none self below path = (if path = [] then .ok self else .err .notFound) ∧
    registerDir none self fresh below path = (none, if path = [] then .ok self else .panic) ∧
    registerMetric none self fresh below value there path = (none,
      if path = [] then .err .pathInUse
      else if path.length = 1 then (match value with | .err e => .err e | _ => .panic)
      else .panic) ∧
    unregisterPath (D := D) none path = none := by
  refine ⟨?_, ?_, ?_, ?_⟩
  · cases path <;> simp [getDir, ZMap.get]
  · cases path <;> simp [registerDir, createDir, ZMap.get]
  · rcases path with _ | ⟨p, _ | ⟨q, rest⟩⟩
    · rfl
    · cases value <;> rfl
    · simp only [registerMetric, List.dropLast_cons₂]
      rw [List.getLast?_eq_some_getLast (by simp)]
      simp [registerDir, createDir, ZMap.get]
  · unfold unregisterPath remove
    split <;> rfl

/-- in a directory with a map the same function registers -/
example : registerMetric (some []) 0 1 (fun d _ => .ok d) (.ok ()) (fun _ _ => .ok ()) [[97]] =
    ((some [([97], .metric)] : ZMap (ZEntry ℕ)), .ok ()) := by decide

end Tricorder.Zero
