import Verif.Proof.Whole5
import Verif.Spec.Fair
/-!
# In fair runs requests finish
-/

namespace Tricorder.Group
open Go

variable {τ : Type} [Inhabited τ] {s s' : State τ} {es : List (Ev τ)}

/-- a busy loop can move on -/
theorem loop_can {tr : List (Ev τ)} (h : Inv tr s) {r : Rid} {g : Region τ}
    (hg : s.regions[r]? = some g) (hl : g.loop ≠ .select) :
    ∃ es s' g', Step s es s' ∧ Gentle s es s' ∧ s'.regions[r]? = some g' ∧ g'.loop ≠ g.loop := by
  have hk := h.i2.loop r g hg
  have hal := (h.i3.alive r g hg).2
  have hlt := (List.getElem?_eq_some_iff.mp hg).1
  match hgl : g.loop with
  | .select => exact absurd hgl hl
  | .crashed => exact absurd hgl hal
  | .handle n =>
    refine ⟨_, _, g.handleLockUnlock n, .handle s r g n hg hgl, gentle_setR fun e he => ?_, by simp [State.setR, hlt], ?_⟩
    · unfold Region.handleEvents at he
      split at he
      · rw [List.mem_singleton.mp he]; rfl
      · cases he
    · unfold Region.handleLockUnlock; simp only
      split
      · simp
      · split <;> simp
  | .calling =>
    exact ⟨_, _, { g with updateTime := default, loop := .reply default }, .updated s r g default hg hgl,
      gentle_setR (by simp [starts]), by simp [State.setR, hlt], by simp⟩
  | .reply t =>
    simp only [loopOK, hgl] at hk
    have hsome : ∃ k, Option.map Prod.snd (pend r tr) = some k ∧ (k = .lock ∨ k = .unlock) := by
      rcases hk.1 with hk | hk
      · exact ⟨_, hk, .inl rfl⟩
      · exact ⟨_, hk, .inr rfl⟩
    obtain ⟨k, hk1, hk2⟩ := hsome
    obtain ⟨⟨c, k'⟩, hpend, rfl⟩ := Option.map_eq_some_iff.1 hk1
    obtain ⟨cl, hc, hw⟩ := h.i2.owner r c _ hpend
    have hrec : ∃ cl', cl.receive r t = some cl' ∧ cl.pc ≠ .user ∧ cl.pc ≠ .closed := by
      cases hp : cl.pc <;> rw [hp] at hw <;>
        simp only [waitsFor, reduceCtorEq, Option.some.injEq, Prod.mk.injEq] at hw
      · obtain ⟨rfl, -⟩ := hw
        exact ⟨_, (by simp only [Client.receive, hp, if_true]; rfl), by simp, by simp⟩
      · obtain ⟨rfl, -⟩ := hw
        exact ⟨_, (by simp only [Client.receive, hp, if_true]; rfl), by simp, by simp⟩
      · obtain ⟨-, e⟩ := hw
        dsimp only at hk2; rw [← e] at hk2; simp at hk2
    obtain ⟨cl', hrec, hn1, hn2⟩ := hrec
    exact ⟨_, _, { g with loop := .select }, .receive s c cl cl' r g t hc hg hgl hrec,
      (gentle_setC hc hn1 hn2 (by simp [starts])).setR _ _, by simp [State.setR, State.setC, hlt], by simp⟩
  | .handleFn f =>
    exact ⟨_, _, { g with updateFunc := f, loop := .replyFn }, .fnHandle s r f g hg hgl, gentle_setR (by simp),
      by simp [State.setR, hlt], by simp⟩
  | .replyFn =>
    simp only [loopOK, hgl] at hk
    obtain ⟨⟨c, k'⟩, hpend, rfl⟩ := Option.map_eq_some_iff.1 hk
    obtain ⟨cl, hc, hw⟩ := h.i2.owner r c _ hpend
    have hp : cl.pc = .fnRecv r := by
      cases hp : cl.pc <;> rw [hp] at hw <;>
        simp only [waitsFor, reduceCtorEq, Option.some.injEq, Prod.mk.injEq, and_false] at hw
      rw [hw.1]
    exact ⟨_, _, { g with loop := .select }, .fnReceive s c cl r g hc hp hg hgl,
      (gentle_setC hc (by simp [hp]) (by simp [hp]) (by simp [starts])).setR _ _, by simp [State.setR, State.setC, hlt], by simp⟩

/-- a busy loop gets nearer to its end with every step -/
theorem Step.loop_down (h : Step s es s') {r : Rid} {g : Region τ} (hg : s.regions[r]? = some g) :
    ∃ g', s'.regions[r]? = some g' ∧ (g'.loop = g.loop ∨ g.loop = .select ∨ loopWork g' < loopWork g) := by
  obtain ⟨g', h1, -, h2⟩ := h.region r g hg
  refine ⟨g', h1, ?_⟩
  rcases h2 with ⟨rfl, -⟩ | ⟨_, _, h2, -⟩ | ⟨n, h2, rfl, -⟩ | ⟨t, h2, rfl, -⟩ | ⟨_, t, h2, rfl, -⟩ | ⟨_, _, h2, -⟩ |
    ⟨f, h2, -, rfl⟩ | ⟨_, h2, -, rfl⟩
  · exact .inl rfl
  · exact .inr (.inl h2)
  · refine .inr (.inr ?_)
    have a : loopWork g = 9 := by simp [loopWork, h2]
    have b : loopWork (g.handleLockUnlock n) ≤ 8 := by
      unfold Region.handleLockUnlock; simp only
      split
      · simp [loopWork]
      · split <;> simp [loopWork]
    omega
  · exact .inr (.inr (by simp [loopWork, h2]))
  · exact .inr (.inr (by simp [loopWork, h2]))
  · exact .inr (.inl h2)
  · exact .inr (.inr (by simp [loopWork, h2]))
  · exact .inr (.inr (by simp [loopWork, h2]))

/-- in `RLock` a request moves forward only -/
theorem Step.locking_down (h : Step s es s') {c r : ℕ} {cl : Client τ} (hc : s.clients[c]? = some cl) (hl : Locking r cl)
    (hu : cl.pc = .user ∨ cl.pc = .closed → s'.clients[c]? = some cl) :
    ∃ cl', s'.clients[c]? = some cl' ∧ (cl' = cl ∨ work cl' < work cl) := by
  by_cases hp : cl.pc = .user
  · exact ⟨cl, hu (.inl hp), .inl rfl⟩
  obtain ⟨cl', h1, h2⟩ := h.client c cl hc
  refine ⟨cl', h1, ?_⟩
  have hl' : cl.pc = .lockSend r ∨ cl.pc = .lockRecv r ∨ ∃ t, cl.pc = .lockDone r t := by
    rcases hl with ⟨-, hl⟩ | ⟨t, rfl⟩
    · exact hl
    · exact absurd rfl hp
  rcases hl' with hp | hp | ⟨t, hp⟩ <;> rw [hp] at h2 <;> simp [isOpen] at h2
  · rcases h2 with rfl | ⟨rfl, -⟩
    · exact .inl rfl
    · exact .inr (by simp [work, hp])
  · rcases h2 with rfl | ⟨t, rfl, -⟩
    · exact .inl rfl
    · exact .inr (by simp [work, hp])
  · rcases h2 with rfl | ⟨rfl, -⟩
    · exact .inl rfl
    · exact .inr (by simp [work, hp]; omega)

/-- and so in `RUnlock` -/
theorem Step.unlocking_down (h : Step s es s') {c : ℕ} {cl : Client τ} (hc : s.clients[c]? = some cl) (hl : Unlocking cl)
    (hu : cl.pc = .user ∨ cl.pc = .closed → s'.clients[c]? = some cl) :
    ∃ cl', s'.clients[c]? = some cl' ∧ (cl' = cl ∨ work cl' < work cl) := by
  have hlt : c < s.clients.length := (List.getElem?_eq_some_iff.1 hc).1
  by_cases hcl : cl.pc = .closed
  · exact ⟨cl, hu (.inr hcl), .inl rfl⟩
  have set_case : ∀ {c1 : Cid} {cl1 cl1' : Client τ} {s1 : State τ}, s1.clients = s.clients.set c1 cl1' → s.clients[c1]? = some cl1 →
      (c1 = c → cl1 = cl → work cl1' < work cl) → ∃ cl', s1.clients[c]? = some cl' ∧ (cl' = cl ∨ work cl' < work cl) := by
    intro c1 cl1 cl1' s1 h1 h2 h3
    rw [h1, List.getElem?_set]
    by_cases hcc : c1 = c
    · subst hcc
      rw [hc] at h2; cases h2
      exact ⟨cl1', by simp [hlt], .inr (h3 rfl rfl)⟩
    · exact ⟨cl, by simp [hcc, hc], .inl rfl⟩
  have ho := hl.1
  cases h with
  | newGroup f => exact ⟨cl, hc, .inl rfl⟩
  | newOther => exact ⟨cl, hc, .inl rfl⟩
  | openSession => exact ⟨cl, by rw [List.getElem?_append_left hlt]; exact hc, .inl rfl⟩
  | visitAgain c1 cl1 r t hc1 hp hv => exact ⟨cl, hc, .inl rfl⟩
  | visitNew c1 cl1 r hc1 hp hr hv =>
    refine set_case rfl hc1 ?_
    rintro rfl rfl; rw [hp] at ho; cases ho
  | visitClosed c1 cl1 hc1 hp =>
    refine set_case rfl hc1 ?_
    rintro rfl rfl; exact absurd hp hcl
  | send c1 cl1 cl' r g n hc1 hg hl hsend =>
    refine set_case rfl hc1 ?_
    rintro rfl rfl
    rcases send_cases hsend with ⟨hp, rfl, rfl⟩ | ⟨todo, hp, rfl, rfl⟩
    · rw [hp] at ho; cases ho
    · simp [work, hp]
  | handle r g n hg hl => exact ⟨cl, hc, .inl rfl⟩
  | updated r g t hg hl => exact ⟨cl, hc, .inl rfl⟩
  | receive c1 cl1 cl' r g t hc1 hg hl hrec =>
    refine set_case rfl hc1 ?_
    rintro rfl rfl
    rcases receive_cases hrec with ⟨hp, rfl⟩ | ⟨todo, hp, rfl⟩
    · rw [hp] at ho; cases ho
    · simp [work, hp]
  | visitDone c1 cl1 r t hc1 hp =>
    refine set_case rfl hc1 ?_
    rintro rfl rfl; rw [hp] at ho; cases ho
  | closeBegin c1 cl1 hc1 hp =>
    refine set_case rfl hc1 ?_
    rintro rfl rfl; rw [hp] at ho; cases ho
  | closeNext c1 cl1 r todo hc1 hp hr =>
    refine set_case rfl hc1 ?_
    rintro rfl rfl
    have h1 := List.length_erase_of_mem hr
    have h2 : 0 < todo.length := List.length_pos_of_mem hr
    simp only [work, hp]
    omega
  | closeEnd c1 cl1 hc1 hp =>
    refine set_case rfl hc1 ?_
    rintro rfl rfl
    simp [work, hp]
  | closeAgain c1 cl1 hc1 hp => exact ⟨cl, hc, .inl rfl⟩
  | fnBegin c1 cl1 r f hc1 hp hr =>
    refine set_case rfl hc1 ?_
    rintro rfl rfl; rw [hp] at ho; cases ho
  | fnSend c1 cl1 r f g hc1 hp hg hl =>
    refine set_case rfl hc1 ?_
    rintro rfl rfl; rw [hp] at ho; cases ho
  | fnHandle r f g hg hl => exact ⟨cl, hc, .inl rfl⟩
  | fnReceive c1 cl1 r g hc1 hp hg hl =>
    refine set_case rfl hc1 ?_
    rintro rfl rfl; rw [hp] at ho; cases ho

end Tricorder.Group

namespace Tricorder.Whole
open Go Spec

variable {A : Type} {w : World} {tr : List (Item A)} {s s' : St A} {i : Item A} {Q : A → Session → Prop} {c : ℕ}

/-! ### One step -/

theorem not_self (cmd : Cmd) (k : cmd.Resp → Prog A) (x : cmd.Resp) : k x ≠ .op cmd k := by
  have : ∀ p : Prog A, ∀ (cmd : Cmd) (k : cmd.Resp → Prog A) (x : cmd.Resp), p = .op cmd k → k x ≠ p := by
    intro p
    induction p with
    | ret a => intro cmd k x h; cases h
    | op c' k' ih =>
      intro cmd k x h e
      cases h
      exact ih x _ _ x e rfl
  exact this _ cmd k x rfl

/-- what a goroutine does in a step -/
inductive Next : PC A → PC A → Prop where
  | own (cmd : Cmd) (k : cmd.Resp → Prog A) (x : cmd.Resp) : Next (.run (.op cmd k)) (.run (k x))
  | asks (cl r : ℕ) (k : Time → Prog A) : Next (.run (.op (.rlock r) k)) (.lock cl r k)
  | took (cl r : ℕ) (k : Time → Prog A) (t : Time) : Next (.lock cl r k) (.run (k t))
  | gives (cl r : ℕ) (k : Unit → Prog A) : Next (.run (.op (.runlock r) k)) (.unlock cl r k)
  | gave (cl r : ℕ) (k : Unit → Prog A) : Next (.unlock cl r k) (.run (k ()))

theorem Step.next (hs : Step w s i s') {p : Proc A} (hp : s.procs[c]? = some p) :
    s'.procs[c]? = some p ∨ ∃ p', s'.procs[c]? = some p' ∧ Next p.pc p'.pc := by
  have set_case : ∀ (c' : ℕ) (q q' : Proc A), s.procs[c']? = some q → Next q.pc q'.pc →
      (s.procs.set c' q')[c]? = some p ∨ ∃ p', (s.procs.set c' q')[c]? = some p' ∧ Next p.pc p'.pc := by
    intro c' q q' h1 h2
    by_cases hc : c' = c
    · subst hc
      rw [hp] at h1; cases h1
      exact .inr ⟨q', getElem?_set_same hp, h2⟩
    · exact .inl ((getElem?_set_other hc).trans hp)
  cases hs with
  | spawn q => exact .inl (by rw [List.getElem?_append_left (List.getElem?_eq_some_iff.mp hp).1]; exact hp)
  | own c' held cmd k h1 h2 h3 => exact set_case c' _ _ h1 (.own cmd k _)
  | newGroup c' held k h1 => exact set_case c' _ _ h1 (.own .newRegion k _)
  | upd r G cmd h1 h2 h3 => exact .inl hp
  | asks c' r held k h1 h2 => exact set_case c' _ _ h1 (.asks _ r k)
  | took c' r cl t held k h1 h2 => exact set_case c' _ _ h1 (.took cl r k t)
  | gives c' r cl client held k h1 h2 h3 h4 => exact set_case c' _ _ h1 (.gives cl r k)
  | gave c' r cl client held k h1 h2 h3 => exact set_case c' _ _ h1 (.gave cl r k)
  | loop es G h1 h2 h3 => exact .inl hp

theorem Step.loop_down (hs : Step w s i s') {r : ℕ} {g : Group.Region Time} (hg : s.grp.regions[r]? = some g) :
    ∃ g', s'.grp.regions[r]? = some g' ∧ (g'.loop = g.loop ∨ g.loop = .select ∨ Group.loopWork g' < Group.loopWork g) := by
  cases hs with
  | newGroup c' held k h1 =>
    refine ⟨g, ?_, .inl rfl⟩
    dsimp only
    rw [List.getElem?_append_left (List.getElem?_eq_some_iff.mp hg).1]
    exact hg
  | loop es G h1 h2 h3 => exact h1.loop_down hg
  | _ => exact ⟨g, hg, .inl rfl⟩

theorem place_of {p : Proc A} (hp : s.procs[c]? = some p) : place s c = some (p, match p.pc with
    | .lock cl _ _ | .unlock cl _ _ => s.grp.clients[cl]?
    | .run _ => none) := by
  obtain ⟨pc, held⟩ := p
  cases pc <;> simp [place, hp]

theorem place_proc (h : place s' c = place s c) : s'.procs[c]? = s.procs[c]? := by
  simp only [place] at h
  cases h1 : s'.procs[c]? <;> cases h2 : s.procs[c]? <;> simp [h1, h2] at h ⊢
  exact h.1

theorem place_lock {cl r : ℕ} {k : Time → Prog A} {held : List (ℕ × ℕ)} (h : place s' c = place s c)
    (hp : s.procs[c]? = some ⟨.lock cl r k, held⟩) : s'.grp.clients[cl]? = s.grp.clients[cl]? := by
  have hp' := (place_proc h).trans hp
  rw [place_of hp, place_of hp'] at h
  simpa using h

theorem place_unlock {cl r : ℕ} {k : Unit → Prog A} {held : List (ℕ × ℕ)} (h : place s' c = place s c)
    (hp : s.procs[c]? = some ⟨.unlock cl r k, held⟩) : s'.grp.clients[cl]? = s.grp.clients[cl]? := by
  have hp' := (place_proc h).trans hp
  rw [place_of hp, place_of hp'] at h
  simpa using h

/-- a step that changes the program counter -/
theorem canMove_pc {p p' : Proc A} (hs : Step w s i s') (hp : s.procs[c]? = some p) (hp' : s'.procs = s.procs.set c p')
    (hne : p'.pc ≠ p.pc) : CanMove w s c := by
  refine ⟨i, s', hs, fun h => hne ?_⟩
  have := (place_proc h).trans hp
  rw [hp', getElem?_set_same hp] at this
  cases this; rfl

/-- a step of the groups that changes its client -/
theorem canMove_grp {p : Proc A} (hp : s.procs[c]? = some p) {cl : ℕ}
    (hcl : (∃ r k, p.pc = .lock cl r k) ∨ ∃ r k, p.pc = .unlock cl r k) {es : List (Group.Ev Time)} {g : Group.State Time}
    (hs : Group.Step s.grp es g) (hg : Group.Gentle s.grp es g) (hne : g.clients[cl]? ≠ s.grp.clients[cl]?) : CanMove w s c := by
  have hs' : Step w s ⟨.loop, es, s.mem, s.mem⟩ { s with grp := g } :=
    .loop s es g hs hg.regions (fun p _ cl _ client h1 h2 => hg.idle cl client h1 h2)
  refine ⟨_, _, hs', fun h => hne ?_⟩
  obtain ⟨pc, held⟩ := p
  rcases hcl with ⟨r, k, e⟩ | ⟨r, k, e⟩ <;> simp only at e <;> subst e
  · exact place_lock h hp
  · exact place_unlock h hp

theorem set_get {α : Type} {l : List α} {i : ℕ} {x y : α} (h : l[i]? = some x) : (l.set i y)[i]? = some y := by
  simp [(List.getElem?_eq_some_iff.mp h).1]

/-- a goroutine in `RUnlock` still has the client -/
theorem AtC.unlock_client {G : Group.State Time} {vs : List MetricView} {ss : Session} {cl r : ℕ} {k : Unit → Prog A} {held : List (ℕ × ℕ)}
    (h : AtC Q G vs ss ⟨.unlock cl r k, held⟩) : cl ∈ (⟨.unlock cl r k, held⟩ : Proc A).clients := by
  cases h
  simp [Proc.clients]

theorem Step.no_gives (hs : Step w s i s') {p : Proc A} (hp : s.procs[c]? = some p) (hn : ∀ q, p.pc ≠ .run q) (r cl : ℕ) :
    i.lab ≠ .gives c r cl := by
  intro e
  cases hs <;> cases e
  rename_i h1 _ _
  rw [hp] at h1
  cases h1
  exact hn _ rfl

/-! ### Runs that go on for ever -/

section
variable {σ : ℕ → St A} {it : ℕ → Item A}

theorem Forever.run (F : Forever w σ it) (n : ℕ) : Run w ((List.range n).map it) (σ n) := by
  induction n with
  | zero => rw [F.start]; exact .nil
  | succ n ih =>
    rw [List.range_succ, List.map_append]
    exact ih.snoc (F.step n)

theorem Forever.known (F : Forever w σ it) (hk : ∀ n, KnownGroup (it n)) (n : ℕ) : Known (σ n) :=
  (F.run n).known fun i hi => by
    obtain ⟨m, -, rfl⟩ := List.mem_map.mp hi
    exact hk m

theorem Forever.follows (F : Forever w σ it) (hk : ∀ n, KnownGroup (it n)) {p : Prog A} (hw : Mannered Q [] p []) {n0 : ℕ}
    (h0 : (it n0).lab = .spawn c p) {n : ℕ} (hn : n0 < n) : FollowsC Q c (σ n) :=
  (F.run n).followsC (fun i hi => by
    obtain ⟨m, -, rfl⟩ := List.mem_map.mp hi
    exact hk m) hw ⟨it n0, List.mem_map.mpr ⟨n0, List.mem_range.mpr hn, rfl⟩, h0⟩

/-- the first change -/
theorem first_change {β : Type} {f : ℕ → β} {n : ℕ} (h : ∃ m ≥ n, f (m + 1) ≠ f m) :
    ∃ m ≥ n, f (m + 1) ≠ f m ∧ f m = f n := by
  classical
  obtain ⟨m, hm, hne⟩ := h
  have hex : ∃ j, f (n + j + 1) ≠ f (n + j) := ⟨m - n, by rwa [Nat.add_sub_cancel' hm]⟩
  refine ⟨n + Nat.find hex, by omega, Nat.find_spec hex, ?_⟩
  have hmin : ∀ j, j < Nat.find hex → f (n + j + 1) = f (n + j) := fun j hj => not_not.mp (Nat.find_min hex hj)
  have : ∀ j, j ≤ Nat.find hex → f (n + j) = f n := by
    intro j
    induction j with
    | zero => intro _; rfl
    | succ j ih => intro hj; exact (hmin j (by omega)).trans (ih (by omega))
  exact this _ le_rfl

/-- nothing changes -/
theorem no_change {β : Type} {f : ℕ → β} {n : ℕ} (h : ¬ ∃ m ≥ n, f (m + 1) ≠ f m) {m : ℕ} (hm : n ≤ m) : f m = f n := by
  induction m, hm using Nat.le_induction with
  | base => rfl
  | succ m hm ih =>
    rw [← ih]
    by_contra hne
    exact h ⟨m, hm, hne⟩

theorem loopWork_of {g g' : Group.Region Time} (h : g'.loop = g.loop) : Group.loopWork g' = Group.loopWork g := by
  unfold Group.loopWork; rw [h]

theorem Forever.region (F : Forever w σ it) {r n m : ℕ} (h : r < (σ n).grp.regions.length) (hm : n ≤ m) :
    r < (σ m).grp.regions.length := by
  induction m, hm using Nat.le_induction with
  | base => exact h
  | succ m hm ih =>
    obtain ⟨g', h1, -⟩ := (F.step m).loop_down (List.getElem?_eq_getElem ih)
    exact (List.getElem?_eq_some_iff.mp h1).1

theorem canMove_loop (hr : Run w tr s) {r : ℕ} {g : Group.Region Time} (hg : s.grp.regions[r]? = some g) (hl : g.loop ≠ .select) :
    LoopCanMove w s r := by
  obtain ⟨es, G, g', h1, h2, h3, h4⟩ := Group.loop_can hr.inv hg hl
  have hs' : Step w s ⟨.loop, es, s.mem, s.mem⟩ { s with grp := G } :=
    .loop s es G h1 h2.regions (fun p _ cl _ client h1 h3 => h2.idle cl client h1 h3)
  refine ⟨_, _, hs', ?_⟩
  simp only [loopAt, h3, hg, Option.map_some]
  simpa using h4

/-- an event loop comes back to its `select` -/
theorem Forever.select (F : Forever w σ it) {r : ℕ} (hl : LoopRuns w σ r) {n : ℕ} (h : r < (σ n).grp.regions.length) :
    ∃ m ≥ n, ∃ g, (σ m).grp.regions[r]? = some g ∧ g.loop = .select := by
  obtain ⟨g, hg⟩ : ∃ g, (σ n).grp.regions[r]? = some g := ⟨_, List.getElem?_eq_getElem h⟩
  generalize hk : Group.loopWork g = k
  induction k using Nat.strong_induction_on generalizing n g with
  | _ k ih =>
    by_contra hno
    have hno' : ∀ m ≥ n, ∀ g, (σ m).grp.regions[r]? = some g → g.loop ≠ .select := fun m hm g hg hs => hno ⟨m, hm, g, hg, hs⟩
    have hch : ∃ m ≥ n, loopAt (σ (m + 1)) r ≠ loopAt (σ m) r := by
      refine hl ⟨n, fun m hm => ?_⟩ n
      have hg' := List.getElem?_eq_getElem (F.region h hm)
      exact canMove_loop (F.run m) hg' (hno' m hm _ hg')
    obtain ⟨m, hm, hne, heq⟩ := first_change hch (f := fun m => loopAt (σ m) r)
    have hlt := F.region h hm
    have hg' := List.getElem?_eq_getElem hlt
    generalize (σ m).grp.regions[r]'hlt = g1 at hg'
    obtain ⟨g2, h2, h3⟩ := (F.step m).loop_down hg'
    have e1 : g1.loop = g.loop := by simpa [loopAt, hg', hg] using heq
    rcases h3 with h3 | h3 | h3
    · exact hne (by simp [loopAt, h2, hg', h3])
    · exact hno' m hm _ hg' h3
    · rw [loopWork_of e1, hk] at h3
      obtain ⟨m', hm', g3, k1, k2⟩ := ih _ h3 (n := m + 1) (F.region h (by omega)) g2 h2 rfl
      exact hno' m' (by omega) g3 k1 k2

/-- a client that waits for an event loop finds it busy -/
theorem waits_busy {tr : List (Group.Ev Time)} {G : Group.State Time} (h : Group.Inv tr G) {cl : ℕ} {client : Group.Client Time}
    (hc : G.clients[cl]? = some client) {r : ℕ} {k} (hw : Group.waitsFor client.pc = some (r, k)) {g : Group.Region Time}
    (hg : G.regions[r]? = some g) : g.loop ≠ .select := by
  have hp := h.i2.waits cl client r k hc hw
  have hk := h.i2.loop r _ hg
  intro hsel
  simp only [Group.loopOK, hsel, hp] at hk
  simp at hk

/-- what goroutine `c` has to do with the run -/
structure Served (Q : A → Session → Prop) (w : World) (σ : ℕ → St A) (it : ℕ → Item A) (c n0 : ℕ) : Prop where
  run : Forever w σ it
  follows : ∀ n > n0, FollowsC Q c (σ n)
  fair : FairTo w σ c
  loops : ∀ r, LoopRuns w σ r

/-- as long as its program has not ended, it moves -/
theorem Served.moves {n0 : ℕ} (S : Served Q w σ it c n0) {n : ℕ} (hn : n0 < n) {p : Proc A} (hp : (σ n).procs[c]? = some p)
    (hu : ∀ a, p.pc ≠ .run (.ret a)) : ∃ m ≥ n, place (σ (m + 1)) c ≠ place (σ m) c := by
  by_contra hno
  have hstill : ∀ m ≥ n, place (σ m) c = place (σ n) c := fun m hm => no_change (f := fun m => place (σ m) c) hno hm
  have hproc : ∀ m ≥ n, (σ m).procs[c]? = some p := fun m hm => (place_proc (hstill m hm)).trans hp
  suffices h : ∀ n' ≥ n, ∃ m ≥ n', CanMove w (σ m) c by
    refine hno (S.fair (fun n' => ?_) n)
    obtain ⟨m, hm, h1⟩ := h (max n n') (le_max_left _ _)
    exact ⟨m, (le_max_right _ _).trans hm, h1⟩
  obtain ⟨pc, held⟩ := p
  cases pc with
  | run p =>
    cases p with
    | ret a => exact absurd rfl (hu a)
    | op cmd k =>
      intro n' hn'
      refine ⟨n', le_rfl, ?_⟩
      have hp' := hproc n' hn'
      obtain ⟨q, vs, ss, h1, h2, hv⟩ := S.follows n' (by omega)
      rw [hp'] at h1
      cases h1
      cases h2 with
      | run hw hl =>
      have hrd := Tricorder.Mannered.reads hw
      by_cases hm : MemOnly cmd
      · exact canMove_pc (.own _ c held cmd k hp' hm (reads_ok hrd _)) hp' rfl (by simpa using not_self cmd k _)
      · cases cmd with
        | rlock r =>
          obtain ⟨⟨mv, hmv, hr⟩, -⟩ := hw
          exact canMove_pc (.asks _ c r held k hp' (hv mv hmv r hr)) hp' rfl (by simp)
        | runlock r =>
          obtain ⟨t, ss, rfl, -⟩ := hw
          cases hl with
          | @cons _ y _ held' hy hl =>
          obtain ⟨r', cl⟩ := y
          obtain rfl : r' = r := hy.1
          exact canMove_pc (.gives _ c r' cl _ _ k hp' List.lookup_cons_self hy.2 rfl) hp' rfl (by simp)
        | _ => first | exact absurd trivial hm | cases hrd
  | lock cl r k =>
    obtain ⟨q, vs, ss, h1, h2, hv⟩ := S.follows n hn
    rw [hp] at h1
    cases h1
    obtain ⟨client, hc, hl⟩ : ∃ client, (σ n).grp.clients[cl]? = some client ∧ Group.Locking r client := by
      cases h2
      exact ⟨_, ‹_›, ‹_›⟩
    have hcl : ∀ m ≥ n, (σ m).grp.clients[cl]? = some client := fun m hm => (place_lock (hstill m hm) hp).trans hc
    have hok := (S.run.run n).inv.i1 cl client hc
    intro n' hn'
    rcases hl with ⟨-, hl | hl | ⟨t, hl⟩⟩ | ⟨t, rfl⟩
    · simp only [Group.ClientOK, hl] at hok
      obtain ⟨m, hm, g, hg, hsel⟩ := S.run.select (S.loops r) (S.run.region hok.2.2.2 hn')
      have hc' := hcl m (by omega)
      refine ⟨m, hm, canMove_grp (hproc m (by omega)) (.inl ⟨_, _, rfl⟩)
        (.send _ cl client { client with pc := .lockRecv r } r g 1 hc' hg hsel (by simp [Group.Client.send, hl]))
        ((Group.gentle_setC hc' (by simp [hl]) (by simp [hl]) (by simp [Group.starts])).setR _ _) ?_⟩
      rw [hc']
      simp only [Group.State.setR, Group.State.setC, set_get hc']
      intro e; simp only [Option.some.injEq] at e
      have := congrArg Group.Client.pc e
      simp [hl] at this
    · have hw : Group.waitsFor client.pc = some (r, .lock) := by simp [Group.waitsFor, hl]
      obtain ⟨m, hm, g, hg, hsel⟩ := S.run.select (S.loops r) (S.run.region (Group.waits_lt hok hw) hn')
      exact absurd hsel (waits_busy (S.run.run m).inv (hcl m (by omega)) hw hg)
    · have hc' := hcl n' hn'
      refine ⟨n', le_rfl, canMove_grp (hproc n' hn') (.inl ⟨_, _, rfl⟩) (.visitDone _ cl client r t hc' hl)
        (Group.gentle_setC hc' (by simp [hl]) (by simp [hl]) (by simp [Group.starts])) ?_⟩
      rw [hc']
      simp only [Group.State.setC, set_get hc']
      intro e; simp only [Option.some.injEq] at e
      have := congrArg Group.Client.pc e
      simp [hl] at this
    · exact ⟨n', le_rfl, canMove_pc (.took _ c r cl t held k (hproc n' hn') (hcl n' hn')) (hproc n' hn') rfl (by simp)⟩
  | unlock cl r k =>
    obtain ⟨q, vs, ss, h1, h2, hv⟩ := S.follows n hn
    rw [hp] at h1
    cases h1
    obtain ⟨client, hc, hl⟩ : ∃ client, (σ n).grp.clients[cl]? = some client ∧ Group.Unlocking client := by
      cases h2
      exact ⟨_, ‹_›, ‹_›⟩
    have hcl : ∀ m ≥ n, (σ m).grp.clients[cl]? = some client := fun m hm => (place_unlock (hstill m hm) hp).trans hc
    have hok := (S.run.run n).inv.i1 cl client hc
    have move : ∀ m ≥ n, ∀ es cl', Group.Step (σ m).grp es ((σ m).grp.setC cl cl') → client.pc ≠ .user → client.pc ≠ .closed →
        (∀ e ∈ es, Group.starts e = false) → cl'.pc ≠ client.pc → CanMove w (σ m) c := by
      intro m hm es cl' hst h1 h2 h3 h4
      refine canMove_grp (hproc m hm) (.inr ⟨_, _, rfl⟩) hst (Group.gentle_setC (hcl m hm) h1 h2 h3) ?_
      rw [hcl m hm]
      simp only [Group.State.setC, set_get (hcl m hm)]
      intro e
      cases e
      exact h4 rfl
    intro n' hn'
    match hpc : client.pc with
    | .closing [] =>
      exact ⟨n', le_rfl, move n' hn' _ _ (.closeEnd _ cl client (hcl n' hn') hpc) (by simp [hpc]) (by simp [hpc])
        (by simp [Group.starts]) (by simp [hpc])⟩
    | .closing (q :: todo) =>
      exact ⟨n', le_rfl, move n' hn' _ _ (.closeNext _ cl client q (q :: todo) (hcl n' hn') hpc (by simp)) (by simp [hpc])
        (by simp [hpc]) (by simp) (by simp [hpc])⟩
    | .unlockSend q todo =>
      simp only [Group.ClientOK, hpc] at hok
      obtain ⟨m, hm, g, hg, hsel⟩ := S.run.select (S.loops q) (S.run.region hok.2.2.2.1 hn')
      have hc' := hcl m (by omega)
      refine ⟨m, hm, canMove_grp (hproc m (by omega)) (.inr ⟨_, _, rfl⟩)
        (.send _ cl client { client with pc := .unlockRecv q todo } q g (-1) hc' hg hsel (by simp [Group.Client.send, hpc]))
        ((Group.gentle_setC hc' (by simp [hpc]) (by simp [hpc]) (by simp [Group.starts])).setR _ _) ?_⟩
      rw [hc']
      simp only [Group.State.setR, Group.State.setC, set_get hc']
      intro e; simp only [Option.some.injEq] at e
      have := congrArg Group.Client.pc e
      simp [hpc] at this
    | .unlockRecv q todo =>
      have hw : Group.waitsFor client.pc = some (q, .unlock) := by simp [Group.waitsFor, hpc]
      obtain ⟨m, hm, g, hg, hsel⟩ := S.run.select (S.loops q) (S.run.region (Group.waits_lt hok hw) hn')
      exact absurd hsel (waits_busy (S.run.run m).inv (hcl m (by omega)) hw hg)
    | .closed =>
      exact ⟨n', le_rfl, canMove_pc (.gave _ c r cl client _ k (hproc n' hn') (hcl n' hn') hpc) (hproc n' hn') rfl (by simp)⟩
    | .panicked => exact absurd hpc hl.2
    | .user => exact absurd hl.1 (by simp [Group.isOpen, hpc])
    | .lockSend q => exact absurd hl.1 (by simp [Group.isOpen, hpc])
    | .lockRecv q => exact absurd hl.1 (by simp [Group.isOpen, hpc])
    | .lockDone q t => exact absurd hl.1 (by simp [Group.isOpen, hpc])
    | .fnSend q f => exact absurd hl.1 (by simp [Group.isOpen, hpc])
    | .fnRecv q => exact absurd hl.1 (by simp [Group.isOpen, hpc])

/-- its first move -/
theorem Served.move {n0 : ℕ} (S : Served Q w σ it c n0) {n : ℕ} (hn : n0 < n) {p : Proc A} (hp : (σ n).procs[c]? = some p)
    (hu : ∀ a, p.pc ≠ .run (.ret a)) : ∃ m ≥ n, place (σ m) c = place (σ n) c ∧ (σ m).procs[c]? = some p ∧
      ((∃ p', (σ (m + 1)).procs[c]? = some p' ∧ Next p.pc p'.pc) ∨
        (σ (m + 1)).procs[c]? = some p ∧ place (σ (m + 1)) c ≠ place (σ m) c) := by
  obtain ⟨m, hm, hne, heq⟩ := first_change (f := fun m => place (σ m) c) (S.moves hn hp hu)
  have hp' : (σ m).procs[c]? = some p := (place_proc heq).trans hp
  refine ⟨m, hm, heq, hp', ?_⟩
  rcases (S.run.step m).next hp' with h | h
  · exact .inr ⟨h, hne⟩
  · exact .inl h

theorem Served.unlocked {n0 : ℕ} (S : Served Q w σ it c n0) {n cl r : ℕ} (hn : n0 < n) {k : Unit → Prog A} {held : List (ℕ × ℕ)}
    (hp : (σ n).procs[c]? = some ⟨.unlock cl r k, held⟩) : ∃ m ≥ n, ∃ held', (σ m).procs[c]? = some ⟨.run (k ()), held'⟩ := by
  obtain ⟨q, vs, ss, h1, h2, -⟩ := S.follows n hn
  rw [hp] at h1
  cases h1
  obtain ⟨client, hc, -⟩ : ∃ client, (σ n).grp.clients[cl]? = some client ∧ Group.Unlocking client := by
    cases h2
    exact ⟨_, ‹_›, ‹_›⟩
  clear h2
  generalize hk : Group.work client = x
  induction x using Nat.strong_induction_on generalizing n client with
  | _ x ih =>
    obtain ⟨m, hm, heq, hp', h | ⟨h, hne⟩⟩ := S.move hn hp (by simp)
    · obtain ⟨⟨pc', held'⟩, h3, h4⟩ := h
      cases h4
      exact ⟨m + 1, by omega, held', h3⟩
    · have hc' : (σ m).grp.clients[cl]? = some client := (place_unlock heq hp).trans hc
      have hul : Group.Unlocking client := by
        obtain ⟨q, vs, ss, h1, h2, -⟩ := S.follows m (by omega)
        rw [hp'] at h1
        cases h1
        cases h2 with
        | unlock _ _ hc2 hl2 => rw [hc'] at hc2; cases hc2; exact hl2
      have hin : cl ∈ (⟨.unlock cl r k, held⟩ : Proc A).clients := by
        obtain ⟨q, vs, ss, h1, h2, -⟩ := S.follows m (by omega)
        rw [hp'] at h1
        cases h1
        exact h2.unlock_client
      obtain ⟨client', h5, h6⟩ := (S.run.step m).client (S.run.run m) hp' hin
        (fun r' => (S.run.step m).no_gives hp' (by simp) r' cl)
        (P := fun x => x = client ∨ Group.work x < Group.work client) (fun {es G x} a b hx d => by
          rw [hc'] at b
          cases b
          obtain ⟨y, e1, e2⟩ := a.unlocking_down hc' hul d
          exact ⟨y, e1, e2⟩) hc' (.inl rfl)
      rcases h6 with rfl | h6
      · exact absurd (by rw [place_of h, place_of hp']; simp [h5, hc']) hne
      · obtain ⟨m', hm', z⟩ := ih _ (hk ▸ h6) (by omega) h _ h5 rfl
        exact ⟨m', by omega, z⟩

theorem Served.locked {n0 : ℕ} (S : Served Q w σ it c n0) {n cl r : ℕ} (hn : n0 < n) {k : Time → Prog A} {held : List (ℕ × ℕ)}
    (hp : (σ n).procs[c]? = some ⟨.lock cl r k, held⟩) : ∃ m ≥ n, ∃ t held', (σ m).procs[c]? = some ⟨.run (k t), held'⟩ := by
  obtain ⟨q, vs, ss, h1, h2, -⟩ := S.follows n hn
  rw [hp] at h1
  cases h1
  obtain ⟨client, hc, -⟩ : ∃ client, (σ n).grp.clients[cl]? = some client ∧ Group.Locking r client := by
    cases h2
    exact ⟨_, ‹_›, ‹_›⟩
  clear h2
  generalize hk : Group.work client = x
  induction x using Nat.strong_induction_on generalizing n client with
  | _ x ih =>
    obtain ⟨m, hm, heq, hp', h | ⟨h, hne⟩⟩ := S.move hn hp (by simp)
    · obtain ⟨⟨pc', held'⟩, h3, h4⟩ := h
      cases h4
      exact ⟨m + 1, by omega, _, held', h3⟩
    · have hc' : (σ m).grp.clients[cl]? = some client := (place_lock heq hp).trans hc
      have hul : Group.Locking r client := by
        obtain ⟨q, vs, ss, h1, h2, -⟩ := S.follows m (by omega)
        rw [hp'] at h1
        cases h1
        cases h2 with
        | lock _ _ hc2 hl2 => rw [hc'] at hc2; cases hc2; exact hl2
      obtain ⟨client', h5, h6⟩ := (S.run.step m).client (S.run.run m) hp' (by simp [Proc.clients])
        (fun r' => (S.run.step m).no_gives hp' (by simp) r' cl)
        (P := fun x => x = client ∨ Group.work x < Group.work client) (fun {es G x} a b hx d => by
          rw [hc'] at b
          cases b
          obtain ⟨y, e1, e2⟩ := a.locking_down hc' hul d
          exact ⟨y, e1, e2⟩) hc' (.inl rfl)
      rcases h6 with rfl | h6
      · exact absurd (by rw [place_of h, place_of hp']; simp [h5, hc']) hne
      · obtain ⟨m', hm', z⟩ := ih _ (hk ▸ h6) (by omega) h _ h5 rfl
        exact ⟨m', by omega, z⟩

theorem Served.finish {n0 : ℕ} (S : Served Q w σ it c n0) {p : Prog A} {n : ℕ} (hn : n0 < n) {held : List (ℕ × ℕ)}
    (hp : (σ n).procs[c]? = some ⟨.run p, held⟩) : ∃ m ≥ n, ∃ a held', (σ m).procs[c]? = some ⟨.run (.ret a), held'⟩ := by
  induction p generalizing n held with
  | ret a => exact ⟨n, le_rfl, a, held, hp⟩
  | op cmd k ih =>
    have glue : ∀ {m x held'}, n ≤ m → (σ m).procs[c]? = some ⟨.run (k x), held'⟩ →
        ∃ m ≥ n, ∃ a held', (σ m).procs[c]? = some ⟨.run (.ret a), held'⟩ := by
      intro m x held' h1 h2
      obtain ⟨m', h3, z⟩ := ih x (by omega : n0 < m) h2
      exact ⟨m', by omega, z⟩
    obtain ⟨m, hm, heq, hp', h | ⟨h, hne⟩⟩ := S.move hn hp (by simp)
    · obtain ⟨⟨pc', held'⟩, h3, h4⟩ := h
      cases h4 with
      | own _ _ x => exact glue (by omega) h3
      | asks cl r _ =>
        obtain ⟨m', h5, t, held'', h6⟩ := S.locked (by omega) h3
        exact glue (by omega) h6
      | gives cl r _ =>
        obtain ⟨m', h5, held'', h6⟩ := S.unlocked (by omega) h3
        exact glue (by omega) h6
    · exact absurd (by rw [place_of h, place_of hp']) hne

/-- a finished goroutine stays finished -/
theorem Forever.stays (F : Forever w σ it) {n : ℕ} {a : A} {held : List (ℕ × ℕ)} (hp : (σ n).procs[c]? = some ⟨.run (.ret a), held⟩)
    {m : ℕ} (hm : n ≤ m) : (σ m).procs[c]? = some ⟨.run (.ret a), held⟩ := by
  induction m, hm using Nat.le_induction with
  | base => exact hp
  | succ m hm ih =>
    rcases (F.step m).next ih with h | ⟨p', -, h⟩
    · exact h
    · cases h

/-- in a fair run a polite program ends and holds nothing -/
theorem polite_fair {p : Prog A} (hp : Polite p) : Finishes w p := by
  intro σ it F hk hl c n0 hf h0
  have hfol : ∀ n > n0, FollowsC _ c (σ n) := fun n hn => F.follows hk (hp []) h0 hn
  have S : Served _ w σ it c n0 := ⟨F, hfol, hf, hl⟩
  have hst : (σ (n0 + 1)).procs[c]? = some ⟨.run p, []⟩ := by
    have hs := F.step n0
    generalize it n0 = i at hs h0
    generalize σ (n0 + 1) = t at hs ⊢
    cases hs <;> cases h0
    simp
  obtain ⟨n, hn, a, held, h1⟩ := S.finish (by omega : n0 < n0 + 1) hst
  have hheld : held = [] := by
    obtain ⟨q, vs, ss, h3, h4, -⟩ := hfol n (by omega)
    rw [h1] at h3
    cases h3
    cases h4 with
    | run hw hl =>
      obtain rfl : ss = [] := hw
      cases hl
      rfl
  subst hheld
  exact ⟨n, by omega, a, fun m hm => F.stays h1 hm⟩

/-! ### Runs that come to rest -/

/-- a run that has ended can be continued -/
theorem Run.forever {tr : List (Item A)} {s : St A} (h : Run w tr s) {τ : ℕ → St A} {jt : ℕ → Item A} (h0 : τ 0 = s)
    (ht : ∀ n, Step w (τ n) (jt n) (τ (n + 1))) :
    ∃ σ it, Forever w σ it ∧ (∀ n, σ (tr.length + n) = τ n) ∧ (∀ n, it (tr.length + n) = jt n) ∧
      ∀ i (hi : i < tr.length), it i = tr[i] := by
  induction h generalizing τ jt with
  | nil => exact ⟨τ, jt, ⟨h0, ht⟩, by simp, by simp, by simp⟩
  | @snoc tr s i s' _ hs ih =>
    obtain ⟨σ, it, h1, h2, h3, h4⟩ := ih (τ := fun | 0 => s | n + 1 => τ n) (jt := fun | 0 => i | n + 1 => jt n) rfl fun n => by
      cases n with
      | zero => dsimp only; rw [h0]; exact hs
      | succ n => exact ht n
    refine ⟨σ, it, h1, fun n => ?_, fun n => ?_, fun j hj => ?_⟩
    · rw [List.length_append, List.length_singleton, Nat.add_assoc, Nat.add_comm 1 n, h2]
    · rw [List.length_append, List.length_singleton, Nat.add_assoc, Nat.add_comm 1 n, h3]
    · rw [List.getElem_append]
      split
      · exact h4 j _
      · have : j = tr.length := by simp at hj; omega
        subst this
        simpa using h3 0

/-- all calls have returned, all requests are closed, all event loops wait -/
structure Rests (s : St A) : Prop where
  procs : ∀ p ∈ s.procs, ∃ a, p.pc = .run (.ret a)
  clients : ∀ cl ∈ s.grp.clients, cl.pc = .closed
  loops : ∀ g ∈ s.grp.regions, g.loop = .select

theorem not_canMove {a : A} {held : List (ℕ × ℕ)} (hp : s.procs[c]? = some ⟨.run (.ret a), held⟩) : ¬ CanMove w s c := by
  rintro ⟨i, s', hs, hne⟩
  rcases hs.next hp with h | ⟨p', -, h⟩
  · exact hne (by rw [place_of h, place_of hp])
  · cases h

theorem Rests.loop (h : Rests s) (r : ℕ) : ¬ LoopCanMove w s r := by
  rintro ⟨i, s', hs, hne⟩
  apply hne
  have hno : ∀ {c' : ℕ} {cmd : Cmd} {k : cmd.Resp → Prog A} {held}, s.procs[c']? ≠ some ⟨.run (.op cmd k), held⟩ := by
    intro c' cmd k held e
    obtain ⟨a, ha⟩ := h.procs _ (List.mem_of_getElem? e)
    cases ha
  cases hs with
  | newGroup c' held k h1 => exact absurd h1 hno
  | loop es G h1 h2 h3 =>
    have hcl : ∀ {c' : ℕ} {cl}, s.grp.clients[c']? = some cl → cl.pc = .closed := fun e => h.clients _ (List.mem_of_getElem? e)
    have hsel : ∀ {r' : ℕ} {g}, s.grp.regions[r']? = some g → g.loop = .select := fun e => h.loops _ (List.mem_of_getElem? e)
    show Option.map Group.Region.loop G.regions[r]? = Option.map Group.Region.loop s.grp.regions[r]?
    cases h1 with
    | newGroup f => simp at h2
    | send c1 cl1 cl' r g n hc1 hg hl hsend =>
      have := hcl hc1
      rcases Group.send_cases hsend with ⟨hp, -⟩ | ⟨todo, hp, -⟩ <;> rw [hp] at this <;> cases this
    | handle r g n hg hl => rw [hsel hg] at hl; cases hl
    | updated r g t hg hl => rw [hsel hg] at hl; cases hl
    | receive c1 cl1 cl' r g t hc1 hg hl hrec => rw [hsel hg] at hl; cases hl
    | fnSend c1 cl1 r f g hc1 hp hg hl => rw [hcl hc1] at hp; cases hp
    | fnHandle r f g hg hl => rw [hsel hg] at hl; cases hl
    | fnReceive c1 cl1 r g hc1 hp hg hl => rw [hsel hg] at hl; cases hl
    | _ => rfl
  | _ => rfl

/-- a run that has come to rest can go on for ever, and this is fair to everybody who has finished -/
theorem Rests.forever {tr : List (Item A)} {s : St A} (hr : Run w tr s) (h : Rests s) (hk : ∀ i ∈ tr, KnownGroup i) :
    ∃ σ it, Forever w σ it ∧ (∀ n, KnownGroup (it n)) ∧ (∀ r, LoopRuns w σ r) ∧
      (∀ c, c < s.procs.length → FairTo w σ c) ∧ (∀ i (hi : i < tr.length), it i = tr[i]) ∧ ∀ n, (σ (tr.length + n)).mem = s.mem := by
  let τ : ℕ → St A := fun n => n.rec s fun _ s => { s with grp := { s.grp with nextId := i64 (s.grp.nextId + 1) } }
  let jt : ℕ → Item A := fun n => ⟨.loop, [.newOther (τ n).grp.nextId], (τ n).mem, (τ n).mem⟩
  have hτ : ∀ n, (τ n).mem = s.mem ∧ (τ n).procs = s.procs ∧ (τ n).grp.clients = s.grp.clients ∧ (τ n).grp.regions = s.grp.regions := by
    intro n
    induction n with
    | zero => exact ⟨rfl, rfl, rfl, rfl⟩
    | succ n ih => exact ih
  obtain ⟨σ, it, h1, h2, h3, h4⟩ := hr.forever (τ := τ) (jt := jt) rfl fun n =>
    .loop (τ n) _ _ (.newOther (τ n).grp) rfl fun _ _ _ _ _ e _ => e
  have hres : ∀ n, Rests (τ n) := fun n =>
    ⟨by rw [(hτ n).2.1]; exact h.procs, by rw [(hτ n).2.2.1]; exact h.clients, by rw [(hτ n).2.2.2]; exact h.loops⟩
  refine ⟨σ, it, h1, fun n => ?_, fun r => ?_, fun c hc => ?_, h4, fun n => by rw [h2, (hτ n).1]⟩
  · by_cases hn : n < tr.length
    · rw [h4 n hn]; exact hk _ (List.getElem_mem hn)
    · obtain ⟨d, rfl⟩ := Nat.exists_eq_add_of_le (not_lt.mp hn)
      rw [h3]
      rintro d name desc v r (⟨c, e⟩ | ⟨q, e⟩) <;> cases e
  · rintro ⟨n, hn⟩
    have := hn (tr.length + n) (by omega)
    rw [h2] at this
    exact absurd this ((hres n).loop r)
  · intro hmv
    obtain ⟨m, hm, hcm⟩ := hmv tr.length
    obtain ⟨d, rfl⟩ := Nat.exists_eq_add_of_le hm
    rw [h2] at hcm
    have hp := List.getElem?_eq_getElem hc
    obtain ⟨a, ha⟩ := h.procs _ (List.getElem_mem hc)
    refine absurd hcm (not_canMove (a := a) (held := (s.procs[c]'hc).held) ?_)
    rw [(hτ d).2.1, hp, ← ha]

end

end Tricorder.Whole
