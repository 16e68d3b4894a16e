import Verif.Proof.Group2
/-! # Groups: what a request has seen; all invariants; progress -/

namespace Tricorder.Group
open Go

variable {τ : Type} [Inhabited τ]

/-- before `Close` -/
def isOpen : PC τ → Bool
  | .user | .lockSend _ | .lockRecv _ | .lockDone _ _ | .fnSend _ _ | .fnRecv _ => true
  | _ => false

/-- the request is open and has got time `t` for group `r` -/
def seen (cl : Client τ) (r : Rid) (t : τ) : Prop :=
  isOpen cl.pc = true ∧ ((r, t) ∈ cl.visited ∨ cl.pc = .lockDone r t)

omit [Inhabited τ] in
theorem seen_holding {cl : Client τ} {r : Rid} {t : τ} (h : seen cl r t) : holding cl r = 1 := by
  obtain ⟨h1, h2⟩ := h
  have hm : (r, t) ∈ cl.visited → r ∈ cl.visited.map Prod.fst := fun h => List.mem_map.2 ⟨_, h, rfl⟩
  unfold holding
  cases hp : cl.pc <;> rw [hp] at h1 h2 <;> simp only [isOpen, Bool.false_eq_true] at h1
  all_goals simp only [reduceCtorEq, or_false, PC.lockDone.injEq] at h2
  all_goals try simp only [hm h2, List.mem_cons, or_true, if_true]
  rcases h2 with h2 | ⟨rfl, -⟩
  · simp only [hm h2, List.mem_cons, or_true, if_true]
  · simp

def Inv4 (tr : List (Ev τ)) (s : State τ) : Prop :=
  ∀ (c : Cid) (cl : Client τ) r t, s.clients[c]? = some cl → seen cl r t →
    lastUpdate r tr = some t ∧ ∀ g : Region τ, s.regions[r]? = some g → g.loop ≠ .calling

omit [Inhabited τ] in
theorem Inv4.setC {tr : List (Ev τ)} {s : State τ} (h : Inv4 tr s) {c : Cid} {cl cl' : Client τ}
    (hc : s.clients[c]? = some cl)
    (hs : ∀ r t, seen cl' r t → seen cl r t) : Inv4 tr (s.setC c cl') := by
  intro c1 cl1 r t hc1 hse
  have hlt : c < s.clients.length := (List.getElem?_eq_some_iff.1 hc).1
  simp only [State.setC, List.getElem?_set, hlt, if_true] at hc1
  split at hc1
  · cases hc1; exact h c cl r t hc (hs r t hse)
  · exact h c1 cl1 r t hc1 hse

omit [Inhabited τ] in
theorem Inv4.setR {tr : List (Ev τ)} {s : State τ} (h : Inv4 tr s) {r : Rid} {g : Region τ}
    (hl : g.loop ≠ .calling) : Inv4 tr (s.setR r g) := by
  intro c cl r1 t hc hse
  obtain ⟨e1, e2⟩ := h c cl r1 t hc hse
  refine ⟨e1, fun g1 hg1 => ?_⟩
  simp only [State.setR, List.getElem?_set] at hg1
  split at hg1
  · split at hg1 <;> cases hg1; exact hl
  · exact e2 g1 hg1

omit [Inhabited τ] in
theorem Inv4.quiet {tr : List (Ev τ)} {s : State τ} (h : Inv4 tr s) {e : Ev τ}
    (he : ∀ r, lastUpdate r (tr ++ [e]) = lastUpdate r tr) : Inv4 (tr ++ [e]) s := by
  intro c cl r t hc hse
  rw [he]; exact h c cl r t hc hse

theorem inv4_step {tr : List (Ev τ)} {s s' : State τ} {es : List (Ev τ)} (h : Inv4 tr s) (h1 : Inv1 s)
    (h2 : Inv2 tr s) (h3 : Inv3 tr s) (hs : Step s es s') : Inv4 (tr ++ es) s' := by
  cases hs with
  | newGroup f =>
    refine Inv4.quiet ?_ (fun r => by rw [lastUpdate_snoc])
    intro c cl r t hc hse
    obtain ⟨e1, e2⟩ := h c cl r t hc hse
    refine ⟨e1, fun g hg => ?_⟩
    rw [List.getElem?_append] at hg
    split at hg
    · exact e2 g hg
    · have : g = newRegion s.nextId f := by
        have := List.mem_of_getElem? hg
        simpa using this
      subst this; simp [newRegion]
  | newOther =>
    have h' : Inv4 tr { s with nextId := i64 (s.nextId + 1) } := h
    exact h'.quiet (fun r => by rw [lastUpdate_snoc])
  | openSession =>
    refine Inv4.quiet ?_ (fun r => by rw [lastUpdate_snoc])
    intro c cl r t hc hse
    simp only [List.getElem?_append] at hc
    split at hc
    · exact h c cl r t hc hse
    · have : cl = ⟨[], .user⟩ := by
        have := List.mem_of_getElem? hc
        simpa using this
      subst this
      simp [seen] at hse
  | visitAgain c cl r t hc hp hv => exact h.quiet (fun r => by rw [lastUpdate_snoc])
  | visitNew c cl r hc hp hr hv =>
    rw [(visit_none hv).1, List.append_nil]
    exact h.setC hc (fun r' t' => by simp [seen, hp, isOpen])
  | visitClosed c cl hc hp =>
    rw [List.append_nil]
    exact h.setC hc (fun r' t' => by simp [seen, isOpen])
  | send c cl cl' r g n hc hg hl hsend =>
    refine Inv4.quiet ?_ (fun r => by rw [lastUpdate_snoc])
    refine Inv4.setR ?_ (by simp)
    rcases send_cases hsend with ⟨hp, rfl, rfl⟩ | ⟨todo, hp, rfl, rfl⟩
    · exact h.setC hc (fun r' t' => by simp [seen, hp, isOpen])
    · exact h.setC hc (fun r' t' => by simp [seen, isOpen])
  | handle r g n hg hl =>
    have key : Inv4 tr (s.setR r (g.handleLockUnlock n)) := by
      by_cases hcall : (g.handleLockUnlock n).loop = .calling
      · -- the first to lock: nobody holds the group
        have hk := h2.loop r g hg
        simp only [loopOK, hl] at hk
        have hz : g.lockCount = 0 ∧ g.lockCount + n > 0 := by
          unfold Region.handleLockUnlock at hcall
          simp only at hcall
          split at hcall
          · simp at hcall
          · split at hcall
            · next hz => exact hz
            · simp at hcall
        have hk' : n = 1 ∧ Option.map Prod.snd (pend r tr) = some Kind.lock := by
          rcases hk with hk | hk
          · exact hk
          · have := hk.1; omega
        obtain ⟨rfl, hk1⟩ := hk'
        obtain ⟨⟨c0, k0⟩, hpend, rfl⟩ := Option.map_eq_some_iff.1 hk1
        obtain ⟨cl0, hc0, hw0⟩ := h2.owner r c0 _ hpend
        have hp0 : cl0.pc = .lockRecv r := by
          revert hw0
          cases cl0.pc <;> simp [waitsFor]
        have hcount := h3.count r g hg
        simp only [pendingInc, hl] at hcount
        rw [h3.total r] at hcount
        intro c cl r1 t hc hse
        obtain ⟨e1, e2⟩ := h c cl r1 t hc hse
        refine ⟨e1, fun g1 hg1 => ?_⟩
        simp only [State.setR, List.getElem?_set] at hg1
        split at hg1
        · next hr =>
          exfalso
          subst hr
          have hne : c ≠ c0 := by
            rintro rfl
            rw [State.setR] at hc
            rw [hc0] at hc; cases hc
            have ok := h1 c cl0 hc0
            simp only [ClientOK, hp0] at ok
            have := hse.2
            rw [hp0] at this
            simp only [reduceCtorEq, or_false] at this
            exact ok.2.2.1 (List.mem_map.2 ⟨_, this, rfl⟩)
          have hc' : s.clients[c]? = some cl := hc
          have := sum_ge_two (fun cl => holding cl r) (fun a => holding_nonneg a r) s.clients c c0 cl cl0 hc' hc0 hne
          have a1 := seen_holding hse
          have a2 : holding cl0 r = 1 := by simp [holding, hp0]
          simp only [a1, a2] at this
          omega
        · exact e2 g1 hg1
      · exact h.setR hcall
    unfold Region.handleEvents
    split
    · exact key.quiet (fun r => by rw [lastUpdate_snoc])
    · rwa [List.append_nil]
  | updated r g t hg hl =>
    intro c cl r1 t1 hc hse
    obtain ⟨e1, e2⟩ := h c cl r1 t1 hc hse
    have hne : r ≠ r1 := by rintro rfl; exact e2 g hg hl
    rw [lastUpdate_snoc]
    simp only [if_neg hne]
    refine ⟨e1, fun g1 hg1 => ?_⟩
    simp only [State.setR, List.getElem?_set, if_neg hne] at hg1
    exact e2 g1 hg1
  | receive c cl cl' r g t hc hg hl hrec =>
    refine Inv4.quiet ?_ (fun r => by rw [lastUpdate_snoc])
    refine Inv4.setR ?_ (by simp)
    rcases receive_cases hrec with ⟨hp, rfl⟩ | ⟨todo, hp, rfl⟩
    · intro c1 cl1 r1 t1 hc1 hse
      have hlt : c < s.clients.length := (List.getElem?_eq_some_iff.1 hc).1
      simp only [State.setC, List.getElem?_set, hlt, if_true] at hc1
      split at hc1
      · cases hc1
        obtain ⟨-, hse | hse⟩ := hse
        · exact h c cl r1 t1 hc ⟨by simp [hp, isOpen], .inl hse⟩
        · simp only [PC.lockDone.injEq] at hse
          obtain ⟨rfl, rfl⟩ := hse
          have hk := h2.loop r g hg
          simp only [loopOK, hl] at hk
          have hcount := h3.count r g hg
          simp only [pendingInc, hl] at hcount
          rw [h3.total r] at hcount
          have hsum := sum_ge_one (fun cl => holding cl r) (fun a => holding_nonneg a r) s.clients c cl hc
          have a2 : holding cl r = 1 := by simp [holding, hp]
          simp only [a2] at hsum
          have hlast := h3.last r g hg
          refine ⟨?_, ?_⟩
          · rcases h3.upd r g hg (by omega) with hh | hh
            · rw [hl] at hh; cases hh
            · obtain ⟨u, hu⟩ := Option.isSome_iff_exists.1 hh
              rw [hu] at hlast ⊢
              rw [hk.2, hlast]; rfl
          · intro g1 hg1
            have hg1' : s.regions[r]? = some g1 := hg1
            rw [hg] at hg1'; cases hg1'; rw [hl]; simp
      · exact h c1 cl1 r1 t1 hc1 hse
    · exact h.setC hc (fun r' t' => by simp [seen, isOpen])
  | visitDone c cl r t hc hp =>
    refine Inv4.quiet ?_ (fun r => by rw [lastUpdate_snoc])
    refine h.setC hc (fun r' t' => ?_)
    simp only [seen, hp, isOpen, List.mem_cons, Prod.mk.injEq, true_and, reduceCtorEq, or_false,
      PC.lockDone.injEq]
    rintro (⟨rfl, rfl⟩ | hh)
    · exact .inr ⟨rfl, rfl⟩
    · exact .inl hh
  | closeBegin c cl hc hp =>
    refine Inv4.quiet ?_ (fun r => by rw [lastUpdate_snoc])
    exact h.setC hc (fun r' t' => by simp [seen, isOpen])
  | closeNext c cl r todo hc hp hr =>
    rw [List.append_nil]
    exact h.setC hc (fun r' t' => by simp [seen, isOpen])
  | closeEnd c cl hc hp =>
    refine Inv4.quiet ?_ (fun r => by rw [lastUpdate_snoc])
    exact h.setC hc (fun r' t' => by simp [seen, isOpen])
  | closeAgain c cl hc hp => rwa [List.append_nil]
  | fnBegin c cl r f hc hp hr =>
    rw [List.append_nil]
    exact h.setC hc (fun r' t' => by simp [seen, hp, isOpen])
  | fnSend c cl r f g hc hp hg hl =>
    refine Inv4.quiet ?_ (fun r => by rw [lastUpdate_snoc])
    refine Inv4.setR ?_ (by simp)
    exact h.setC hc (fun r' t' => by simp [seen, hp, isOpen])
  | fnHandle r f g hg hl =>
    rw [List.append_nil]
    exact h.setR (by simp)
  | fnReceive c cl r g hc hp hg hl =>
    refine Inv4.quiet ?_ (fun r => by rw [lastUpdate_snoc])
    refine Inv4.setR ?_ (by simp)
    exact h.setC hc (fun r' t' => by simp [seen, hp, isOpen])

/-- all invariants -/
structure Inv (tr : List (Ev τ)) (s : State τ) : Prop where
  i1 : Inv1 s
  i2 : Inv2 tr s
  i3 : Inv3 tr s
  i4 : Inv4 tr s

theorem inv_init : Inv ([] : List (Ev τ)) (init τ) := by
  refine ⟨?_, ⟨?_, ?_, ?_⟩, ⟨?_, ?_, ?_, ?_, ?_, ?_, ?_, ?_, ?_⟩, ?_⟩
  all_goals simp [init, Inv1, Inv4, holds, accepted, lastUpdate]

theorem inv_step {tr : List (Ev τ)} {s s' : State τ} {es : List (Ev τ)} (h : Inv tr s) (hs : Step s es s') :
    Inv (tr ++ es) s' :=
  ⟨inv1_step h.i1 hs, inv2_step h.i2 h.i1 hs, inv3_step h.i3 h.i1 h.i2 hs, inv4_step h.i4 h.i1 h.i2 h.i3 hs⟩

theorem inv_run {tr tr' : List (Ev τ)} {s s' : State τ} (h : Inv tr s) (hr : Run s tr' s') :
    Inv (tr ++ tr') s' := by
  induction hr with
  | nil => simpa using h
  | snoc _ hs ih => rw [← List.append_assoc]; exact inv_step ih hs

theorem inv_of_run {tr : List (Ev τ)} {s : State τ} (hr : Run (init τ) tr s) : Inv tr s := by
  simpa using inv_run inv_init hr

/-! ### Progress -/

/-- work left to a goroutine -/
def work (cl : Client τ) : ℕ :=
  match cl.pc with
  | .user => 2 + 20 * cl.visited.length
  | .lockSend _ => 43 + 20 * cl.visited.length
  | .lockRecv _ => 29 + 20 * cl.visited.length
  | .lockDone _ _ => 23 + 20 * cl.visited.length
  | .fnSend _ _ => 20 + 20 * cl.visited.length
  | .fnRecv _ => 6 + 20 * cl.visited.length
  | .closing todo => 1 + 20 * todo.length
  | .unlockSend _ todo => 19 + 20 * todo.length
  | .unlockRecv _ todo => 5 + 20 * todo.length
  | .closed | .panicked => 0

def loopWork (g : Region τ) : ℕ :=
  match g.loop with
  | .select | .crashed => 0
  | .handle _ => 9
  | .calling => 8
  | .reply _ => 7
  | .handleFn _ => 9
  | .replyFn => 7

def total (s : State τ) : ℕ := (s.clients.map work).sum + (s.regions.map loopWork).sum

theorem nsum_set {α : Type} (f : α → ℕ) (l : List α) (i : ℕ) (x y : α) (h : l[i]? = some x) :
    ((l.set i y).map f).sum + f x = (l.map f).sum + f y := by
  induction l generalizing i with
  | nil => cases h
  | cons a l ih =>
    cases i with
    | zero => simp at h; subst h; simp; ring
    | succ i =>
      simp only [List.getElem?_cons_succ] at h
      have := ih i h
      simp only [List.set_cons_succ, List.map_cons, List.sum_cons]; omega

omit [Inhabited τ] in
theorem total_setC {s : State τ} {c : Cid} {cl cl' : Client τ} (h : s.clients[c]? = some cl) :
    total (s.setC c cl') + work cl = total s + work cl' := by
  have := nsum_set work s.clients c cl cl' h
  simp only [total, State.setC]; omega

omit [Inhabited τ] in
theorem total_setR {s : State τ} {r : Rid} {g g' : Region τ} (h : s.regions[r]? = some g) :
    total (s.setR r g') + loopWork g = total s + loopWork g' := by
  have := nsum_set loopWork s.regions r g g' h
  simp only [total, State.setR]; omega

/-- request finished (or its goroutine panicked after finishing) -/
def isDone (cl : Client τ) : Bool :=
  match cl.pc with
  | .closed | .panicked => true
  | _ => false

/-- a goroutine inside the session or group code, i.e. not in user code -/
def isInside (cl : Client τ) : Bool :=
  match cl.pc with
  | .closed | .panicked | .user => false
  | _ => true

/-- if a loop is busy it can move on -/
theorem loop_progress {tr : List (Ev τ)} {s : State τ} (h : Inv tr s) (r : Rid) (g : Region τ)
    (hg : s.regions[r]? = some g) (hl : g.loop ≠ .select) :
    ∃ es s', Step s es s' ∧ total s' < total s ∧ s'.clients.length = s.clients.length := by
  have hk := h.i2.loop r g hg
  have hal := (h.i3.alive r g hg).2
  match hgl : g.loop with
  | .select => exact absurd hgl hl
  | .crashed => exact absurd hgl hal
  | .handle n =>
    refine ⟨_, _, .handle s r g n hg hgl, ?_, rfl⟩
    have := total_setR (g' := g.handleLockUnlock n) hg
    have a : loopWork g = 9 := by simp [loopWork, hgl]
    have b : loopWork (g.handleLockUnlock n) ≤ 8 := by
      unfold Region.handleLockUnlock; simp only
      split
      · simp [loopWork]
      · split <;> simp [loopWork]
    omega
  | .calling =>
    refine ⟨_, _, .updated s r g default hg hgl, ?_, rfl⟩
    have := total_setR (g' := { g with updateTime := default, loop := .reply default }) hg
    have a : loopWork g = 8 := by simp [loopWork, hgl]
    have b : loopWork ({ g with updateTime := default, loop := .reply default } : Region τ) = 7 := by simp [loopWork]
    omega
  | .reply t =>
    simp only [loopOK, hgl] at hk
    have hsome : ∃ k, Option.map Prod.snd (pend r tr) = some k ∧ (k = .lock ∨ k = .unlock) := by
      rcases hk.1 with hk | hk
      · exact ⟨_, hk, .inl rfl⟩
      · exact ⟨_, hk, .inr rfl⟩
    obtain ⟨k, hk1, hk2⟩ := hsome
    obtain ⟨⟨c, k'⟩, hpend, rfl⟩ := Option.map_eq_some_iff.1 hk1
    obtain ⟨cl, hc, hw⟩ := h.i2.owner r c _ hpend
    have hrec : ∃ cl', cl.receive r t = some cl' ∧ work cl' < work cl := by
      cases hp : cl.pc <;> rw [hp] at hw <;>
        simp only [waitsFor, reduceCtorEq, Option.some.injEq, Prod.mk.injEq] at hw
      · obtain ⟨rfl, -⟩ := hw
        refine ⟨_, (by simp only [Client.receive, hp, if_true]; rfl), ?_⟩
        simp [work, hp]
      · obtain ⟨rfl, -⟩ := hw
        refine ⟨_, (by simp only [Client.receive, hp, if_true]; rfl), ?_⟩
        simp [work, hp]
      · obtain ⟨-, e⟩ := hw
        dsimp only at hk2; rw [← e] at hk2; simp at hk2
    obtain ⟨cl', hrec, hwork⟩ := hrec
    refine ⟨_, _, .receive s c cl cl' r g t hc hg hgl hrec, ?_, by simp [State.setR, State.setC]⟩
    have e1 := total_setC (cl' := cl') hc
    have e2 := total_setR (s := s.setC c cl') (g' := { g with loop := .select }) hg
    have a : loopWork g = 7 := by simp [loopWork, hgl]
    have b : loopWork ({ g with loop := .select } : Region τ) = 0 := by simp [loopWork]
    omega
  | .handleFn f =>
    refine ⟨_, _, .fnHandle s r f g hg hgl, ?_, rfl⟩
    have := total_setR (g' := { g with updateFunc := f, loop := .replyFn }) hg
    have a : loopWork g = 9 := by simp [loopWork, hgl]
    have b : loopWork ({ g with updateFunc := f, loop := .replyFn } : Region τ) = 7 := by simp [loopWork]
    omega
  | .replyFn =>
    simp only [loopOK, hgl] at hk
    obtain ⟨⟨c, k'⟩, hpend, rfl⟩ := Option.map_eq_some_iff.1 hk
    obtain ⟨cl, hc, hw⟩ := h.i2.owner r c _ hpend
    have hp : cl.pc = .fnRecv r := by
      cases hp : cl.pc <;> rw [hp] at hw <;>
        simp only [waitsFor, reduceCtorEq, Option.some.injEq, Prod.mk.injEq, and_false] at hw
      rw [hw.1]
    refine ⟨_, _, .fnReceive s c cl r g hc hp hg hgl, ?_, by simp [State.setR, State.setC]⟩
    have e1 := total_setC (cl' := { cl with pc := .user }) hc
    have e2 := total_setR (s := s.setC c { cl with pc := .user }) (g' := { g with loop := .select }) hg
    have a : loopWork g = 7 := by simp [loopWork, hgl]
    have b : loopWork ({ g with loop := .select } : Region τ) = 0 := by simp [loopWork]
    have a' : work cl = 6 + 20 * cl.visited.length := by simp [work, hp]
    have b' : work ({ cl with pc := .user } : Client τ) = 2 + 20 * cl.visited.length := by simp [work]
    omega

/-- if all loops are idle an unfinished request can move on -/
theorem client_progress {tr : List (Ev τ)} {s : State τ} (h : Inv tr s)
    (hidle : ∀ (r : Rid) (g : Region τ), s.regions[r]? = some g → g.loop = .select)
    (c : Cid) (cl : Client τ) (hc : s.clients[c]? = some cl) (hd : isDone cl = false) :
    ∃ es s', Step s es s' ∧ total s' < total s ∧ s'.clients.length = s.clients.length := by
  have ok := h.i1 c cl hc
  have nowait : ∀ r k, waitsFor cl.pc ≠ some (r, k) := by
    intro r k hw
    have hp := h.i2.waits c cl r k hc hw
    have hlt := waits_lt ok hw
    have hg := List.getElem?_eq_getElem hlt
    have hk := h.i2.loop r _ hg
    simp only [loopOK, hidle r _ hg, hp] at hk
    simp at hk
  have setC_case : ∀ (es : List (Ev τ)) (cl' : Client τ), Step s es (s.setC c cl') → work cl' < work cl →
      ∃ es s', Step s es s' ∧ total s' < total s ∧ s'.clients.length = s.clients.length := by
    intro es cl' hst hw
    have := total_setC (cl' := cl') hc
    exact ⟨es, _, hst, by omega, by simp [State.setC]⟩
  match hp : cl.pc with
  | .user => exact setC_case _ _ (.closeBegin s c cl hc hp) (by simp [work, hp])
  | .lockSend r =>
    simp only [ClientOK, hp] at ok
    obtain ⟨g, hg⟩ : ∃ g, s.regions[r]? = some g := ⟨_, List.getElem?_eq_getElem ok.2.2.2⟩
    refine ⟨_, _, .send s c cl { cl with pc := .lockRecv r } r _ 1 hc hg (hidle r _ hg)
      (by simp [Client.send, hp]), ?_, by simp [State.setR, State.setC]⟩
    have e1 := total_setC (cl' := { cl with pc := .lockRecv r }) hc
    have e2 := total_setR (s := s.setC c { cl with pc := .lockRecv r })
      (g' := { g with loop := .handle 1 }) hg
    have a : loopWork g = 0 := by simp [loopWork, hidle r _ hg]
    have b : loopWork ({ g with loop := .handle 1 } : Region τ) = 9 := by simp [loopWork]
    have a' : work cl = 43 + 20 * cl.visited.length := by simp [work, hp]
    have b' : work ({ cl with pc := .lockRecv r } : Client τ) = 29 + 20 * cl.visited.length := by simp [work]
    omega
  | .lockRecv r => exact absurd (by simp [waitsFor, hp]) (nowait r .lock)
  | .lockDone r t =>
    exact setC_case _ _ (.visitDone s c cl r t hc hp) (by simp [work, hp]; try omega)
  | .closing [] => exact setC_case _ _ (.closeEnd s c cl hc hp) (by simp [work, hp])
  | .closing (r :: todo) =>
    exact setC_case _ _ (.closeNext s c cl r (r :: todo) hc hp (by simp)) (by simp [work, hp]; omega)
  | .unlockSend r todo =>
    simp only [ClientOK, hp] at ok
    obtain ⟨g, hg⟩ : ∃ g, s.regions[r]? = some g := ⟨_, List.getElem?_eq_getElem ok.2.2.2.1⟩
    refine ⟨_, _, .send s c cl { cl with pc := .unlockRecv r todo } r _ (-1) hc hg (hidle r _ hg)
      (by simp [Client.send, hp]), ?_, by simp [State.setR, State.setC]⟩
    have e1 := total_setC (cl' := { cl with pc := .unlockRecv r todo }) hc
    have e2 := total_setR (s := s.setC c { cl with pc := .unlockRecv r todo })
      (g' := { g with loop := .handle (-1) }) hg
    have a : loopWork g = 0 := by simp [loopWork, hidle r _ hg]
    have b : loopWork ({ g with loop := .handle (-1) } : Region τ) = 9 := by simp [loopWork]
    have a' : work cl = 19 + 20 * todo.length := by simp [work, hp]
    have b' : work ({ cl with pc := .unlockRecv r todo } : Client τ) = 5 + 20 * todo.length := by simp [work]
    omega
  | .unlockRecv r todo => exact absurd (by simp [waitsFor, hp]) (nowait r .unlock)
  | .closed => simp [isDone, hp] at hd
  | .panicked => simp [isDone, hp] at hd
  | .fnSend r f =>
    simp only [ClientOK, hp] at ok
    obtain ⟨g, hg⟩ : ∃ g, s.regions[r]? = some g := ⟨_, List.getElem?_eq_getElem ok.2.2⟩
    refine ⟨_, _, .fnSend s c cl r f _ hc hp hg (hidle r _ hg), ?_, by simp [State.setR, State.setC]⟩
    have e1 := total_setC (cl' := { cl with pc := .fnRecv r }) hc
    have e2 := total_setR (s := s.setC c { cl with pc := .fnRecv r })
      (g' := { g with loop := .handleFn f }) hg
    have a : loopWork g = 0 := by simp [loopWork, hidle r _ hg]
    have b : loopWork ({ g with loop := .handleFn f } : Region τ) = 9 := by simp [loopWork]
    have a' : work cl = 20 + 20 * cl.visited.length := by simp [work, hp]
    have b' : work ({ cl with pc := .fnRecv r } : Client τ) = 6 + 20 * cl.visited.length := by simp [work]
    omega
  | .fnRecv r => exact absurd (by simp [waitsFor, hp]) (nowait r .fn)

/-- everything can be finished -/
theorem finish_all {tr : List (Ev τ)} {s : State τ} (h : Inv tr s) :
    ∃ tr' s', Run s tr' s' ∧ s'.clients.length = s.clients.length ∧
      (∀ cl ∈ s'.clients, isDone cl = true) ∧ (∀ g ∈ s'.regions, g.loop = .select) := by
  generalize hn : total s = n
  induction n using Nat.strong_induction_on generalizing tr s with
  | _ n ih =>
    by_cases hl : ∀ (r : Rid) (g : Region τ), s.regions[r]? = some g → g.loop = .select
    · by_cases hd : ∀ cl ∈ s.clients, isDone cl = true
      · refine ⟨[], s, .nil, rfl, hd, fun g hg => ?_⟩
        obtain ⟨i, hi⟩ := List.getElem?_of_mem hg
        exact hl i g hi
      · push Not at hd
        obtain ⟨cl, hm, hdone⟩ := hd
        obtain ⟨c, hc⟩ := List.getElem?_of_mem hm
        obtain ⟨es, s', hs, hlt, hlen⟩ := client_progress h hl c cl hc (by simpa using hdone)
        obtain ⟨tr', s2, hr, e, hd2, hl2⟩ := ih _ (by omega) (inv_step h hs) rfl
        exact ⟨_, s2, (Run.one hs).trans hr, e.trans hlen, hd2, hl2⟩
    · push Not at hl
      obtain ⟨r, g, hg, hne⟩ := hl
      obtain ⟨es, s', hs, hlt, hlen⟩ := loop_progress h r g hg hne
      obtain ⟨tr', s2, hr, e, hd2, hl2⟩ := ih _ (by omega) (inv_step h hs) rfl
      exact ⟨_, s2, (Run.one hs).trans hr, e.trans hlen, hd2, hl2⟩

end Tricorder.Group
