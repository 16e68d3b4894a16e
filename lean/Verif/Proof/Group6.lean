import Verif.Proof.Group5
import Verif.Proof.GroupSim
/-! # Groups: counting, replaced update functions, blocking, termination -/

namespace Tricorder.Group
open Go

variable {τ : Type} [Inhabited τ]

/-! ### Counting -/

theorem count_ones {α : Type} (f : α → ℤ) (hf : ∀ x, f x = 0 ∨ f x = 1) (h : ℕ → ℤ) (l : List α)
    (hh : ∀ i x, l[i]? = some x → h i = f x) :
    (l.map f).sum = (((List.range l.length).filter fun c => h c = 1).length : ℤ) := by
  induction l using List.reverseRecOn with
  | nil => rfl
  | append_singleton l x ih =>
    have hx : h l.length = f x := hh l.length x (by simp)
    have hl := ih fun i y hy => hh i y (by
      rw [List.getElem?_append_left (List.getElem?_eq_some_iff.1 hy).1]; exact hy)
    rw [List.map_append, List.sum_append, hl, List.length_append, List.length_singleton, List.range_succ, List.filter_append,
      List.length_append]
    rcases hf x with h0 | h0 <;> simp [hx, h0]

theorem holding_cases (cl : Client τ) (r : Rid) : holding cl r = 0 ∨ holding cl r = 1 := by
  have h1 := holding_nonneg cl r
  have h2 := holding_le cl r
  omega

theorem accepted_eq_holders {tr : List (Ev τ)} {s : State τ} (hi : Inv tr s) (r : Rid) :
    accepted r tr = (holders s.clients.length r tr : ℤ) := by
  rw [hi.i3.total r, holders]
  exact count_ones (fun cl => holding cl r) (fun cl => holding_cases cl r) (fun c => holds c r tr) s.clients
    (fun c cl hc => hi.i3.hold c cl r hc)

theorem holds_cases {tr : List (Ev τ)} {s : State τ} (hi : Inv tr s) (c : Cid) (r : Rid) :
    holds c r tr = 0 ∨ holds c r tr = 1 := by
  cases hc : s.clients[c]? with
  | none => exact .inl (hi.i3.hold0 c r (by simpa using hc))
  | some cl => rw [hi.i3.hold c cl r hc]; exact holding_cases cl r

theorem accepted_pos {tr : List (Ev τ)} {s : State τ} (hi : Inv tr s) {c : Cid} {r : Rid} (h : 0 < holds c r tr) :
    0 < accepted r tr := by
  rw [accepted_eq_holders hi, holders]
  have hlt : c < s.clients.length := by
    by_contra hge
    have := hi.i3.hold0 c r (by omega)
    omega
  have h1 : holds c r tr = 1 := by rcases holds_cases hi c r with h0 | h0 <;> omega
  have hm : c ∈ (List.range s.clients.length).filter fun c => holds c r tr = 1 := by simp [hlt, h1]
  have := List.length_pos_of_mem hm
  omega

theorem accepted_zero {tr : List (Ev τ)} {s : State τ} (hi : Inv tr s) {r : Rid} (h : ∀ c, holds c r tr = 0) :
    accepted r tr = 0 := by
  rw [accepted_eq_holders hi, holders]
  simp [h]

omit [Inhabited τ] in
theorem holds_eq_takes {c : Cid} {r : Rid} {tr : List (Ev τ)}
    (h : ∀ c r n, .accept c r n ∈ tr → n = 1 ∨ n = -1) :
    holds c r tr = (takes c r tr : ℤ) - (releases c r tr : ℤ) := by
  induction tr using List.reverseRecOn with
  | nil => rfl
  | append_singleton tr e ih =>
    have ih := ih fun c r n hn => h c r n (List.mem_append_left _ hn)
    rw [holds_snoc, ih]
    unfold takes releases
    rw [List.countP_append, List.countP_append]
    cases e <;> simp
    next c' r' n =>
    have hn := h c' r' n (by simp)
    by_cases hcr : c' = c ∧ r' = r
    · obtain ⟨rfl, rfl⟩ := hcr
      rcases hn with rfl | rfl <;> simp <;> ring
    · have h1 : ¬ (c' = c ∧ r' = r ∧ n = 1) := fun hh => hcr ⟨hh.1, hh.2.1⟩
      have h2 : ¬ (c' = c ∧ r' = r ∧ n = -1) := fun hh => hcr ⟨hh.1, hh.2.1⟩
      simp only [if_neg hcr, if_neg h1, if_neg h2]
      simp

theorem accept_unit {tr : List (Ev τ)} {s : State τ} (hr : Run (init τ) tr s) :
    ∀ c r n, .accept c r n ∈ tr → n = 1 ∨ n = -1 := by
  intro c r n hm
  obtain ⟨a, b, rfl⟩ := List.append_of_mem hm
  obtain ⟨-, s2, s3, -, -, hst, -, -⟩ := hr.cut
  obtain ⟨cl, g, -, -, -, h⟩ := hst.told
  rcases h with ⟨h, -⟩ | ⟨h, -⟩
  · exact .inl h
  · exact .inr h

/-! ### Replacing the update function -/

/-- from the acceptance of a new update function to the confirmation -/
theorem fn_phase {s0 s : State τ} {a b : List (Ev τ)} {c : Cid} {r : Rid} {f : Fn} {g0 : Region τ}
    (hi : Inv a s0) (hp : pend r a = some (c, .fn)) (hg0 : s0.regions[r]? = some g0)
    (hl0 : g0.loop = .handleFn f) (hr : Run s0 b s) (hno : .answerFn c r ∉ b) :
    (∃ g, s.regions[r]? = some g ∧ g.lockCount = g0.lockCount ∧ g.updateTime = g0.updateTime ∧
      (g.loop = .handleFn f ∨ (g.loop = .replyFn ∧ g.updateFunc = f))) ∧
    ∀ e ∈ b, isUpdate r e = false ∧ isTraffic r e = false := by
  induction hr with
  | nil => exact ⟨⟨g0, hg0, rfl, rfl, .inl hl0⟩, by simp⟩
  | @snoc b s es s' hr hs ih =>
    have hno1 : .answerFn c r ∉ b := fun h => hno (List.mem_append_left _ h)
    have hno2 : .answerFn c r ∉ es := fun h => hno (List.mem_append_right _ h)
    obtain ⟨⟨g, hg, h1, h2, hl⟩, hq⟩ := ih hno1
    have hi' := inv_run hi hr
    have hpe : pend r (a ++ b) = some (c, .fn) := by
      have hno3 : ∀ t, .answer c r t ∉ b := by
        intro t ht
        have := (hq _ ht).2
        simp [isTraffic] at this
      exact (serving hi hp hr hno3 hno1).1
    obtain ⟨g', hg', -, hreg⟩ := hs.region r g hg
    have fin : ∀ {P : Prop}, (∀ e ∈ es, isUpdate r e = false ∧ isTraffic r e = false) → P →
        P ∧ ∀ e ∈ b ++ es, isUpdate r e = false ∧ isTraffic r e = false := by
      intro P h hP
      refine ⟨hP, ?_⟩
      intro e he
      rcases List.mem_append.1 he with he | he
      exacts [hq e he, h e he]
    rcases hreg with ⟨rfl, hq2⟩ | ⟨c1, n, hl', -⟩ | ⟨n, hl', rfl, -⟩ | ⟨t, hl', rfl, -⟩ | ⟨c1, t, hl', rfl, -⟩ | ⟨c1, f1, hl', -⟩ | ⟨f1, hl', rfl, rfl⟩ | ⟨c1, hl', rfl, -⟩
    · exact fin hq2 ⟨g', hg', h1, h2, hl⟩
    all_goals try (rcases hl with h | ⟨h, -⟩ <;> rw [hl'] at h <;> cases h)
    · exact fin (by simp) ⟨_, hg', h1, h2, .inr ⟨rfl, rfl⟩⟩
    · exfalso
      obtain ⟨cl, g2, hc, -, -, hpc⟩ := hs.told
      have h4 := hi'.i2.waits c1 cl r .fn hc (by simp [hpc, waitsFor])
      rw [hpe] at h4
      cases h4
      exact hno2 (by simp)

/-! ### No return without a call -/

/-- while the update function is not running and not called, it does not return -/
theorem no_end {s0 s : State τ} {b : List (Ev τ)} {r : Rid} {g0 : Region τ} (hg0 : s0.regions[r]? = some g0)
    (hl0 : g0.loop ≠ .calling) (hr : Run s0 b s) (hno : updateCalls r b = []) :
    (∃ g, s.regions[r]? = some g ∧ g.loop ≠ .calling) ∧ ∀ e ∈ b, isUpdate r e = false := by
  induction hr with
  | nil => exact ⟨⟨g0, hg0, hl0⟩, by simp⟩
  | @snoc b s es s' hr hs ih =>
    rw [updateCalls_append, List.append_eq_nil_iff] at hno
    obtain ⟨⟨g, hg, hl⟩, hq⟩ := ih hno.1
    obtain ⟨g', hg', -, hreg⟩ := hs.region r g hg
    have fin : ∀ {P : Prop}, (∀ e ∈ es, isUpdate r e = false) → P → P ∧ ∀ e ∈ b ++ es, isUpdate r e = false := by
      intro P h hP
      refine ⟨hP, ?_⟩
      intro e he
      rcases List.mem_append.1 he with he | he
      exacts [hq e he, h e he]
    rcases hreg with ⟨rfl, hq2⟩ | ⟨c1, n, hl', rfl, rfl⟩ | ⟨n, hl', rfl, rfl⟩ | ⟨t, hl', rfl, -⟩ | ⟨c1, t, hl', rfl, rfl⟩ | ⟨c1, f1, hl', rfl, rfl⟩ | ⟨f1, hl', rfl, rfl⟩ | ⟨c1, hl', rfl, rfl⟩
    · exact fin (fun e he => (hq2 e he).1) ⟨g', hg', hl⟩
    · exact fin (by simp [isUpdate]) ⟨_, hg', by simp⟩
    · rcases handleEvents_cases g r n with ⟨he, hc⟩ | ⟨he, hc⟩
      · exact fin (by rw [he]; simp) ⟨_, hg', hc⟩
      · rw [he] at hno; simp [updateCalls] at hno
    · exact absurd hl' hl
    · exact fin (by simp [isUpdate]) ⟨_, hg', by simp⟩
    · exact fin (by simp [isUpdate]) ⟨_, hg', by simp⟩
    · exact fin (by simp) ⟨_, hg', by simp⟩
    · exact fin (by simp [isUpdate]) ⟨_, hg', by simp⟩

omit [Inhabited τ] in
theorem lastUpdate_append {r : Rid} {a b : List (Ev τ)} (h : ∀ e ∈ b, isUpdate r e = false) :
    lastUpdate r (a ++ b) = lastUpdate r a := by
  induction b using List.reverseRecOn with
  | nil => simp
  | append_singleton b e ih =>
    rw [← List.append_assoc, lastUpdate_snoc]
    have he := h e (by simp)
    have := ih fun e he => h e (List.mem_append_left _ he)
    cases e <;> simp_all [isUpdate]

/-! ### Blocking -/

theorem blocked {s0 s : State τ} {b : List (Ev τ)} {c : Cid} {r : Rid} {g0 : Region τ} {cl : Client τ}
    (hg0 : s0.regions[r]? = some g0) (hl0 : g0.loop = .calling)
    (hc : s0.clients[c]? = some cl) (hp : cl.pc = .lockSend r)
    (hr : Run s0 b s) (hno : ∀ f t, .updEnd r f t ∉ b) :
    s.regions[r]? = some g0 ∧ s.clients[c]? = some cl := by
  induction hr with
  | nil => exact ⟨hg0, hc⟩
  | @snoc b s es s' hr hs ih =>
    obtain ⟨hg, hcl⟩ := ih fun f t h => hno f t (List.mem_append_left _ h)
    obtain ⟨g', hg', -, hreg⟩ := hs.region r g0 hg
    obtain ⟨cl', hc', hcase⟩ := hs.client c cl hcl
    have hgg : g' = g0 := by
      rcases hreg with ⟨rfl, hq2⟩ | ⟨c1, n, hl', rfl, rfl⟩ | ⟨n, hl', rfl, rfl⟩ | ⟨t, hl', rfl, rfl⟩ | ⟨c1, t, hl', rfl, rfl⟩ | ⟨c1, f1, hl', rfl, rfl⟩ | ⟨f1, hl', rfl, rfl⟩ | ⟨c1, hl', rfl, rfl⟩
      · rfl
      all_goals try (rw [hl0] at hl'; cases hl')
      exact absurd (List.mem_append_right b (by simp)) (hno g0.updateFunc t)
    subst hgg
    refine ⟨hg', ?_⟩
    have hcc : cl' = cl := by
      rcases hcase with rfl | ⟨hq, -⟩ | ⟨r', hq, he, he'⟩ | ⟨r', t, hq, -⟩ | ⟨r', t, hq, -⟩ | ⟨r', f, hq, -⟩ | ⟨r', hq, -⟩ | ⟨hq, -⟩ | ⟨hq, -⟩
      · rfl
      all_goals rw [hp] at hq
      all_goals try cases hq
      exfalso
      subst he'
      obtain ⟨cl2, g2, hc2, hg2, hl2, -⟩ := hs.told
      rw [hg] at hg2; cases hg2
      rw [hl0] at hl2; cases hl2
    rw [← hcc]; exact hc'

/-- a closed session stays closed (a use of it panics) -/
theorem Step.stays_done {s s' : State τ} {es : List (Ev τ)} (h : Step s es s') {c : Cid} {cl : Client τ}
    (hc : s.clients[c]? = some cl) (hd : cl.pc = .closed ∨ cl.pc = .panicked) :
    ∃ cl' : Client τ, s'.clients[c]? = some cl' ∧ (cl'.pc = .closed ∨ cl'.pc = .panicked) := by
  have hlt : c < s.clients.length := (List.getElem?_eq_some_iff.1 hc).1
  have set_case : ∀ (c1 : Cid) (cl1 cl1' : Client τ) (s1 : State τ), s1.clients = s.clients.set c1 cl1' → s.clients[c1]? = some cl1 →
      ((cl1.pc = .closed ∨ cl1.pc = .panicked) → cl1'.pc = .closed ∨ cl1'.pc = .panicked) →
      ∃ cl' : Client τ, s1.clients[c]? = some cl' ∧ (cl'.pc = .closed ∨ cl'.pc = .panicked) := by
    intro c1 cl1 cl1' s1 h1 h2 h3
    rw [h1, List.getElem?_set]
    by_cases hcc : c1 = c
    · subst hcc
      rw [hc] at h2; cases h2
      exact ⟨cl1', by simp [hlt], h3 hd⟩
    · exact ⟨cl, by simp [hcc, hc], hd⟩
  cases h with
  | newGroup f => exact ⟨cl, hc, hd⟩
  | newOther => exact ⟨cl, hc, hd⟩
  | openSession => exact ⟨cl, by rw [List.getElem?_append_left hlt]; exact hc, hd⟩
  | visitAgain => exact ⟨cl, hc, hd⟩
  | visitNew c1 cl1 r hc1 hp => exact set_case c1 cl1 _ _ rfl hc1 (by simp [hp])
  | visitClosed c1 cl1 hc1 hp => exact set_case c1 cl1 _ _ rfl hc1 (by simp)
  | send c1 cl1 cl' r g n hc1 hg hl hsend =>
    refine set_case c1 cl1 cl' _ rfl hc1 ?_
    rcases send_cases hsend with ⟨hp, -⟩ | ⟨todo, hp, -⟩ <;> simp [hp]
  | handle => exact ⟨cl, hc, hd⟩
  | updated => exact ⟨cl, hc, hd⟩
  | receive c1 cl1 cl' r g t hc1 hg hl hrec =>
    refine set_case c1 cl1 cl' _ rfl hc1 ?_
    rcases receive_cases hrec with ⟨hp, -⟩ | ⟨todo, hp, -⟩ <;> simp [hp]
  | visitDone c1 cl1 r t hc1 hp => exact set_case c1 cl1 _ _ rfl hc1 (by simp [hp])
  | closeBegin c1 cl1 hc1 hp => exact set_case c1 cl1 _ _ rfl hc1 (by simp [hp])
  | closeNext c1 cl1 r todo hc1 hp => exact set_case c1 cl1 _ _ rfl hc1 (by simp [hp])
  | closeEnd c1 cl1 hc1 hp => exact set_case c1 cl1 _ _ rfl hc1 (by simp)
  | closeAgain => exact ⟨cl, hc, hd⟩
  | fnBegin c1 cl1 r f hc1 hp => exact set_case c1 cl1 _ _ rfl hc1 (by simp [hp])
  | fnSend c1 cl1 r f g hc1 hp => exact set_case c1 cl1 _ _ rfl hc1 (by simp [hp])
  | fnHandle => exact ⟨cl, hc, hd⟩
  | fnReceive c1 cl1 r g hc1 hp => exact set_case c1 cl1 _ _ rfl hc1 (by simp [hp])

/-! ### Termination -/

theorem step_work {tr : List (Ev τ)} {s s' : State τ} {es : List (Ev τ)} (hi : Inv tr s) (h : Step s es s') :
    NewCall s es s' ∨ total s' < total s := by
  have getC : ∀ (c : Cid) (cl cl' : Client τ), s.clients[c]? = some cl → (s.setC c cl').clients[c]? = some cl' := by
    intro c cl cl' hc
    have hlt : c < s.clients.length := (List.getElem?_eq_some_iff.1 hc).1
    simp [State.setC, hlt]
  cases h with
  | newGroup f => exact .inl (.inr (.inl ⟨_, _, _, rfl⟩))
  | newOther => exact .inl (.inr (.inr (.inl ⟨_, rfl⟩)))
  | openSession => exact .inl (.inr (.inr (.inr (.inl ⟨_, rfl⟩))))
  | visitAgain => exact .inl (.inl rfl)
  | visitNew c cl r hc hp hr hv =>
    obtain ⟨he, -⟩ := visit_none hv
    refine .inl (.inr (.inr (.inr (.inr ⟨c, cl, (cl.visit r).1, hc, getC c cl _ hc, .inl ⟨hp, .inl ⟨r, ?_⟩⟩⟩))))
    rw [he]
  | visitClosed c cl hc hp =>
    exact .inl (.inr (.inr (.inr (.inr ⟨c, cl, _, hc, getC c cl _ hc, .inr ⟨hp, rfl⟩⟩))))
  | send c cl cl' r g n hc hg hl hsend =>
    right
    have h2 : (s.setC c cl').regions[r]? = some g := hg
    have e1 := total_setC (cl' := cl') hc
    have e2 := total_setR (g' := { g with loop := .handle n }) h2
    rcases send_cases hsend with ⟨hp, rfl, rfl⟩ | ⟨todo, hp, rfl, rfl⟩ <;>
      · simp only [work, hp, loopWork, hl] at e1 e2; omega
  | handle r g n hg hl =>
    right
    have e2 := total_setR (g' := g.handleLockUnlock n) hg
    have : loopWork (g.handleLockUnlock n) ≤ 8 := by
      unfold Region.handleLockUnlock; simp only; split
      · simp [loopWork]
      · split <;> simp [loopWork]
    simp only [loopWork, hl] at e2 this ⊢; omega
  | updated r g t hg hl =>
    right
    have e2 := total_setR (g' := { g with updateTime := t, loop := .reply t }) hg
    simp only [loopWork, hl] at e2; omega
  | receive c cl cl' r g t hc hg hl hrec =>
    right
    have h2 : (s.setC c cl').regions[r]? = some g := hg
    have e1 := total_setC (cl' := cl') hc
    have e2 := total_setR (g' := { g with loop := .select }) h2
    rcases receive_cases hrec with ⟨hp, rfl⟩ | ⟨todo, hp, rfl⟩ <;>
      · simp only [work, hp, loopWork, hl] at e1 e2; omega
  | visitDone c cl r t hc hp =>
    right
    have e1 := total_setC (cl' := ⟨(r, t) :: cl.visited, .user⟩) hc
    simp only [work, hp, List.length_cons] at e1; omega
  | closeBegin c cl hc hp =>
    right
    have e1 := total_setC (cl' := { cl with pc := .closing (cl.visited.map Prod.fst) }) hc
    simp only [work, hp, List.length_map] at e1; omega
  | closeNext c cl r todo hc hp hm =>
    right
    have e1 := total_setC (cl' := { cl with pc := .unlockSend r (todo.erase r) }) hc
    have e3 := List.length_erase_of_mem hm
    have e4 := List.length_pos_of_mem hm
    simp only [work, hp] at e1; omega
  | closeEnd c cl hc hp =>
    right
    have e1 := total_setC (cl' := ⟨[], .closed⟩) hc
    simp only [work, hp] at e1; omega
  | closeAgain => exact .inl (.inl rfl)
  | fnBegin c cl r f hc hp hr =>
    exact .inl (.inr (.inr (.inr (.inr ⟨c, cl, _, hc, getC c cl _ hc, .inl ⟨hp, .inr ⟨r, f, rfl⟩⟩⟩))))
  | fnSend c cl r f g hc hp hg hl =>
    right
    have h2 : (s.setC c { cl with pc := .fnRecv r }).regions[r]? = some g := hg
    have e1 := total_setC (cl' := { cl with pc := .fnRecv r }) hc
    have e2 := total_setR (g' := { g with loop := .handleFn f }) h2
    simp only [work, hp, loopWork, hl] at e1 e2; omega
  | fnHandle r f g hg hl =>
    right
    have e2 := total_setR (g' := { g with updateFunc := f, loop := .replyFn }) hg
    simp only [loopWork, hl] at e2; omega
  | fnReceive c cl r g hc hp hg hl =>
    right
    have h2 : (s.setC c { cl with pc := .user }).regions[r]? = some g := hg
    have e1 := total_setC (cl' := { cl with pc := .user }) hc
    have e2 := total_setR (g' := { g with loop := .select }) h2
    simp only [work, hp, loopWork, hl] at e1 e2; omega

end Tricorder.Group
