import Verif.Proof.Group3
import Mathlib.Data.List.Induction
/-! # Groups: from invariants to sequences of events -/

namespace Tricorder.Group
open Go

variable {τ : Type} [Inhabited τ]

omit [Inhabited τ] in
theorem handleEvents_cases (g : Region τ) (r : Rid) (n : ℤ) :
    (g.handleEvents r n = [] ∧ (g.handleLockUnlock n).loop ≠ .calling) ∨
    (g.handleEvents r n = [.updBegin r g.updateFunc] ∧ (g.handleLockUnlock n).loop = .calling) := by
  unfold Region.handleEvents
  split
  · next h => exact .inr ⟨rfl, h⟩
  · next h => exact .inl ⟨rfl, h⟩

/-! ### Inversion by event -/

/-- what the step emitting an event tells about the state -/
def Told (s s' : State τ) : Ev τ → Prop
  | .accept c r n => ∃ (cl : Client τ) (g : Region τ), s.clients[c]? = some cl ∧ s.regions[r]? = some g ∧ g.loop = .select ∧
      ((n = 1 ∧ cl.pc = .lockSend r ∧ s' = (s.setC c { cl with pc := .lockRecv r }).setR r { g with loop := .handle n }) ∨
       (n = -1 ∧ ∃ todo, cl.pc = .unlockSend r todo ∧ s' = (s.setC c { cl with pc := .unlockRecv r todo }).setR r { g with loop := .handle n }))
  | .updBegin r f => ∃ (g : Region τ) (n : ℤ), s.regions[r]? = some g ∧ g.loop = .handle n ∧ f = g.updateFunc ∧
      (g.handleLockUnlock n).loop = .calling ∧ s' = s.setR r (g.handleLockUnlock n)
  | .updEnd r f t => ∃ g : Region τ, s.regions[r]? = some g ∧ g.loop = .calling ∧ f = g.updateFunc ∧
      s' = s.setR r { g with updateTime := t, loop := .reply t }
  | .answer c r t => ∃ (cl : Client τ) (g : Region τ), s.clients[c]? = some cl ∧ s.regions[r]? = some g ∧ g.loop = .reply t ∧
      ((cl.pc = .lockRecv r ∧ s' = (s.setC c { cl with pc := .lockDone r t }).setR r { g with loop := .select }) ∨
       (∃ todo, cl.pc = .unlockRecv r todo ∧ s' = (s.setC c { cl with pc := .closing todo }).setR r { g with loop := .select }))
  | .visit c r t => ∃ cl : Client τ, s.clients[c]? = some cl ∧ seen cl r t ∧
      ∃ cl', s'.clients[c]? = some cl' ∧ seen cl' r t
  | .closeBegin c => ∃ cl : Client τ, s.clients[c]? = some cl ∧ cl.pc = .user ∧
      s' = s.setC c { cl with pc := .closing (cl.visited.map Prod.fst) }
  | .closeEnd c => ∃ cl : Client τ, s.clients[c]? = some cl ∧ cl.pc = .closing [] ∧ s' = s.setC c ⟨[], .closed⟩
  | .acceptFn c r f => ∃ (cl : Client τ) (g : Region τ), s.clients[c]? = some cl ∧ s.regions[r]? = some g ∧ g.loop = .select ∧
      cl.pc = .fnSend r f ∧ s' = (s.setC c { cl with pc := .fnRecv r }).setR r { g with loop := .handleFn f }
  | .answerFn c r => ∃ (cl : Client τ) (g : Region τ), s.clients[c]? = some cl ∧ s.regions[r]? = some g ∧ g.loop = .replyFn ∧
      cl.pc = .fnRecv r
  | .newGroup r f id => r = s.regions.length ∧ id = s.nextId ∧ s'.regions = s.regions ++ [newRegion s.nextId f] ∧
      s'.clients = s.clients
  | _ => True

theorem Step.told {s s' : State τ} {e : Ev τ} (h : Step s [e] s') : Told s s' e := by
  generalize hes : [e] = es at h
  cases h with
  | newGroup f => cases hes; exact ⟨rfl, rfl, rfl, rfl⟩
  | newOther => cases hes; trivial
  | openSession => cases hes; trivial
  | visitAgain c cl r t hc hp hv =>
    cases hes
    have hs : seen cl r t := ⟨by simp [hp, isOpen], .inl (visit_some hv)⟩
    exact ⟨cl, hc, hs, cl, hc, hs⟩
  | visitNew => cases hes
  | visitClosed => cases hes
  | send c cl cl' r g n hc hg hl hsend =>
    cases hes
    rcases send_cases hsend with ⟨hp, rfl, rfl⟩ | ⟨todo, hp, rfl, rfl⟩
    · exact ⟨cl, g, hc, hg, hl, .inl ⟨rfl, hp, rfl⟩⟩
    · exact ⟨cl, g, hc, hg, hl, .inr ⟨rfl, todo, hp, rfl⟩⟩
  | handle r g n hg hl =>
    rcases handleEvents_cases g r n with ⟨he, -⟩ | ⟨he, hcl⟩ <;> rw [he] at hes <;> cases hes
    exact ⟨g, n, hg, hl, rfl, hcl, rfl⟩
  | updated r g t hg hl => cases hes; exact ⟨g, hg, hl, rfl, rfl⟩
  | receive c cl cl' r g t hc hg hl hrec =>
    cases hes
    rcases receive_cases hrec with ⟨hp, rfl⟩ | ⟨todo, hp, rfl⟩
    · exact ⟨cl, g, hc, hg, hl, .inl ⟨hp, rfl⟩⟩
    · exact ⟨cl, g, hc, hg, hl, .inr ⟨todo, hp, rfl⟩⟩
  | visitDone c cl r t hc hp =>
    cases hes
    have hlt : c < s.clients.length := (List.getElem?_eq_some_iff.1 hc).1
    refine ⟨cl, hc, ⟨by simp [hp, isOpen], .inr hp⟩, ⟨(r, t) :: cl.visited, .user⟩, ?_, ⟨by simp [isOpen], .inl (by simp)⟩⟩
    simp [State.setC, hlt]
  | closeBegin c cl hc hp => cases hes; exact ⟨cl, hc, hp, rfl⟩
  | closeNext => cases hes
  | closeEnd c cl hc hp => cases hes; exact ⟨cl, hc, hp, rfl⟩
  | closeAgain => cases hes
  | fnBegin => cases hes
  | fnSend c cl r f g hc hp hg hl => cases hes; exact ⟨cl, g, hc, hg, hl, hp, rfl⟩
  | fnHandle => cases hes
  | fnReceive c cl r g hc hp hg hl => cases hes; exact ⟨cl, g, hc, hg, hl, hp⟩

/-! ### Steps of other goroutines -/

/-- how one step changes the goroutine of `c` -/
theorem Step.client {s s' : State τ} {es : List (Ev τ)} (h : Step s es s') (c : Cid) (cl : Client τ)
    (hc : s.clients[c]? = some cl) :
    ∃ cl', s'.clients[c]? = some cl' ∧ (cl' = cl ∨
      (cl.pc = .user ∧ cl'.visited = cl.visited ∧ ((∃ r, cl'.pc = .lockSend r ∧ r ∉ cl.visited.map Prod.fst) ∨ ∃ r f, cl'.pc = .fnSend r f)) ∨
      (∃ r, cl.pc = .lockSend r ∧ cl' = { cl with pc := .lockRecv r } ∧ es = [.accept c r 1]) ∨
      (∃ r t, cl.pc = .lockRecv r ∧ cl' = { cl with pc := .lockDone r t } ∧ es = [.answer c r t]) ∨
      (∃ r t, cl.pc = .lockDone r t ∧ cl' = ⟨(r, t) :: cl.visited, .user⟩ ∧ es = [.visit c r t]) ∨
      (∃ r f, cl.pc = .fnSend r f ∧ cl' = { cl with pc := .fnRecv r } ∧ es = [.acceptFn c r f]) ∨
      (∃ r, cl.pc = .fnRecv r ∧ cl' = { cl with pc := .user } ∧ es = [.answerFn c r]) ∨
      (cl.pc = .user ∧ cl' = { cl with pc := .closing (cl.visited.map Prod.fst) } ∧ es = [.closeBegin c]) ∨
      (isOpen cl.pc = false ∧ isOpen cl'.pc = false ∧ ∀ r, es ≠ [.accept c r 1])) := by
  have hlt : c < s.clients.length := (List.getElem?_eq_some_iff.1 hc).1
  have set_case : ∀ (c1 : Cid) (cl1 cl1' : Client τ) (s1 : State τ), s1.clients = s.clients.set c1 cl1' → s.clients[c1]? = some cl1 →
      (c1 ≠ c ∧ s1.clients[c]? = some cl) ∨ (c1 = c ∧ cl1 = cl ∧ s1.clients[c]? = some cl1') := by
    intro c1 cl1 cl1' s1 h1 h2
    rw [h1, List.getElem?_set]
    by_cases hcc : c1 = c
    · subst hcc
      rw [hc] at h2; cases h2
      exact .inr ⟨rfl, rfl, by simp [hlt]⟩
    · exact .inl ⟨hcc, by simp [hcc, hc]⟩
  cases h with
  | newGroup f => exact ⟨cl, hc, .inl rfl⟩
  | newOther => exact ⟨cl, hc, .inl rfl⟩
  | openSession => exact ⟨cl, by rw [List.getElem?_append_left hlt]; exact hc, .inl rfl⟩
  | visitAgain c1 cl1 r t hc1 hp hv => exact ⟨cl, hc, .inl rfl⟩
  | visitNew c1 cl1 r hc1 hp hr hv =>
    rw [(visit_none hv).1]
    rcases set_case c1 cl1 _ (s.setC c1 { cl1 with pc := .lockSend r }) rfl hc1 with ⟨-, h⟩ | ⟨rfl, rfl, h⟩
    · exact ⟨cl, h, .inl rfl⟩
    · exact ⟨_, h, .inr (.inl ⟨hp, rfl, .inl ⟨r, rfl, (visit_none hv).2⟩⟩)⟩
  | visitClosed c1 cl1 hc1 hp =>
    rcases set_case c1 cl1 _ (s.setC c1 { cl1 with pc := .panicked }) rfl hc1 with ⟨-, h⟩ | ⟨rfl, rfl, h⟩
    · exact ⟨cl, h, .inl rfl⟩
    · exact ⟨_, h, by simp [hp, isOpen]⟩
  | send c1 cl1 cl' r g n hc1 hg hl hsend =>
    rcases set_case c1 cl1 cl' ((s.setC c1 cl').setR r { g with loop := .handle n }) rfl hc1 with ⟨-, h⟩ | ⟨rfl, rfl, h⟩
    · exact ⟨cl, h, .inl rfl⟩
    · rcases send_cases hsend with ⟨hp, rfl, rfl⟩ | ⟨todo, hp, rfl, rfl⟩
      · exact ⟨_, h, .inr (.inr (.inl ⟨r, hp, rfl, rfl⟩))⟩
      · exact ⟨_, h, by simp [hp, isOpen]⟩
  | handle r g n hg hl => exact ⟨cl, hc, .inl rfl⟩
  | updated r g t hg hl => exact ⟨cl, hc, .inl rfl⟩
  | receive c1 cl1 cl' r g t hc1 hg hl hrec =>
    rcases set_case c1 cl1 cl' ((s.setC c1 cl').setR r { g with loop := .select }) rfl hc1 with ⟨-, h⟩ | ⟨rfl, rfl, h⟩
    · exact ⟨cl, h, .inl rfl⟩
    · rcases receive_cases hrec with ⟨hp, rfl⟩ | ⟨todo, hp, rfl⟩
      · exact ⟨_, h, .inr (.inr (.inr (.inl ⟨r, t, hp, rfl, rfl⟩)))⟩
      · exact ⟨_, h, by simp [hp, isOpen]⟩
  | visitDone c1 cl1 r t hc1 hp =>
    rcases set_case c1 cl1 _ (s.setC c1 ⟨(r, t) :: cl1.visited, .user⟩) rfl hc1 with ⟨-, h⟩ | ⟨rfl, rfl, h⟩
    · exact ⟨cl, h, .inl rfl⟩
    · exact ⟨_, h, .inr (.inr (.inr (.inr (.inl ⟨r, t, hp, rfl, rfl⟩))))⟩
  | closeBegin c1 cl1 hc1 hp =>
    rcases set_case c1 cl1 _ (s.setC c1 { cl1 with pc := .closing (cl1.visited.map Prod.fst) }) rfl hc1 with ⟨-, h⟩ | ⟨rfl, rfl, h⟩
    · exact ⟨cl, h, .inl rfl⟩
    · exact ⟨_, h, by simp [hp]⟩
  | closeNext c1 cl1 r todo hc1 hp hr =>
    rcases set_case c1 cl1 _ (s.setC c1 { cl1 with pc := .unlockSend r (todo.erase r) }) rfl hc1 with ⟨-, h⟩ | ⟨rfl, rfl, h⟩
    · exact ⟨cl, h, .inl rfl⟩
    · exact ⟨_, h, by simp [hp, isOpen]⟩
  | closeEnd c1 cl1 hc1 hp =>
    rcases set_case c1 cl1 _ (s.setC c1 ⟨[], .closed⟩) rfl hc1 with ⟨-, h⟩ | ⟨rfl, rfl, h⟩
    · exact ⟨cl, h, .inl rfl⟩
    · exact ⟨_, h, by simp [hp, isOpen]⟩
  | closeAgain => exact ⟨cl, hc, .inl rfl⟩
  | fnBegin c1 cl1 r f hc1 hp hr =>
    rcases set_case c1 cl1 _ (s.setC c1 { cl1 with pc := .fnSend r f }) rfl hc1 with ⟨-, h⟩ | ⟨rfl, rfl, h⟩
    · exact ⟨cl, h, .inl rfl⟩
    · exact ⟨_, h, .inr (.inl ⟨hp, rfl, .inr ⟨r, f, rfl⟩⟩)⟩
  | fnSend c1 cl1 r f g hc1 hp hg hl =>
    rcases set_case c1 cl1 _ ((s.setC c1 { cl1 with pc := .fnRecv r }).setR r { g with loop := .handleFn f }) rfl hc1 with ⟨-, h⟩ | ⟨rfl, rfl, h⟩
    · exact ⟨cl, h, .inl rfl⟩
    · exact ⟨_, h, by simp [hp]⟩
  | fnHandle r f g hg hl => exact ⟨cl, hc, .inl rfl⟩
  | fnReceive c1 cl1 r g hc1 hp hg hl =>
    rcases set_case c1 cl1 _ ((s.setC c1 { cl1 with pc := .user }).setR r { g with loop := .select }) rfl hc1 with ⟨-, h⟩ | ⟨rfl, rfl, h⟩
    · exact ⟨cl, h, .inl rfl⟩
    · exact ⟨_, h, by simp [hp]⟩

/-- once closing, never open again -/
theorem Step.stays_closed {s s' : State τ} {es : List (Ev τ)} (h : Step s es s') {c : Cid} {cl : Client τ}
    (hc : s.clients[c]? = some cl) (ho : isOpen cl.pc = false) :
    ∃ cl', s'.clients[c]? = some cl' ∧ isOpen cl'.pc = false := by
  obtain ⟨cl', h1, h2⟩ := h.client c cl hc
  refine ⟨cl', h1, ?_⟩
  rcases h2 with rfl | ⟨hp, -⟩ | ⟨r, hp, -⟩ | ⟨r, t, hp, -⟩ | ⟨r, t, hp, -⟩ | ⟨r, f, hp, -⟩ | ⟨r, hp, -⟩ | ⟨hp, -⟩ | ⟨-, h, -⟩
  · exact ho
  all_goals first | exact h | (rw [hp] at ho; simp [isOpen] at ho)

theorem Run.stays_closed {s s' : State τ} {es : List (Ev τ)} (h : Run s es s') {c : Cid} {cl : Client τ}
    (hc : s.clients[c]? = some cl) (ho : isOpen cl.pc = false) :
    ∃ cl', s'.clients[c]? = some cl' ∧ isOpen cl'.pc = false := by
  induction h with
  | nil => exact ⟨cl, hc, ho⟩
  | snoc _ hs ih => obtain ⟨cl1, h1, h2⟩ := ih; exact hs.stays_closed h1 h2

/-- what an open request has seen stays seen until it closes -/
theorem Step.stays_seen {s s' : State τ} {es : List (Ev τ)} (h : Step s es s') {c : Cid} {cl : Client τ} {r : Rid} {t : τ}
    (hc : s.clients[c]? = some cl) (hse : seen cl r t) (hno : .closeBegin c ∉ es) :
    ∃ cl', s'.clients[c]? = some cl' ∧ seen cl' r t := by
  obtain ⟨cl', h1, h2⟩ := h.client c cl hc
  refine ⟨cl', h1, ?_⟩
  obtain ⟨ho, hv⟩ := hse
  rcases h2 with rfl | ⟨hp, he, h⟩ | ⟨r', hp, rfl, -⟩ | ⟨r', t', hp, rfl, -⟩ | ⟨r', t', hp, rfl, -⟩ | ⟨r', f, hp, rfl, -⟩ | ⟨r', hp, rfl, -⟩ | ⟨hp, rfl, he⟩ | ⟨h, -, -⟩
  · exact ⟨ho, hv⟩
  · have hv' : (r, t) ∈ cl.visited := by simpa [hp] using hv
    refine ⟨?_, .inl (by rw [he]; exact hv')⟩
    rcases h with ⟨r1, h, -⟩ | ⟨r1, f, h⟩ <;> simp [h, isOpen]
  · exact ⟨rfl, .inl (by simpa [hp] using hv)⟩
  · exact ⟨rfl, .inl (by simpa [hp] using hv)⟩
  · refine ⟨rfl, .inl ?_⟩
    rcases hv with hv | hv
    · exact List.mem_cons_of_mem _ hv
    · rw [hp] at hv; cases hv; exact List.mem_cons_self
  · exact ⟨rfl, .inl (by simpa [hp] using hv)⟩
  · exact ⟨rfl, .inl (by simpa [hp] using hv)⟩
  · rw [he] at hno; exact absurd (List.mem_singleton.2 rfl) hno
  · rw [h] at ho; cases ho

/-- no update while seen -/
theorem Step.no_update {tr : List (Ev τ)} {s s' : State τ} {es : List (Ev τ)} (hi : Inv tr s) (h : Step s es s') {c : Cid} {cl : Client τ} {r : Rid} {t : τ}
    (hc : s.clients[c]? = some cl) (hse : seen cl r t) (hno : .closeBegin c ∉ es) :
    ∀ e ∈ es, isUpdate r e = false := by
  intro e he
  have hle := h.events_le
  obtain rfl : es = [e] := by
    match es, hle, he with
    | [x], _, he => rw [List.mem_singleton.1 he]
  have ht := h.told
  obtain ⟨cl', hc', hse'⟩ := h.stays_seen hc hse hno
  have hi' := inv_step hi h
  cases e <;> simp only [isUpdate, decide_eq_false_iff_not]
  · rintro rfl
    obtain ⟨g, n, hg, -, -, hcl, rfl⟩ := ht
    have hlt := (List.getElem?_eq_some_iff.1 hg).1
    exact (hi'.i4 c cl' _ t hc' hse').2 (g.handleLockUnlock n) (by simp [State.setR, hlt]) hcl
  · rintro rfl
    obtain ⟨g, hg, hcl, -, -⟩ := ht
    exact (hi.i4 c cl _ t hc hse).2 g hg hcl

theorem Run.stays_seen {tr es : List (Ev τ)} {s s' : State τ} (hi : Inv tr s) (h : Run s es s') {c : Cid} {cl : Client τ} {r : Rid} {t : τ}
    (hc : s.clients[c]? = some cl) (hse : seen cl r t) (hno : .closeBegin c ∉ es) :
    (∃ cl', s'.clients[c]? = some cl' ∧ seen cl' r t) ∧ ∀ e ∈ es, isUpdate r e = false := by
  induction h with
  | nil => exact ⟨⟨cl, hc, hse⟩, by simp⟩
  | snoc hr hs ih =>
    rw [List.mem_append, not_or] at hno
    obtain ⟨⟨cl1, h1, h2⟩, h3⟩ := ih hno.1
    refine ⟨hs.stays_seen h1 h2 hno.2, ?_⟩
    intro e he
    rcases List.mem_append.1 he with he | he
    · exact h3 e he
    · exact hs.no_update (inv_run hi hr) h1 h2 hno.2 e he

/-! ### Requests and replies -/

omit [Inhabited τ] in
theorem pend_split {r : Rid} {tr : List (Ev τ)} {c : Cid} {k : Kind} (h : pend r tr = some (c, k)) :
    ∃ pre mid, ((∃ n, (k = if n = 1 then .lock else .unlock) ∧ tr = pre ++ .accept c r n :: mid) ∨
      (∃ f, k = .fn ∧ tr = pre ++ .acceptFn c r f :: mid)) ∧ ∀ e ∈ mid, isTraffic r e = false := by
  induction tr using List.reverseRecOn with
  | nil => cases h
  | append_singleton tr e ih =>
    rw [pend_snoc] at h
    have other : pend r tr = some (c, k) → isTraffic r e = false → ∃ pre mid,
        ((∃ n, (k = if n = 1 then .lock else .unlock) ∧ tr ++ [e] = pre ++ .accept c r n :: mid) ∨
        (∃ f, k = .fn ∧ tr ++ [e] = pre ++ .acceptFn c r f :: mid)) ∧ ∀ e ∈ mid, isTraffic r e = false := by
      intro hp ht
      obtain ⟨pre, mid, h1, h2⟩ := ih hp
      refine ⟨pre, mid ++ [e], ?_, ?_⟩
      · rcases h1 with ⟨n, a, rfl⟩ | ⟨f, a, rfl⟩
        · exact .inl ⟨n, a, by simp⟩
        · exact .inr ⟨f, a, by simp⟩
      · intro x hx
        rcases List.mem_append.1 hx with hx | hx
        · exact h2 x hx
        · rw [List.mem_singleton.1 hx]; exact ht
    cases e <;> simp only [pendStep] at h <;> try exact other h rfl
    · next c' r' n =>
      split at h
      · next hr => subst hr; cases h; exact ⟨tr, [], .inl ⟨n, rfl, rfl⟩, by simp⟩
      · next hr => exact other h (by simp [isTraffic, hr])
    · next c' r' n =>
      split at h
      · cases h
      · next hr => exact other h (by simp [isTraffic, hr])
    · next c' r' f =>
      split at h
      · next hr => subst hr; cases h; exact ⟨tr, [], .inr ⟨f, rfl, rfl⟩, by simp⟩
      · next hr => exact other h (by simp [isTraffic, hr])
    · next c' r' =>
      split at h
      · cases h
      · next hr => exact other h (by simp [isTraffic, hr])

omit [Inhabited τ] in
theorem pend_none_of_select {tr : List (Ev τ)} {s : State τ} (h : Inv2 tr s) {r : Rid} {g : Region τ} (hg : s.regions[r]? = some g)
    (hl : g.loop = .select) : pend r tr = none := by
  have := h.loop r g hg
  simp only [loopOK, hl, Option.map_eq_none_iff] at this
  exact this

/-- until it is answered, the accepted request stays the one being served -/
theorem serving {s0 s : State τ} {a b : List (Ev τ)} {c : Cid} {r : Rid} {k : Kind} (hi : Inv a s0)
    (hp : pend r a = some (c, k)) (hr : Run s0 b s) (hno : ∀ t, .answer c r t ∉ b)
    (hno' : .answerFn c r ∉ b) :
    pend r (a ++ b) = some (c, k) ∧ ∀ e ∈ b, isTraffic r e = false := by
  induction hr with
  | nil => simpa using hp
  | @snoc b s es s' hr hs ih =>
    have hno1 : ∀ t, .answer c r t ∉ b := fun t ht => hno t (List.mem_append_left _ ht)
    obtain ⟨hp', hq⟩ := ih hno1 (fun ht => hno' (List.mem_append_left _ ht))
    have hi' := inv_run hi hr
    have hle := hs.events_le
    match es, hle with
    | [], _ => simpa using ⟨hp', hq⟩
    | [e], _ =>
      have ht := hs.told
      have key : pend r (a ++ b ++ [e]) = some (c, k) ∧ isTraffic r e = false := by
        rw [pend_snoc, hp']
        cases e <;> simp only [pendStep, isTraffic, decide_eq_false_iff_not] <;> try exact ⟨trivial, trivial⟩
        · next c' r' n _ =>
          have hne : r' ≠ r := by
            rintro rfl
            obtain ⟨cl, g, -, hg, hl, -⟩ := ht
            rw [pend_none_of_select hi'.i2 hg hl] at hp'; cases hp'
          simp [hne]
        · next c' r' t _ =>
          have hne : r' ≠ r := by
            rintro rfl
            obtain ⟨cl, g, hc, hg, hl, hcase⟩ := ht
            have : ∃ k', waitsFor cl.pc = some (r', k') := by
              rcases hcase with ⟨hp, -⟩ | ⟨todo, hp, -⟩
              · exact ⟨.lock, by simp [hp, waitsFor]⟩
              · exact ⟨.unlock, by simp [hp, waitsFor]⟩
            obtain ⟨k', hk'⟩ := this
            have := hi'.i2.waits c' cl r' k' hc hk'
            rw [hp'] at this; cases this
            exact hno t (List.mem_append_right _ (List.mem_singleton.2 rfl))
          simp [hne]
        · next c' r' f _ =>
          have hne : r' ≠ r := by
            rintro rfl
            obtain ⟨cl, g, -, hg, hl, -⟩ := ht
            rw [pend_none_of_select hi'.i2 hg hl] at hp'; cases hp'
          simp [hne]
        · next c' r' _ =>
          have hne : r' ≠ r := by
            rintro rfl
            obtain ⟨cl, g, hc, hg, hl, hp⟩ := ht
            have := hi'.i2.waits c' cl r' .fn hc (by simp [hp, waitsFor])
            rw [hp'] at this; cases this
            exact hno' (List.mem_append_right _ (List.mem_singleton.2 rfl))
          simp [hne]
      rw [← List.append_assoc]
      refine ⟨key.1, fun x hx => ?_⟩
      rcases List.mem_append.1 hx with hx | hx
      · exact hq x hx
      · rw [List.mem_singleton.1 hx]; exact key.2

end Tricorder.Group
