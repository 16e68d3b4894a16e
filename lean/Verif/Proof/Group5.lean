import Verif.Proof.Group4
/-! # Groups: updates per request, ids, releases -/

namespace Tricorder.Group
open Go

variable {τ : Type} [Inhabited τ]

/-- how one step changes group `r` -/
theorem Step.region {s s' : State τ} {es : List (Ev τ)} (h : Step s es s') (r : Rid) (g : Region τ)
    (hg : s.regions[r]? = some g) :
    ∃ g', s'.regions[r]? = some g' ∧ g'.id = g.id ∧ (
      (g' = g ∧ ∀ e ∈ es, isUpdate r e = false ∧ isTraffic r e = false) ∨
      (∃ c n, g.loop = .select ∧ es = [.accept c r n] ∧ g' = { g with loop := .handle n }) ∨
      (∃ n, g.loop = .handle n ∧ g' = g.handleLockUnlock n ∧ es = g.handleEvents r n) ∨
      (∃ t, g.loop = .calling ∧ g' = { g with updateTime := t, loop := .reply t } ∧ es = [.updEnd r g.updateFunc t]) ∨
      (∃ c t, g.loop = .reply t ∧ g' = { g with loop := .select } ∧ es = [.answer c r t]) ∨
      (∃ c f, g.loop = .select ∧ es = [.acceptFn c r f] ∧ g' = { g with loop := .handleFn f }) ∨
      (∃ f, g.loop = .handleFn f ∧ es = [] ∧ g' = { g with updateFunc := f, loop := .replyFn }) ∨
      (∃ c, g.loop = .replyFn ∧ es = [.answerFn c r] ∧ g' = { g with loop := .select })) := by
  have hlt : r < s.regions.length := (List.getElem?_eq_some_iff.1 hg).1
  have set_case : ∀ (r1 : Rid) (g1 g1' : Region τ) (s1 : State τ), s1.regions = s.regions.set r1 g1' → s.regions[r1]? = some g1 →
      (r1 ≠ r ∧ s1.regions[r]? = some g) ∨ (r1 = r ∧ g1 = g ∧ s1.regions[r]? = some g1') := by
    intro r1 g1 g1' s1 h1 h2
    rw [h1, List.getElem?_set]
    by_cases hcc : r1 = r
    · subst hcc
      rw [hg] at h2; cases h2
      exact .inr ⟨rfl, rfl, by simp [hlt]⟩
    · exact .inl ⟨hcc, by simp [hcc, hg]⟩
  cases h with
  | newGroup f =>
    exact ⟨g, by rw [List.getElem?_append_left hlt]; exact hg, rfl, .inl ⟨rfl, by simp [isUpdate, isTraffic]⟩⟩
  | newOther => exact ⟨g, hg, rfl, .inl ⟨rfl, by simp [isUpdate, isTraffic]⟩⟩
  | openSession => exact ⟨g, hg, rfl, .inl ⟨rfl, by simp [isUpdate, isTraffic]⟩⟩
  | visitAgain => exact ⟨g, hg, rfl, .inl ⟨rfl, by simp [isUpdate, isTraffic]⟩⟩
  | visitNew => exact ⟨g, hg, rfl, .inl ⟨rfl, by simp⟩⟩
  | visitClosed => exact ⟨g, hg, rfl, .inl ⟨rfl, by simp⟩⟩
  | send c1 cl1 cl' r1 g1 n hc1 hg1 hl hsend =>
    rcases set_case r1 g1 _ ((s.setC c1 cl').setR r1 { g1 with loop := .handle n }) rfl hg1 with ⟨hne, h⟩ | ⟨rfl, rfl, h⟩
    · exact ⟨g, h, rfl, .inl ⟨rfl, by simp [isUpdate, isTraffic, hne]⟩⟩
    · exact ⟨_, h, rfl, .inr (.inl ⟨c1, n, hl, rfl, rfl⟩)⟩
  | handle r1 g1 n hg1 hl =>
    rcases set_case r1 g1 _ (s.setR r1 (g1.handleLockUnlock n)) rfl hg1 with ⟨hne, h⟩ | ⟨rfl, rfl, h⟩
    · refine ⟨g, h, rfl, .inl ⟨rfl, ?_⟩⟩
      rcases handleEvents_cases g1 r1 n with ⟨he, -⟩ | ⟨he, hcl⟩ <;> rw [he] <;> simp [isUpdate, isTraffic, hne]
    · refine ⟨_, h, ?_, .inr (.inr (.inl ⟨n, hl, rfl, rfl⟩))⟩
      unfold Region.handleLockUnlock; simp only; split
      · rfl
      · split <;> rfl
  | updated r1 g1 t hg1 hl =>
    rcases set_case r1 g1 _ (s.setR r1 { g1 with updateTime := t, loop := .reply t }) rfl hg1 with ⟨hne, h⟩ | ⟨rfl, rfl, h⟩
    · exact ⟨g, h, rfl, .inl ⟨rfl, by simp [isUpdate, isTraffic, hne]⟩⟩
    · exact ⟨_, h, rfl, .inr (.inr (.inr (.inl ⟨t, hl, rfl, rfl⟩)))⟩
  | receive c1 cl1 cl' r1 g1 t hc1 hg1 hl hrec =>
    rcases set_case r1 g1 _ ((s.setC c1 cl').setR r1 { g1 with loop := .select }) rfl hg1 with ⟨hne, h⟩ | ⟨rfl, rfl, h⟩
    · exact ⟨g, h, rfl, .inl ⟨rfl, by simp [isUpdate, isTraffic, hne]⟩⟩
    · exact ⟨_, h, rfl, .inr (.inr (.inr (.inr (.inl ⟨c1, t, hl, rfl, rfl⟩))))⟩
  | visitDone => exact ⟨g, hg, rfl, .inl ⟨rfl, by simp [isUpdate, isTraffic]⟩⟩
  | closeBegin => exact ⟨g, hg, rfl, .inl ⟨rfl, by simp [isUpdate, isTraffic]⟩⟩
  | closeNext => exact ⟨g, hg, rfl, .inl ⟨rfl, by simp⟩⟩
  | closeEnd => exact ⟨g, hg, rfl, .inl ⟨rfl, by simp [isUpdate, isTraffic]⟩⟩
  | closeAgain => exact ⟨g, hg, rfl, .inl ⟨rfl, by simp⟩⟩
  | fnBegin => exact ⟨g, hg, rfl, .inl ⟨rfl, by simp⟩⟩
  | fnSend c1 cl1 r1 f g1 hc1 hp hg1 hl =>
    rcases set_case r1 g1 _ ((s.setC c1 { cl1 with pc := .fnRecv r1 }).setR r1 { g1 with loop := .handleFn f }) rfl hg1 with ⟨hne, h⟩ | ⟨rfl, rfl, h⟩
    · exact ⟨g, h, rfl, .inl ⟨rfl, by simp [isUpdate, isTraffic, hne]⟩⟩
    · exact ⟨_, h, rfl, .inr (.inr (.inr (.inr (.inr (.inl ⟨c1, f, hl, rfl, rfl⟩)))))⟩
  | fnHandle r1 f g1 hg1 hl =>
    rcases set_case r1 g1 _ (s.setR r1 { g1 with updateFunc := f, loop := .replyFn }) rfl hg1 with ⟨hne, h⟩ | ⟨rfl, rfl, h⟩
    · exact ⟨g, h, rfl, .inl ⟨rfl, by simp⟩⟩
    · exact ⟨_, h, rfl, .inr (.inr (.inr (.inr (.inr (.inr (.inl ⟨f, hl, rfl, rfl⟩))))))⟩
  | fnReceive c1 cl1 r1 g1 hc1 hp hg1 hl =>
    rcases set_case r1 g1 _ ((s.setC c1 { cl1 with pc := .user }).setR r1 { g1 with loop := .select }) rfl hg1 with ⟨hne, h⟩ | ⟨rfl, rfl, h⟩
    · exact ⟨g, h, rfl, .inl ⟨rfl, by simp [isUpdate, isTraffic, hne]⟩⟩
    · exact ⟨_, h, rfl, .inr (.inr (.inr (.inr (.inr (.inr (.inr ⟨c1, hl, rfl, rfl⟩))))))⟩

omit [Inhabited τ] in
theorem updateCalls_append (r : Rid) (a b : List (Ev τ)) :
    updateCalls r (a ++ b) = updateCalls r a ++ updateCalls r b := by simp [updateCalls]

omit [Inhabited τ] in
theorem updateCalls_none {r : Rid} {es : List (Ev τ)} (h : ∀ e ∈ es, isUpdate r e = false) : updateCalls r es = [] := by
  unfold updateCalls
  rw [List.filterMap_eq_nil_iff]
  intro e he
  have := h e he
  cases e <;> simp_all [isUpdate]

omit [Inhabited τ] in
theorem updateCalls_cons {r : Rid} {e : Ev τ} {es : List (Ev τ)} (h : isUpdate r e = false) :
    updateCalls r (e :: es) = updateCalls r es := by
  have := updateCalls_append r [e] es
  rw [updateCalls_none (r := r) (es := [e]) (by simpa using h)] at this
  simpa using this

/-- the phases of a first visit, after its increment was accepted: `k` is the count before, `f` the
update function, `b` the events since -/
def Phase (c : Cid) (r : Rid) (k : ℤ) (f : Fn) (b : List (Ev τ)) (s : State τ) : Prop :=
  ∃ cl : Client τ, s.clients[c]? = some cl ∧
    ((cl.pc = .lockRecv r ∧ ∃ g : Region τ, s.regions[r]? = some g ∧
        ((g.loop = .handle 1 ∧ g.lockCount = k ∧ g.updateFunc = f ∧ updateCalls r b = []) ∨
         (g.loop = .calling ∧ g.updateFunc = f ∧ updateCalls r b = if k = 0 then [f] else []) ∨
         (∃ t, g.loop = .reply t ∧ (k = 0 → .updEnd r f t ∈ b) ∧ updateCalls r b = if k = 0 then [f] else []))) ∨
     (∃ t, seen cl r t ∧ (k = 0 → .updEnd r f t ∈ b) ∧ updateCalls r b = if k = 0 then [f] else []) ∨
     isOpen cl.pc = false)

theorem phase_step {tr b es : List (Ev τ)} {s s' : State τ} {c : Cid} {r : Rid} {k : ℤ} {f : Fn}
    (hi : Inv tr s) (hk : 0 ≤ k) (h : Phase c r k f b s) (hs : Step s es s') : Phase c r k f (b ++ es) s' := by
  obtain ⟨cl, hc, h⟩ := h
  have hi' := inv_step hi hs
  rw [Phase, updateCalls_append]
  rcases h with ⟨hp, g, hg, h⟩ | ⟨t, hse, hend, hcalls⟩ | ho
  · obtain ⟨cl', hc', hcl⟩ := hs.client c cl hc
    have hcl2 : cl' = cl ∨ ∃ t, cl' = { cl with pc := .lockDone r t } ∧ es = [.answer c r t] := by
      rcases hcl with rfl | ⟨hq, -⟩ | ⟨r, hq, -⟩ | ⟨r', t, hq, he, he'⟩ | ⟨r, t, hq, -⟩ | ⟨r, f, hq, -⟩ | ⟨r, hq, -⟩ | ⟨hq, -⟩ | ⟨hq, -⟩
      · exact .inl rfl
      all_goals rw [hp] at hq
      all_goals try cases hq
      exact .inr ⟨t, he, he'⟩
    refine ⟨cl', hc', ?_⟩
    obtain ⟨g', hg', -, hreg⟩ := hs.region r g hg
    rcases hcl2 with rfl | ⟨t, rfl, rfl⟩
    · -- still waiting
      have hsel : g'.loop ≠ .select := by
        intro hsel
        have h1 := pend_none_of_select hi'.i2 hg' hsel
        have h2 := hi'.i2.waits c cl' r .lock hc' (by simp [hp, waitsFor])
        rw [h1] at h2; cases h2
      left
      refine ⟨hp, g', hg', ?_⟩
      rcases hreg with ⟨rfl, hq⟩ | ⟨c1, n, hl, -⟩ | ⟨n, hl, rfl, rfl⟩ | ⟨t, hl, rfl, rfl⟩ | ⟨c1, t, hl, rfl, -⟩ | ⟨c1, f1, hl, -⟩ | ⟨f1, hl, -⟩ | ⟨c1, hl, -, rfl⟩
      · rw [updateCalls_none (fun e he => (hq e he).1), List.append_nil]
        rcases h with h | h | ⟨t, h1, h2, h3⟩
        · exact .inl h
        · exact .inr (.inl h)
        · exact .inr (.inr ⟨t, h1, fun hz => List.mem_append_left _ (h2 hz), h3⟩)
      · rcases h with ⟨h, -⟩ | ⟨h, -⟩ | ⟨t, h, -⟩ <;> rw [hl] at h <;> cases h
      · rcases h with ⟨h, hcnt, hf, hcalls⟩ | ⟨h, -⟩ | ⟨t, h, -⟩ <;> rw [hl] at h <;> cases h
        rw [hcalls, List.nil_append]
        right
        unfold Region.handleEvents Region.handleLockUnlock
        simp only
        rw [if_neg (by omega)]
        by_cases hz : g.lockCount = 0
        · rw [if_pos ⟨hz, by omega⟩]
          left
          have : k = 0 := by omega
          refine ⟨rfl, hf, ?_⟩
          simp [updateCalls, this, hf]
        · rw [if_neg (by omega)]
          right
          have : k ≠ 0 := by omega
          exact ⟨_, rfl, fun hz => absurd hz this, by simp [updateCalls, this]⟩
      · rcases h with ⟨h, -⟩ | ⟨h, hf, hcalls⟩ | ⟨t, h, -⟩ <;> rw [hl] at h <;> cases h
        refine .inr (.inr ⟨t, rfl, fun _ => by simp [hf], ?_⟩)
        rw [hcalls]; simp [updateCalls]
      · simp at hsel
      · rcases h with ⟨h, -⟩ | ⟨h, -⟩ | ⟨t, h, -⟩ <;> rw [hl] at h <;> cases h
      · rcases h with ⟨h, -⟩ | ⟨h, -⟩ | ⟨t, h, -⟩ <;> rw [hl] at h <;> cases h
      · simp at hsel
    · -- answered
      right; left
      refine ⟨t, ⟨by simp [isOpen], .inr rfl⟩, ?_⟩
      rw [show updateCalls r [(Ev.answer c r t : Ev τ)] = [] from rfl, List.append_nil]
      obtain ⟨cl2, g2, hc2, hg2, hl2, -⟩ := hs.told
      rw [hg] at hg2; cases hg2
      rcases h with ⟨h, -⟩ | ⟨h, -⟩ | ⟨t, h, hend, hcalls⟩ <;> rw [hl2] at h <;> cases h
      exact ⟨fun hz => List.mem_append_left _ (hend hz), hcalls⟩
  · by_cases hno : .closeBegin c ∈ es
    · have hle := hs.events_le
      obtain rfl : es = [.closeBegin c] := by
        match es, hle, hno with
        | [x], _, he => rw [List.mem_singleton.1 he]
      obtain ⟨cl2, hc2, -, rfl⟩ := hs.told
      have hlt : c < s.clients.length := (List.getElem?_eq_some_iff.1 hc2).1
      refine ⟨{ cl2 with pc := .closing (cl2.visited.map Prod.fst) }, by simp [State.setC, hlt], .inr (.inr (by simp [isOpen]))⟩
    · obtain ⟨cl', hc', hse'⟩ := hs.stays_seen hc hse hno
      refine ⟨cl', hc', .inr (.inl ⟨t, hse', fun hz => List.mem_append_left _ (hend hz), ?_⟩)⟩
      rw [updateCalls_none (hs.no_update hi hc hse hno), List.append_nil]; exact hcalls
  · obtain ⟨cl', h1, h2⟩ := hs.stays_closed hc ho
    exact ⟨cl', h1, .inr (.inr h2)⟩

theorem phase_run {tr b : List (Ev τ)} {s s' : State τ} {c : Cid} {r : Rid} {k : ℤ} {f : Fn}
    (hi : Inv tr s) (hk : 0 ≤ k) (h : Phase c r k f [] s) (hr : Run s b s') : Phase c r k f b s' := by
  induction hr with
  | nil => exact h
  | snoc hr hs ih => exact phase_step (inv_run hi hr) hk ih hs

omit [Inhabited τ] in
/-- a group held by a request was accepted for it -/
theorem holds_split {c : Cid} {r : Rid} {tr : List (Ev τ)} (h : 0 < holds c r tr) :
    ∃ a b n, tr = a ++ .accept c r n :: b ∧ 0 < n := by
  induction tr using List.reverseRecOn with
  | nil => simp [holds] at h
  | append_singleton tr e ih =>
    by_cases hpos : 0 < holds c r tr
    · obtain ⟨a, b, n, rfl, hn⟩ := ih hpos
      exact ⟨a, b ++ [e], n, by simp, hn⟩
    · rw [holds_snoc] at h
      cases e <;> simp only [add_zero] at h <;> try exact absurd h hpos
      next c' r' n =>
      split at h
      · next hcr =>
        obtain ⟨rfl, rfl⟩ := hcr
        exact ⟨tr, [], n, rfl, by omega⟩
      · exact absurd (by simpa using h) hpos

/-- every visit is preceded by its acceptance, with the updates told -/
theorem visit_updates {tr : List (Ev τ)} {s : State τ} (hr : Run (init τ) tr s) {c : Cid} {r : Rid} {t : τ}
    {pre post : List (Ev τ)} (e : tr = pre ++ .visit c r t :: post) :
    ∃ p mid f, pre = p ++ .accept c r 1 :: mid ∧ currentFn r p = some f ∧
      updateCalls r mid = (if accepted r p = 0 then [f] else []) ∧
      (accepted r p = 0 → .updEnd r f t ∈ mid) := by
  subst e
  obtain ⟨-, s2, s3, -, h2, hst, -, -⟩ := hr.cut
  obtain ⟨cl, hc, hse, -⟩ := hst.told
  have hi2 := inv_of_run h2
  have hh := hi2.i3.hold c cl r hc
  rw [seen_holding hse] at hh
  obtain ⟨p, mid, n, rfl, hn⟩ := holds_split (c := c) (r := r) (tr := pre) (by omega)
  obtain ⟨-, q2, q3, -, g2, gst, g3, g4⟩ := h2.cut
  obtain ⟨cl0, g, hc0, hg, hl, hcase⟩ := gst.told
  rcases hcase with ⟨rfl, hp0, rfl⟩ | ⟨rfl, -⟩
  swap
  · omega
  have hip := inv_of_run g2
  refine ⟨p, mid, g.updateFunc, rfl, ?_, and_comm.1 ?_⟩
  · rw [hip.i3.fnc r g hg, hl]
  · have hk : accepted r p = g.lockCount := by
      have := hip.i3.count r g hg
      simp only [pendingInc, hl] at this
      omega
    have hlt : c < q2.clients.length := (List.getElem?_eq_some_iff.1 hc0).1
    have hrl : r < q2.regions.length := (List.getElem?_eq_some_iff.1 hg).1
    have ph0 : Phase c r (accepted r p) g.updateFunc []
        ((q2.setC c { cl0 with pc := .lockRecv r }).setR r { g with loop := .handle 1 }) := by
      refine ⟨{ cl0 with pc := .lockRecv r }, by simp [State.setC, State.setR, hlt], .inl ⟨rfl, { g with loop := .handle 1 }, by simp [State.setC, State.setR, hrl], .inl ⟨rfl, hk.symm, rfl, rfl⟩⟩⟩
    have hk0 : 0 ≤ accepted r p := by rw [hk]; exact (hip.i3.alive r g hg).1
    obtain ⟨cl2, hc2, h⟩ := phase_run (inv_of_run g3) hk0 ph0 g4
    rw [hc] at hc2; cases hc2
    rcases h with ⟨hp, -⟩ | ⟨t', hse', hend, hcalls⟩ | ho
    · exfalso
      have := hse.2
      have ok := hi2.i1 c cl hc
      simp only [ClientOK, hp] at ok
      rw [hp] at this
      simp only [reduceCtorEq, or_false] at this
      exact ok.2.2.1 (List.mem_map.2 ⟨_, this, rfl⟩)
    · have e1 := (hi2.i4 c cl r t hc hse).1
      have e2 := (hi2.i4 c cl r t' hc hse').1
      rw [e1] at e2; cases e2
      exact ⟨hend, hcalls⟩
    · rw [hse.1] at ho; cases ho

/-! ### ids -/

theorem ids_inv {tr : List (Ev τ)} {s : State τ} (hr : Run (init τ) tr s) :
    ids tr = (List.range (ids tr).length).map (fun i : ℕ => i64 (i : ℤ)) ∧ s.nextId = i64 ((ids tr).length : ℤ) := by
  induction hr with
  | nil => simp [ids, init]; decide
  | @snoc tr s es s' hr hs ih =>
    obtain ⟨h1, h2⟩ := ih
    have quiet : ids es = [] → s'.nextId = s.nextId → ids (tr ++ es) = (List.range (ids (tr ++ es)).length).map (fun i : ℕ => i64 (i : ℤ)) ∧
        s'.nextId = i64 ((ids (tr ++ es)).length : ℤ) := by
      intro he hn
      have : ids (tr ++ es) = ids tr := by
        have : ids (tr ++ es) = ids tr ++ ids es := by simp [ids]
        rw [this, he, List.append_nil]
      rw [this, hn]; exact ⟨h1, h2⟩
    have grow : ids es = [s.nextId] → s'.nextId = i64 (s.nextId + 1) → ids (tr ++ es) = (List.range (ids (tr ++ es)).length).map (fun i : ℕ => i64 (i : ℤ)) ∧
        s'.nextId = i64 ((ids (tr ++ es)).length : ℤ) := by
      intro he hn
      have : ids (tr ++ es) = ids tr ++ [s.nextId] := by
        have : ids (tr ++ es) = ids tr ++ ids es := by simp [ids]
        rw [this, he]
      rw [this, List.length_append, List.length_singleton, List.range_succ, List.map_append, ← h1, hn, h2]
      refine ⟨rfl, ?_⟩
      unfold i64; push_cast; omega
    cases hs with
    | newGroup f => exact grow rfl rfl
    | newOther => exact grow rfl rfl
    | handle r g n hg hl =>
      refine quiet ?_ rfl
      rcases handleEvents_cases g r n with ⟨he, -⟩ | ⟨he, -⟩ <;> rw [he] <;> rfl
    | _ => exact quiet rfl rfl

/-! ### Releases -/

theorem takes_inv {tr : List (Ev τ)} {s : State τ} (hr : Run (init τ) tr s) (c : Cid) (r : Rid) :
    takes c r tr ≤ 1 ∧ (s.clients[c]? = none → takes c r tr = 0) ∧
    ∀ cl : Client τ, s.clients[c]? = some cl → isOpen cl.pc = true → (takes c r tr : ℤ) = holding cl r := by
  induction hr with
  | nil => simp [takes, init]
  | @snoc tr s es s' hr hs ih =>
    obtain ⟨h1, h2, h3⟩ := ih
    have hi := inv_of_run hr
    have happ : takes c r (tr ++ es) = takes c r tr + takes c r es := by simp [takes]
    have hle := hs.events_le
    have hzero : (∀ r', es ≠ [.accept c r' 1]) → takes c r es = 0 := by
      intro hne
      match es, hle with
      | [], _ => rfl
      | [e], _ =>
        cases e <;> simp [takes]
        rintro rfl rfl rfl
        exact hne _ rfl
    cases hcs : s.clients[c]? with
    | none =>
      -- not yet there
      have hz : takes c r es = 0 := by
        refine hzero ?_
        rintro r' rfl
        obtain ⟨cl, g, hc, -⟩ := hs.told
        rw [hcs] at hc; cases hc
      rw [happ, hz, add_zero]
      refine ⟨h1, fun _ => h2 hcs, ?_⟩
      intro cl hcl ho
      rw [h2 hcs]
      have hi' := inv_step hi hs
      have hlen : s.clients.length ≤ c := by simpa using hcs
      have e1 := hi.i3.hold0 c r hlen
      have e2 := hi'.i3.hold c cl r hcl
      have e3 : holds c r (tr ++ es) = holds c r tr := by
        match es, hle with
        | [], _ => simp
        | [e], _ =>
          rw [holds_snoc]
          cases e <;> simp
          rintro rfl rfl
          obtain ⟨cl, g, hc, -⟩ := hs.told
          rw [hcs] at hc; cases hc
      rw [e3, e1] at e2
      rw [← e2]; rfl
    | some cl =>
      obtain ⟨cl', hc', hcl⟩ := hs.client c cl hcs
      have h3' := h3 cl hcs
      have hno : s'.clients[c]? = none → takes c r (tr ++ es) = 0 := by
        intro hh; rw [hc'] at hh; cases hh
      have same : (∀ r', es ≠ [.accept c r' 1]) → (isOpen cl'.pc = true → isOpen cl.pc = true ∧ holding cl' r = holding cl r) →
          takes c r (tr ++ es) ≤ 1 ∧ (s'.clients[c]? = none → takes c r (tr ++ es) = 0) ∧
          ∀ cl : Client τ, s'.clients[c]? = some cl → isOpen cl.pc = true → (takes c r (tr ++ es) : ℤ) = holding cl r := by
        intro hne hh
        rw [happ, hzero hne, add_zero]
        refine ⟨h1, fun hn => absurd (hc'.symm.trans hn) (by simp), ?_⟩
        intro cl2 hcl2 ho
        rw [hc'] at hcl2; cases hcl2
        obtain ⟨ha, hb⟩ := hh ho
        rw [hb]; exact h3' ha
      have noacc : cl' = cl → ∀ r', es ≠ [.accept c r' 1] := by
        rintro rfl r' rfl
        obtain ⟨cl2, g, hc2, -, -, hcase⟩ := hs.told
        rw [hcs] at hc2; cases hc2
        have hlt : c < s.clients.length := (List.getElem?_eq_some_iff.1 hcs).1
        rcases hcase with ⟨-, hp, rfl⟩ | ⟨hh, -⟩
        · simp [State.setC, State.setR, hlt] at hc'
          rw [← hc'] at hp; cases hp
        · omega
      rcases hcl with rfl | ⟨hp, he, h⟩ | ⟨r', hp, rfl, rfl⟩ | ⟨r', t', hp, rfl, rfl⟩ | ⟨r', t', hp, rfl, rfl⟩ | ⟨r', f, hp, rfl, rfl⟩ | ⟨r', hp, rfl, rfl⟩ | ⟨hp, rfl, rfl⟩ | ⟨h, h', h''⟩
      · exact same (noacc rfl) (fun h => ⟨h, rfl⟩)
      · refine same ?_ ?_
        · rintro r' rfl
          obtain ⟨cl2, g, hc2, -, -, hcase⟩ := hs.told
          rw [hcs] at hc2; cases hc2
          rcases hcase with ⟨-, hp', -⟩ | ⟨hh, -⟩
          · rw [hp] at hp'; cases hp'
          · omega
        · intro _
          refine ⟨by simp [hp, isOpen], ?_⟩
          rcases h with ⟨r1, h, -⟩ | ⟨r1, f, h⟩ <;> (simp only [holding, h, hp]; rw [he])
      · -- accepted
        have ok := hi.i1 c cl hcs
        simp only [ClientOK, hp] at ok
        have ho : isOpen cl.pc = true := by simp [hp, isOpen]
        have e0 := h3' ho
        rw [happ]
        by_cases hrr : r' = r
        · subst hrr
          have hz : holding cl r' = 0 := by simp only [holding, hp]; rw [if_neg ok.2.2.1]
          have hone : takes c r' [(Ev.accept c r' 1 : Ev τ)] = (1 : ℕ) := by simp [takes]
          have e00 : takes c r' tr = 0 := by omega
          rw [hone, e00]
          refine ⟨le_rfl, fun hn => absurd (hc'.symm.trans hn) (by simp), ?_⟩
          intro cl2 hcl2 _
          rw [hc'] at hcl2; cases hcl2
          simp [holding]
        · have hz : takes c r [(Ev.accept c r' 1 : Ev τ)] = (0 : ℕ) := by simp [takes, hrr]
          rw [hz, add_zero]
          refine ⟨h1, fun hn => absurd (hc'.symm.trans hn) (by simp), ?_⟩
          intro cl2 hcl2 _
          rw [hc'] at hcl2; cases hcl2
          rw [e0]
          simp only [holding, hp, List.mem_cons]
          have : ¬ r = r' := fun hh => hrr hh.symm
          by_cases hm : r ∈ cl.visited.map Prod.fst
          · simp only [this, hm, false_or, if_true]
          · simp only [this, hm, false_or, if_false]
      · exact same (by intro r1 hh; cases hh) (fun _ => ⟨by simp [hp, isOpen], by simp [holding, hp]⟩)
      · exact same (by intro r1 hh; cases hh) (fun _ => ⟨by simp [hp, isOpen], by simp only [holding, hp]; rfl⟩)
      · exact same (by intro r1 hh; cases hh) (fun _ => ⟨by simp [hp, isOpen], by simp [holding, hp]⟩)
      · exact same (by intro r1 hh; cases hh) (fun _ => ⟨by simp [hp, isOpen], by simp [holding, hp]⟩)
      · exact same (by intro r1 hh; cases hh) (fun hh => by simp [isOpen] at hh)
      · exact same h'' (fun hh => by rw [h'] at hh; cases hh)

end Tricorder.Group
