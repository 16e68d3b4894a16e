import Verif.Spec.Zero
import Verif.Props.Group
/-! # Groups that were only declared -/

namespace Tricorder.Group
open Go Zero

variable {τ : Type} [Inhabited τ]

/-- `s` is `z` with groups that work in place of those that were only declared -/
structure Rel (z s : State τ) : Prop where
  clients : z.clients = s.clients
  len : z.regions.length = s.regions.length
  regions : ∀ (r : Rid) (g : Region τ), z.regions[r]? = some g → ∃ g', s.regions[r]? = some g' ∧ (g.loop ≠ .crashed → g' = { g with id := g'.id })

omit [Inhabited τ] in
theorem Rel.setC {z s : State τ} (h : Rel z s) (c : Cid) (cl : Client τ) : Rel (z.setC c cl) (s.setC c cl) :=
  ⟨by simp [State.setC, h.clients], by simpa [State.setC] using h.len, by simpa [State.setC] using h.regions⟩

omit [Inhabited τ] in
theorem Rel.setR {z s : State τ} (h : Rel z s) (r : Rid) {g g' : Region τ}
    (hg : g.loop ≠ .crashed → g' = { g with id := g'.id }) : Rel (z.setR r g) (s.setR r g') := by
  refine ⟨h.clients, by simpa [State.setR] using h.len, ?_⟩
  intro r1 g1 h1
  simp only [State.setR, List.getElem?_set] at h1 ⊢
  have := h.len
  split at h1
  · next e =>
    split at h1
    · next hl =>
      cases h1
      refine ⟨g', ?_, hg⟩
      simp [e, ← this]; simp [← e, hl]
    · cases h1
  · next e =>
    obtain ⟨g2, h2, h3⟩ := h.regions r1 g1 h1
    exact ⟨g2, by simp [e, h2], h3⟩

theorem handle_id (g : Region τ) (n : ℤ) (i : ℤ) :
    ({ g with id := i } : Region τ).handleLockUnlock n = { g.handleLockUnlock n with id := i } := by
  unfold Region.handleLockUnlock
  simp only
  split
  · rfl
  · split <;> rfl

theorem handleEvents_id (g : Region τ) (r : Rid) (n : ℤ) (i : ℤ) :
    ({ g with id := i } : Region τ).handleEvents r n = g.handleEvents r n := by
  unfold Region.handleEvents
  rw [handle_id]

theorem sim {z z' s : State τ} {es : List (ZEv τ)} (h : Rel z s) (hs : ZStep z es z') :
    ∃ es' s', Step s es' s' ∧ es'.map bare = es.map bareZ ∧ Rel z' s' := by
  have key : ∀ {r : Rid} {g : Region τ}, z.regions[r]? = some g → g.loop ≠ .crashed → ∃ i, s.regions[r]? = some { g with id := i } := by
    intro r g hg hl
    obtain ⟨g', h1, h2⟩ := h.regions r g hg
    exact ⟨g'.id, by rw [h1, ← h2 hl]⟩
  cases hs with
  | declare =>
    refine ⟨_, _, .newGroup s 0, by simp [bare, bareZ, h.len], h.clients, by simp [h.len], ?_⟩
    intro r g hg
    rw [List.getElem?_append] at hg
    split at hg
    · next hl =>
      obtain ⟨g', h1, h2⟩ := h.regions r g hg
      exact ⟨g', by rw [List.getElem?_append_left (h.len ▸ hl)]; exact h1, h2⟩
    · next hl =>
      obtain ⟨hlt, e⟩ := List.getElem?_eq_some_iff.1 hg
      simp only [List.length_singleton] at hlt
      have hr : r = s.regions.length := by have := h.len; omega
      subst hr
      refine ⟨newRegion s.nextId 0, by simp, ?_⟩
      have e' : g = zeroGroup := by simpa using e.symm
      intro hne; rw [e'] at hne; exact absurd rfl hne
  | @step _ es hs =>
    cases hs with
    | newGroup f =>
      refine ⟨_, _, .newGroup s f, by simp [bare, bareZ, h.len], h.clients, by simp [h.len], ?_⟩
      intro r g hg
      rw [List.getElem?_append] at hg
      split at hg
      · next hl =>
        obtain ⟨g', h1, h2⟩ := h.regions r g hg
        exact ⟨g', by rw [List.getElem?_append_left (h.len ▸ hl)]; exact h1, h2⟩
      · next hl =>
        obtain ⟨hlt, e⟩ := List.getElem?_eq_some_iff.1 hg
        simp only [List.length_singleton] at hlt
        have hr : r = s.regions.length := by have := h.len; omega
        subst hr
        refine ⟨newRegion s.nextId f, by simp, ?_⟩
        have e' : g = newRegion z.nextId f := by simpa using e.symm
        intro _; rw [e']; rfl
    | newOther => exact ⟨_, _, .newOther s, by simp [bare, bareZ], h.clients, h.len, h.regions⟩
    | openSession =>
      refine ⟨_, _, .openSession s, by simp [bare, bareZ, h.clients], by simp [h.clients], h.len, h.regions⟩
    | visitAgain c cl r t hc hp hv =>
      exact ⟨_, _, .visitAgain s c cl r t (h.clients ▸ hc) hp hv, by simp [bareZ], h⟩
    | visitNew c cl r hc hp hr hv =>
      exact ⟨_, _, .visitNew s c cl r (h.clients ▸ hc) hp (h.len ▸ hr) hv, by simp, h.setC _ _⟩
    | visitClosed c cl hc hp => exact ⟨_, _, .visitClosed s c cl (h.clients ▸ hc) hp, by simp, h.setC _ _⟩
    | send c cl cl' r g n hc hg hl hsend =>
      obtain ⟨i, hi⟩ := key hg (by simp [hl])
      exact ⟨_, _, .send s c cl cl' r _ n (h.clients ▸ hc) hi hl hsend, by simp [bareZ], (h.setC _ _).setR _ fun _ => rfl⟩
    | handle r g n hg hl =>
      obtain ⟨i, hi⟩ := key hg (by simp [hl])
      refine ⟨_, _, .handle s r _ n hi hl, ?_, h.setR _ fun _ => by rw [handle_id]⟩
      rw [handleEvents_id]; simp [Function.comp_def, bareZ]
    | updated r g t hg hl =>
      obtain ⟨i, hi⟩ := key hg (by simp [hl])
      exact ⟨_, _, .updated s r _ t hi hl, by simp [bareZ], h.setR _ fun _ => rfl⟩
    | receive c cl cl' r g t hc hg hl hrec =>
      obtain ⟨i, hi⟩ := key hg (by simp [hl])
      exact ⟨_, _, .receive s c cl cl' r _ t (h.clients ▸ hc) hi hl hrec, by simp [bareZ], (h.setC _ _).setR _ fun _ => rfl⟩
    | visitDone c cl r t hc hp => exact ⟨_, _, .visitDone s c cl r t (h.clients ▸ hc) hp, by simp [bareZ], h.setC _ _⟩
    | closeBegin c cl hc hp => exact ⟨_, _, .closeBegin s c cl (h.clients ▸ hc) hp, by simp [bareZ], h.setC _ _⟩
    | closeNext c cl r todo hc hp hr => exact ⟨_, _, .closeNext s c cl r todo (h.clients ▸ hc) hp hr, by simp, h.setC _ _⟩
    | closeEnd c cl hc hp => exact ⟨_, _, .closeEnd s c cl (h.clients ▸ hc) hp, by simp [bareZ], h.setC _ _⟩
    | closeAgain c cl hc hp => exact ⟨_, _, .closeAgain s c cl (h.clients ▸ hc) hp, by simp, h⟩
    | fnBegin c cl r f hc hp hr => exact ⟨_, _, .fnBegin s c cl r f (h.clients ▸ hc) hp (h.len ▸ hr), by simp, h.setC _ _⟩
    | fnSend c cl r f g hc hp hg hl =>
      obtain ⟨i, hi⟩ := key hg (by simp [hl])
      exact ⟨_, _, .fnSend s c cl r f _ (h.clients ▸ hc) hp hi hl, by simp [bareZ], (h.setC _ _).setR _ fun _ => rfl⟩
    | fnHandle r f g hg hl =>
      obtain ⟨i, hi⟩ := key hg (by simp [hl])
      exact ⟨_, _, .fnHandle s r f _ hi hl, by simp, h.setR _ fun _ => rfl⟩
    | fnReceive c cl r g hc hp hg hl =>
      obtain ⟨i, hi⟩ := key hg (by simp [hl])
      exact ⟨_, _, .fnReceive s c cl r _ (h.clients ▸ hc) hp hi hl, by simp [bareZ], (h.setC _ _).setR _ fun _ => rfl⟩

theorem sim_run {z z' s : State τ} {tr : List (ZEv τ)} (h : Rel z s) (hr : ZRun z tr z') :
    ∃ tr' s', Run s tr' s' ∧ tr'.map bare = tr.map bareZ ∧ Rel z' s' := by
  induction hr with
  | nil => exact ⟨[], s, .nil, rfl, h⟩
  | snoc _ hs ih =>
    obtain ⟨t1, s1, h1, h2, h3⟩ := ih
    obtain ⟨t2, s2, h4, h5, h6⟩ := sim h3 hs
    exact ⟨t1 ++ t2, s2, h1.snoc h4, by simp [h2, h5], h6⟩

omit [Inhabited τ] in
theorem rel_init : Rel (init τ) (init τ) := ⟨rfl, rfl, by simp [init]⟩

/-- the group is dead -/
def Dead (z : State τ) (r : Rid) : Prop := z.regions[r]? = some zeroGroup

theorem dead_step {z z' : State τ} {es : List (ZEv τ)} (hs : ZStep z es z') {r : Rid} (h : Dead z r) :
    Dead z' r ∧ ∀ e, ZEv.ev e ∈ es → isUpdate r e = false ∧ isTraffic r e = false := by
  cases hs with
  | declare =>
    refine ⟨?_, by simp⟩
    have hlt : r < z.regions.length := (List.getElem?_eq_some_iff.1 h).1
    unfold Dead
    rw [List.getElem?_append_left hlt]; exact h
  | step hs =>
    obtain ⟨g', hg', -, hreg⟩ := hs.region r _ h
    rcases hreg with ⟨rfl, hq⟩ | ⟨c1, n, hl', -⟩ | ⟨n, hl', -⟩ | ⟨t, hl', -⟩ | ⟨c1, t, hl', -⟩ | ⟨c1, f1, hl', -⟩ | ⟨f1, hl', -⟩ | ⟨c1, hl', -⟩
    · refine ⟨hg', fun e he => ?_⟩
      obtain ⟨e', he', h'⟩ := List.mem_map.1 he
      cases h'
      exact hq e he'
    all_goals cases hl'

theorem dead_run {z z' : State τ} {tr : List (ZEv τ)} (hr : ZRun z tr z') {r : Rid} (h : Dead z r) :
    Dead z' r ∧ ∀ e, ZEv.ev e ∈ tr → isUpdate r e = false ∧ isTraffic r e = false := by
  induction hr with
  | nil => exact ⟨h, by simp⟩
  | snoc _ hs ih =>
    obtain ⟨h1, h2⟩ := ih
    obtain ⟨h3, h4⟩ := dead_step hs h1
    refine ⟨h3, fun e he => ?_⟩
    rcases List.mem_append.1 he with he | he
    exacts [h2 e he, h4 e he]

/-- groups that do not exist have no events -/
theorem early_step {z z' : State τ} {es : List (ZEv τ)} (hi : Inv1 z) (hs : ZStep z es z') :
    Inv1 z' ∧ z.regions.length ≤ z'.regions.length ∧
    ∀ r, z.regions.length ≤ r → ∀ e, ZEv.ev e ∈ es → isUpdate r e = false ∧ isTraffic r e = false := by
  cases hs with
  | declare => exact ⟨fun c cl hc => (hi c cl hc).mono (by simp), by simp, by simp⟩
  | step hs =>
    refine ⟨inv1_step hi hs, ?_, ?_⟩
    · cases hs <;> simp [State.setC, State.setR]
    · intro r hr e he
      obtain ⟨e', he', h'⟩ := List.mem_map.1 he
      cases h'
      have hnone : ∀ {r1 : Rid} {g : Region τ}, z.regions[r1]? = some g → r1 ≠ r := by
        intro r1 g hg e
        have := (List.getElem?_eq_some_iff.1 hg).1
        omega
      cases hs with
      | send c cl cl' r1 g n hc hg hl hsend => simp at he'; subst he'; simp [isUpdate, isTraffic, hnone hg]
      | handle r1 g n hg hl =>
        rcases handleEvents_cases g r1 n with ⟨h1, -⟩ | ⟨h1, -⟩ <;> rw [h1] at he' <;> simp at he'
        subst he'; simp [isUpdate, isTraffic, hnone hg]
      | updated r1 g t hg hl => simp at he'; subst he'; simp [isUpdate, isTraffic, hnone hg]
      | receive c cl cl' r1 g t hc hg hl hrec => simp at he'; subst he'; simp [isUpdate, isTraffic, hnone hg]
      | fnSend c cl r1 f g hc hp hg hl => simp at he'; subst he'; simp [isUpdate, isTraffic, hnone hg]
      | fnReceive c cl r1 g hc hp hg hl => simp at he'; subst he'; simp [isUpdate, isTraffic, hnone hg]
      | _ => simp at he' <;> subst he' <;> simp [isUpdate, isTraffic]

theorem early_run {z z' : State τ} {tr : List (ZEv τ)} (hi : Inv1 z) (hr : ZRun z tr z') :
    Inv1 z' ∧ z.regions.length ≤ z'.regions.length := by
  induction hr with
  | nil => exact ⟨hi, le_rfl⟩
  | snoc _ hs ih =>
    have := early_step ih.1 hs
    exact ⟨this.1, ih.2.trans this.2.1⟩

theorem declared_run {z : State τ} {tr : List (ZEv τ)} (hr : ZRun (init τ) tr z) :
    (∀ r, z.regions.length ≤ r → ∀ e, ZEv.ev e ∈ tr → isUpdate r e = false ∧ isTraffic r e = false) ∧
    ∀ r, ZEv.declared r ∈ tr → Dead z r ∧ ∀ e, ZEv.ev e ∈ tr → isUpdate r e = false ∧ isTraffic r e = false := by
  have hinit : Inv1 (init τ) := by intro c cl hc; simp [init] at hc
  induction hr with
  | nil => simp
  | @snoc tr z es z' hr hs ih =>
    obtain ⟨ih1, ih2⟩ := ih
    have hi := (early_run hinit hr).1
    obtain ⟨-, hle, hnew⟩ := early_step hi hs
    refine ⟨fun r hr e he => ?_, fun r hd => ?_⟩
    · rcases List.mem_append.1 he with he | he
      · exact ih1 r (hle.trans hr) e he
      · exact hnew r (hle.trans hr) e he
    · rcases List.mem_append.1 hd with hd | hd
      · obtain ⟨h1, h2⟩ := ih2 r hd
        obtain ⟨h3, h4⟩ := dead_step hs h1
        refine ⟨h3, fun e he => ?_⟩
        rcases List.mem_append.1 he with he | he
        exacts [h2 e he, h4 e he]
      · cases hs with
        | declare =>
          simp only [List.mem_singleton, ZEv.declared.injEq] at hd
          subst hd
          refine ⟨by simp [Dead], fun e he => ?_⟩
          simp only [List.mem_append, List.mem_singleton, reduceCtorEq, or_false] at he
          exact ih1 _ le_rfl e he
        | step hs => simp at hd

/-- who waits for a dead group waits for ever -/
theorem stuck_run {z z' : State τ} {tr : List (ZEv τ)} (hr : ZRun z tr z') {r : Rid} (h : Dead z r) {c : Cid} {cl : Client τ}
    (hc : z.clients[c]? = some cl) (hp : cl.pc = .lockSend r ∨ ∃ f, cl.pc = .fnSend r f) :
    z'.clients[c]? = some cl ∧ .ev (.closeBegin c) ∉ tr := by
  induction hr with
  | nil => exact ⟨hc, by simp⟩
  | @snoc tr z1 es z2 hr hs ih =>
    have hd := (dead_run hr h).1
    obtain ⟨-, hno⟩ := dead_step hs hd
    obtain ⟨ih, ihn⟩ := ih
    cases hs with
    | declare => exact ⟨ih, by simpa using ihn⟩
    | @step _ es hs =>
      have hcb : .closeBegin c ∉ es := by
        intro he
        have hes : es = [.closeBegin c] := by
          have := hs.events_le
          match es, he, this with
          | [e], he, _ => simp at he; simp [he]
        subst hes
        obtain ⟨cl1, hc1, hp1, -⟩ := hs.told
        rw [ih] at hc1; cases hc1
        rcases hp with hp | ⟨f, hp⟩ <;> rw [hp] at hp1 <;> cases hp1
      refine ⟨?_, by simpa [ihn] using hcb⟩
      obtain ⟨cl', hc', hcase⟩ := hs.client c cl ih
      have hcc : cl' = cl := by
        rcases hcase with rfl | ⟨hq, -⟩ | ⟨r', hq, he, he'⟩ | ⟨r', t, hq, -⟩ | ⟨r', t, hq, -⟩ | ⟨r', f, hq, he, he'⟩ | ⟨r', hq, -⟩ | ⟨hq, -⟩ | ⟨hq, -⟩
        · rfl
        all_goals rcases hp with hp | ⟨f', hp⟩ <;> rw [hp] at hq
        all_goals try cases hq
        · have := (hno (.accept c r 1) (by simp [he'])).2
          simp [isTraffic] at this
        · have := (hno (.acceptFn c r f) (by simp [he'])).2
          simp [isTraffic] at this
      rw [← hcc]; exact hc'

/-- the events of a run, told with other ids -/
theorem bare_mem {e : Ev τ} {tr : List (ZEv τ)} {tr' : List (Ev τ)} (h : tr'.map bare = tr.map bareZ) (he : ZEv.ev e ∈ tr)
    (hb : ∀ e', bare e' = bare e → e' = e) : e ∈ tr' := by
  have : bare e ∈ tr.map bareZ := List.mem_map.2 ⟨_, he, rfl⟩
  rw [← h] at this
  obtain ⟨e', h1, h2⟩ := List.mem_map.1 this
  rwa [hb e' h2] at h1

theorem mem_bare {e : Ev τ} {tr : List (ZEv τ)} {tr' : List (Ev τ)} (h : tr'.map bare = tr.map bareZ) (he : e ∈ tr')
    (hb : ∀ e', bareZ e' = bare e → e' = .ev e) : ZEv.ev e ∈ tr := by
  have : bare e ∈ tr'.map bare := List.mem_map.2 ⟨_, he, rfl⟩
  rw [h] at this
  obtain ⟨e', h1, h2⟩ := List.mem_map.1 this
  rwa [hb e' h2] at h1

end Tricorder.Group
