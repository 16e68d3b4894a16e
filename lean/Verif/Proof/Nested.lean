import Verif.Spec.Nested
import Verif.Proof.Group6
/-!
# Groups: steps that begin nothing
-/

namespace Tricorder.Group
open Go

variable {τ : Type} [Inhabited τ]

/-- nobody in user code moves, except `who`, and nobody begins to wait -/
structure Calm (who : Option ℕ) (s : State τ) (es : List (Ev τ)) (s' : State τ) : Prop where
  len : s'.clients.length = s.clients.length
  user : ∀ (c : ℕ) cl, s.clients[c]? = some cl → cl.pc = .user → who ≠ some c → s'.clients[c]? = some cl ∧ ∀ r t, .visit c r t ∉ es
  begins : ∀ (c : ℕ) cl cl', s.clients[c]? = some cl → s'.clients[c]? = some cl' → cl.pc = .user → ∀ r,
    ¬ (cl'.pc = .lockSend r ∨ ∃ f, cl'.pc = .fnSend r f)

omit [Inhabited τ] in
theorem calm_setR {s : State τ} {r : ℕ} {g : Region τ} {es : List (Ev τ)} (h : ∀ c r t, .visit c r t ∉ es) : Calm none s es (s.setR r g) := by
  refine ⟨rfl, fun c cl h1 _ _ => ⟨h1, fun r t => h c r t⟩, fun c cl cl' h1 h2 h3 r h4 => ?_⟩
  have h2 : s.clients[c]? = some cl' := h2
  rw [h1] at h2
  cases h2
  rw [h3] at h4
  simp at h4

omit [Inhabited τ] in
theorem calm_setC {s : State τ} {c0 : ℕ} {cl0 cl0' : Client τ} {who : Option ℕ} {es : List (Ev τ)} (hc : s.clients[c0]? = some cl0)
    (hw : cl0.pc = .user → who = some c0) (hb : cl0.pc = .user → ∀ r, ¬ (cl0'.pc = .lockSend r ∨ ∃ f, cl0'.pc = .fnSend r f))
    (h : ∀ c r t, .visit c r t ∈ es → c = c0) : Calm who s es (s.setC c0 cl0') := by
  have hlt := (List.getElem?_eq_some_iff.mp hc).1
  refine ⟨by simp [State.setC], fun c cl h1 h2 h3 => ?_, fun c cl cl' h1 h2 h3 r h4 => ?_⟩
  · have hne : c0 ≠ c := by
      rintro rfl
      rw [hc] at h1
      cases h1
      exact h3 (hw h2)
    exact ⟨by simpa [State.setC, List.getElem?_set_ne hne] using h1, fun r t hv => hne (h c r t hv).symm⟩
  · by_cases hne : c0 = c
    · subst hne
      rw [hc] at h1
      cases h1
      simp only [State.setC, List.getElem?_set_self hlt, Option.some.injEq] at h2
      subst h2
      exact hb h3 r h4
    · simp only [State.setC, List.getElem?_set_ne hne] at h2
      rw [h1] at h2
      cases h2
      rw [h3] at h4
      simp at h4

omit [Inhabited τ] in
theorem Calm.setR {s s' : State τ} {who : Option ℕ} {es : List (Ev τ)} (h : Calm who s es s') (r : ℕ) (g : Region τ) : Calm who s es (s'.setR r g) :=
  ⟨h.len, h.user, h.begins⟩

/-- a busy loop can move on -/
theorem loop_step {tr : List (Ev τ)} {s : State τ} (h : Inv tr s) (r : Rid) (g : Region τ)
    (hg : s.regions[r]? = some g) (hl : g.loop ≠ .select) :
    ∃ es s', Step s es s' ∧ total s' < total s ∧ Calm none s es s' ∧ ∀ q f t, .updEnd q f t ∈ es → q = r ∧ g.loop = .calling := by
  have hk := h.i2.loop r g hg
  have hal := (h.i3.alive r g hg).2
  match hgl : g.loop with
  | .select => exact absurd hgl hl
  | .crashed => exact absurd hgl hal
  | .handle n =>
    have hev : ∀ e ∈ g.handleEvents r n, ∃ f, e = .updBegin r f := by
      intro e he
      rcases handleEvents_cases g r n with ⟨h1, -⟩ | ⟨h1, -⟩ <;> rw [h1] at he
      · cases he
      · exact ⟨_, List.mem_singleton.mp he⟩
    refine ⟨_, _, .handle s r g n hg hgl, ?_, calm_setR fun c r' t he => ?_, fun q f t he => ?_⟩
    · have := total_setR (g' := g.handleLockUnlock n) hg
      have a : loopWork g = 9 := by simp [loopWork, hgl]
      have b : loopWork (g.handleLockUnlock n) ≤ 8 := by
        unfold Region.handleLockUnlock; simp only
        split
        · simp [loopWork]
        · split <;> simp [loopWork]
      omega
    · obtain ⟨f, hf⟩ := hev _ he; cases hf
    · obtain ⟨f, hf⟩ := hev _ he; cases hf
  | .calling =>
    refine ⟨_, _, .updated s r g default hg hgl, ?_, calm_setR (by simp), by simp +contextual⟩
    have := total_setR (g' := { g with updateTime := default, loop := .reply default }) hg
    have a : loopWork g = 8 := by simp [loopWork, hgl]
    have b : loopWork ({ g with updateTime := default, loop := .reply default } : Region τ) = 7 := by simp [loopWork]
    omega
  | .reply t =>
    simp only [loopOK, hgl] at hk
    have hsome : ∃ k, Option.map Prod.snd (pend r tr) = some k ∧ (k = .lock ∨ k = .unlock) := by
      rcases hk.1 with hk | hk
      · exact ⟨_, hk, .inl rfl⟩
      · exact ⟨_, hk, .inr rfl⟩
    obtain ⟨k, hk1, hk2⟩ := hsome
    obtain ⟨⟨c, k'⟩, hpend, rfl⟩ := Option.map_eq_some_iff.1 hk1
    obtain ⟨cl, hc, hw⟩ := h.i2.owner r c _ hpend
    have hrec : ∃ cl', cl.receive r t = some cl' ∧ work cl' < work cl ∧ cl.pc ≠ .user := by
      cases hp : cl.pc <;> rw [hp] at hw <;>
        simp only [waitsFor, reduceCtorEq, Option.some.injEq, Prod.mk.injEq] at hw
      · obtain ⟨rfl, -⟩ := hw
        refine ⟨_, (by simp only [Client.receive, hp, if_true]; rfl), ?_, by simp⟩
        simp [work, hp]
      · obtain ⟨rfl, -⟩ := hw
        refine ⟨_, (by simp only [Client.receive, hp, if_true]; rfl), ?_, by simp⟩
        simp [work, hp]
      · obtain ⟨-, e⟩ := hw
        dsimp only at hk2; rw [← e] at hk2; simp at hk2
    obtain ⟨cl', hrec, hwork, hnu⟩ := hrec
    refine ⟨_, _, .receive s c cl cl' r g t hc hg hgl hrec, ?_,
      (calm_setC hc (fun e => absurd e hnu) (fun e => absurd e hnu) (by simp)).setR _ _, by simp⟩
    have e1 := total_setC (cl' := cl') hc
    have e2 := total_setR (s := s.setC c cl') (g' := { g with loop := .select }) hg
    have a : loopWork g = 7 := by simp [loopWork, hgl]
    have b : loopWork ({ g with loop := .select } : Region τ) = 0 := by simp [loopWork]
    omega
  | .handleFn f =>
    refine ⟨_, _, .fnHandle s r f g hg hgl, ?_, calm_setR (by simp), by simp⟩
    have := total_setR (g' := { g with updateFunc := f, loop := .replyFn }) hg
    have a : loopWork g = 9 := by simp [loopWork, hgl]
    have b : loopWork ({ g with updateFunc := f, loop := .replyFn } : Region τ) = 7 := by simp [loopWork]
    omega
  | .replyFn =>
    simp only [loopOK, hgl] at hk
    obtain ⟨⟨c, k'⟩, hpend, rfl⟩ := Option.map_eq_some_iff.1 hk
    obtain ⟨cl, hc, hw⟩ := h.i2.owner r c _ hpend
    have hp : cl.pc = .fnRecv r := by
      cases hp : cl.pc <;> rw [hp] at hw <;>
        simp only [waitsFor, reduceCtorEq, Option.some.injEq, Prod.mk.injEq, and_false] at hw
      rw [hw.1]
    refine ⟨_, _, .fnReceive s c cl r g hc hp hg hgl, ?_,
      (calm_setC hc (fun e => by rw [hp] at e; cases e) (fun e => by rw [hp] at e; cases e) (by simp)).setR _ _, by simp⟩
    have e1 := total_setC (cl' := { cl with pc := .user }) hc
    have e2 := total_setR (s := s.setC c { cl with pc := .user }) (g' := { g with loop := .select }) hg
    have a : loopWork g = 7 := by simp [loopWork, hgl]
    have b : loopWork ({ g with loop := .select } : Region τ) = 0 := by simp [loopWork]
    have a' : work cl = 6 + 20 * cl.visited.length := by simp [work, hp]
    have b' : work ({ cl with pc := .user } : Client τ) = 2 + 20 * cl.visited.length := by simp [work]
    omega

/-- the request uses, or is about to use, group `r` -/
def Uses (cl : Client τ) (r : ℕ) : Prop :=
  r ∈ cl.visited.map Prod.fst ∨ match cl.pc with
    | .lockSend r' | .lockRecv r' | .lockDone r' _ | .fnSend r' _ | .fnRecv r' => r' = r
    | .closing todo => r ∈ todo
    | .unlockSend r' todo | .unlockRecv r' todo => r' = r ∨ r ∈ todo
    | _ => False

/-- a request can move on if the loops of the groups it uses are idle -/
theorem client_step {tr : List (Ev τ)} {s : State τ} (h : Inv tr s) (c : Cid) (cl : Client τ) (hc : s.clients[c]? = some cl)
    (hidle : ∀ (r : Rid) (g : Region τ), Uses cl r → s.regions[r]? = some g → g.loop = .select) (hd : isDone cl = false) :
    ∃ es s', Step s es s' ∧ total s' < total s ∧ Calm (some c) s es s' ∧ ∀ q f t, .updEnd q f t ∉ es := by
  have ok := h.i1 c cl hc
  have nowait : ∀ r k, waitsFor cl.pc ≠ some (r, k) := by
    intro r k hw
    have hp := h.i2.waits c cl r k hc hw
    have hlt := waits_lt ok hw
    have hg := List.getElem?_eq_getElem hlt
    have hk := h.i2.loop r _ hg
    have hu : Uses cl r := by
      cases hp : cl.pc <;> rw [hp] at hw <;>
        simp only [waitsFor, reduceCtorEq, Option.some.injEq, Prod.mk.injEq] at hw <;> simp [Uses, hp, hw.1]
    simp only [loopOK, hidle r _ hu hg, hp] at hk
    simp at hk
  have setC_case : ∀ (es : List (Ev τ)) (cl' : Client τ), Step s es (s.setC c cl') → work cl' < work cl →
      (∀ r, ¬ (cl'.pc = .lockSend r ∨ ∃ f, cl'.pc = .fnSend r f)) → (∀ c' r t, .visit c' r t ∈ es → c' = c) →
      (∀ q f t, .updEnd q f t ∉ es) →
      ∃ es s', Step s es s' ∧ total s' < total s ∧ Calm (some c) s es s' ∧ ∀ q f t, .updEnd q f t ∉ es := by
    intro es cl' hst hw h1 h2 h3
    have := total_setC (cl' := cl') hc
    exact ⟨es, _, hst, by omega, calm_setC hc (fun _ => rfl) (fun _ => h1) h2, h3⟩
  match hp : cl.pc with
  | .user => exact setC_case _ _ (.closeBegin s c cl hc hp) (by simp [work, hp]) (by simp) (by simp) (by simp)
  | .lockSend r =>
    simp only [ClientOK, hp] at ok
    obtain ⟨g, hg⟩ : ∃ g, s.regions[r]? = some g := ⟨_, List.getElem?_eq_getElem ok.2.2.2⟩
    have hi := hidle r _ (by simp [Uses, hp]) hg
    refine ⟨_, _, .send s c cl { cl with pc := .lockRecv r } r _ 1 hc hg hi
      (by simp [Client.send, hp]), ?_, (calm_setC hc (fun _ => rfl) (by simp) (by simp)).setR _ _, by simp⟩
    have e1 := total_setC (cl' := { cl with pc := .lockRecv r }) hc
    have e2 := total_setR (s := s.setC c { cl with pc := .lockRecv r })
      (g' := { g with loop := .handle 1 }) hg
    have a : loopWork g = 0 := by simp [loopWork, hi]
    have b : loopWork ({ g with loop := .handle 1 } : Region τ) = 9 := by simp [loopWork]
    have a' : work cl = 43 + 20 * cl.visited.length := by simp [work, hp]
    have b' : work ({ cl with pc := .lockRecv r } : Client τ) = 29 + 20 * cl.visited.length := by simp [work]
    omega
  | .lockRecv r => exact absurd (by simp [waitsFor, hp]) (nowait r .lock)
  | .lockDone r t =>
    exact setC_case _ _ (.visitDone s c cl r t hc hp) (by simp [work, hp]; try omega) (by simp) (by simp +contextual) (by simp)
  | .closing [] => exact setC_case _ _ (.closeEnd s c cl hc hp) (by simp [work, hp]) (by simp) (by simp) (by simp)
  | .closing (r :: todo) =>
    exact setC_case _ _ (.closeNext s c cl r (r :: todo) hc hp (by simp)) (by simp [work, hp]; omega) (by simp) (by simp) (by simp)
  | .unlockSend r todo =>
    simp only [ClientOK, hp] at ok
    obtain ⟨g, hg⟩ : ∃ g, s.regions[r]? = some g := ⟨_, List.getElem?_eq_getElem ok.2.2.2.1⟩
    have hi := hidle r _ (by simp [Uses, hp]) hg
    refine ⟨_, _, .send s c cl { cl with pc := .unlockRecv r todo } r _ (-1) hc hg hi
      (by simp [Client.send, hp]), ?_, (calm_setC hc (fun _ => rfl) (by simp) (by simp)).setR _ _, by simp⟩
    have e1 := total_setC (cl' := { cl with pc := .unlockRecv r todo }) hc
    have e2 := total_setR (s := s.setC c { cl with pc := .unlockRecv r todo })
      (g' := { g with loop := .handle (-1) }) hg
    have a : loopWork g = 0 := by simp [loopWork, hi]
    have b : loopWork ({ g with loop := .handle (-1) } : Region τ) = 9 := by simp [loopWork]
    have a' : work cl = 19 + 20 * todo.length := by simp [work, hp]
    have b' : work ({ cl with pc := .unlockRecv r todo } : Client τ) = 5 + 20 * todo.length := by simp [work]
    omega
  | .unlockRecv r todo => exact absurd (by simp [waitsFor, hp]) (nowait r .unlock)
  | .closed => simp [isDone, hp] at hd
  | .panicked => simp [isDone, hp] at hd
  | .fnSend r f =>
    simp only [ClientOK, hp] at ok
    obtain ⟨g, hg⟩ : ∃ g, s.regions[r]? = some g := ⟨_, List.getElem?_eq_getElem ok.2.2⟩
    have hi := hidle r _ (by simp [Uses, hp]) hg
    refine ⟨_, _, .fnSend s c cl r f _ hc hp hg hi, ?_, (calm_setC hc (fun _ => rfl) (by simp) (by simp)).setR _ _, by simp⟩
    have e1 := total_setC (cl' := { cl with pc := .fnRecv r }) hc
    have e2 := total_setR (s := s.setC c { cl with pc := .fnRecv r })
      (g' := { g with loop := .handleFn f }) hg
    have a : loopWork g = 0 := by simp [loopWork, hi]
    have b : loopWork ({ g with loop := .handleFn f } : Region τ) = 9 := by simp [loopWork]
    have a' : work cl = 20 + 20 * cl.visited.length := by simp [work, hp]
    have b' : work ({ cl with pc := .fnRecv r } : Client τ) = 6 + 20 * cl.visited.length := by simp [work]
    omega
  | .fnRecv r => exact absurd (by simp [waitsFor, hp]) (nowait r .fn)

/-- a request uses what it used, or begins to use it from user code -/
theorem Step.uses {s s' : State τ} {es : List (Ev τ)} (h : Step s es s') {c : ℕ} {cl cl' : Client τ} (hc : s.clients[c]? = some cl)
    (hc' : s'.clients[c]? = some cl') {r : ℕ} (hu : Uses cl' r) :
    Uses cl r ∨ cl.pc = .user ∧ (cl'.pc = .lockSend r ∨ ∃ f, cl'.pc = .fnSend r f) := by
  have hlt : c < s.clients.length := (List.getElem?_eq_some_iff.1 hc).1
  have same : s'.clients = s.clients → Uses cl r ∨ cl.pc = .user ∧ (cl'.pc = .lockSend r ∨ ∃ f, cl'.pc = .fnSend r f) := fun e => by
    rw [e, hc] at hc'; cases hc'; exact .inl hu
  have set_case : ∀ (c1 : Cid) (x x' : Client τ), s.clients[c1]? = some x → s'.clients = s.clients.set c1 x' →
      (Uses x' r → Uses x r ∨ x.pc = .user ∧ (x'.pc = .lockSend r ∨ ∃ f, x'.pc = .fnSend r f)) →
      Uses cl r ∨ cl.pc = .user ∧ (cl'.pc = .lockSend r ∨ ∃ f, cl'.pc = .fnSend r f) := by
    intro c1 x x' hx e hx'
    rw [e, List.getElem?_set] at hc'
    split at hc'
    · next hcc =>
      subst hcc
      split at hc'
      · cases hc'
        rw [hc] at hx
        cases hx
        exact hx' hu
      · next hn => exact absurd hlt hn
    · rw [hc] at hc'; cases hc'; exact .inl hu
  cases h with
  | openSession =>
    rw [List.getElem?_append_left hlt, hc] at hc'
    cases hc'
    exact .inl hu
  | visitNew c1 cl1 r1 hc1 hp hr hv =>
    rw [(visit_none hv).1] at set_case hc' same
    refine set_case c1 cl1 _ hc1 rfl fun h => ?_
    rcases h with h | h
    · exact .inl (.inl h)
    · exact .inr ⟨hp, .inl (by rw [show r1 = r from h])⟩
  | visitClosed c1 cl1 hc1 hp =>
    exact set_case c1 cl1 _ hc1 rfl fun h => by rcases h with h | h; exact .inl (.inl h); exact h.elim
  | send c1 cl1 cl1' r1 g n hc1 hg hl hsend =>
    refine set_case c1 cl1 _ hc1 rfl fun h => .inl ?_
    rcases send_cases hsend with ⟨hp, rfl, rfl⟩ | ⟨todo, hp, rfl, rfl⟩
    · simpa [Uses, hp] using h
    · simpa [Uses, hp] using h
  | receive c1 cl1 cl1' r1 g t hc1 hg hl hrec =>
    refine set_case c1 cl1 _ hc1 rfl fun h => .inl ?_
    rcases receive_cases hrec with ⟨hp, rfl⟩ | ⟨todo, hp, rfl⟩
    · simpa [Uses, hp] using h
    · simp only [Uses, hp] at h ⊢
      tauto
  | visitDone c1 cl1 r1 t hc1 hp =>
    refine set_case c1 cl1 _ hc1 rfl fun h => .inl ?_
    simp only [Uses, hp, List.map_cons, List.mem_cons] at h ⊢
    rcases h with (h | h) | h
    · exact .inr h.symm
    · exact .inl h
    · exact h.elim
  | closeBegin c1 cl1 hc1 hp =>
    refine set_case c1 cl1 _ hc1 rfl fun h => .inl ?_
    simp only [Uses, hp] at h ⊢
    tauto
  | closeNext c1 cl1 r1 todo hc1 hp hr =>
    refine set_case c1 cl1 _ hc1 rfl fun h => .inl ?_
    simp only [Uses, hp] at h ⊢
    rcases h with h | rfl | h
    · exact .inl h
    · exact .inr hr
    · exact .inr (List.mem_of_mem_erase h)
  | closeEnd c1 cl1 hc1 hp =>
    refine set_case c1 cl1 _ hc1 rfl fun h => ?_
    simp [Uses] at h
  | fnBegin c1 cl1 r1 f hc1 hp hr =>
    refine set_case c1 cl1 _ hc1 rfl fun h => ?_
    rcases h with h | h
    · exact .inl (.inl h)
    · exact .inr ⟨hp, .inr ⟨f, by rw [show r1 = r from h]⟩⟩
  | fnSend c1 cl1 r1 f g hc1 hp hg hl =>
    refine set_case c1 cl1 _ hc1 rfl fun h => .inl ?_
    simpa [Uses, hp] using h
  | fnReceive c1 cl1 r1 g hc1 hp hg hl =>
    refine set_case c1 cl1 _ hc1 rfl fun h => .inl ?_
    simp only [Uses, hp] at h ⊢
    tauto
  | _ => exact same rfl

end Tricorder.Group
