import Verif.Proof.Group3
import Verif.Proof.Group4
import Verif.Spec.Live
/-!
# Groups: one request can finish while all others stand still
-/

namespace Tricorder.Group
open Go

variable {τ : Type} [Inhabited τ]

/-- the step starts nothing, and nobody returns from or begins a call except those who are told to by a loop -/
structure Gentle (s : State τ) (es : List (Ev τ)) (s' : State τ) : Prop where
  regions : s'.regions.length = s.regions.length
  clients : s'.clients.length = s.clients.length
  idle : ∀ (i : ℕ) client, s.clients[i]? = some client → (client.pc = .user ∨ client.pc = .closed) → s'.clients[i]? = some client
  quiet : ∀ e ∈ es, starts e = false

def loops (s : State τ) : ℕ := (s.regions.map loopWork).sum

omit [Inhabited τ] in
theorem loops_setR {s : State τ} {r : Rid} {g g' : Region τ} (h : s.regions[r]? = some g) :
    loops (s.setR r g') + loopWork g = loops s + loopWork g' := by
  have := nsum_set loopWork s.regions r g g' h
  simp only [loops, State.setR]; omega

omit [Inhabited τ] in
theorem loops_setC {s : State τ} {c : Cid} {cl : Client τ} : loops (s.setC c cl) = loops s := rfl

omit [Inhabited τ] in
theorem gentle_setR {s : State τ} {r : Rid} {g' : Region τ} {es : List (Ev τ)} (hq : ∀ e ∈ es, starts e = false) :
    Gentle s es (s.setR r g') :=
  ⟨by simp [State.setR], rfl, fun _ _ h _ => h, hq⟩

omit [Inhabited τ] in
theorem gentle_setC {s : State τ} {c : Cid} {cl cl' : Client τ} {es : List (Ev τ)} (hc : s.clients[c]? = some cl)
    (h1 : cl.pc ≠ .user) (h2 : cl.pc ≠ .closed) (hq : ∀ e ∈ es, starts e = false) : Gentle s es (s.setC c cl') := by
  refine ⟨rfl, by simp [State.setC], fun i client hi hp => ?_, hq⟩
  have : c ≠ i := by
    rintro rfl
    rw [hc] at hi
    cases hi
    rcases hp with hp | hp
    · exact h1 hp
    · exact h2 hp
  simpa [State.setC, List.getElem?_set_ne this] using hi

omit [Inhabited τ] in
theorem Gentle.setR {s s' : State τ} {es : List (Ev τ)} (h : Gentle s es s') (r : Rid) (g : Region τ) : Gentle s es (s'.setR r g) :=
  ⟨by simpa [State.setR] using h.regions, h.clients, h.idle, h.quiet⟩

/-- a busy loop can move on; everybody's work is at most what it was -/
theorem loop_gentle {tr : List (Ev τ)} {s : State τ} (h : Inv tr s) (r : Rid) (g : Region τ)
    (hg : s.regions[r]? = some g) (hl : g.loop ≠ .select) :
    ∃ es s', Step s es s' ∧ Gentle s es s' ∧ loops s' < loops s ∧
      ∀ (c : ℕ) cl, s.clients[c]? = some cl → isDone cl = false → (∀ r, waitsFor cl.pc ≠ some (r, .fn)) →
        ∃ cl', s'.clients[c]? = some cl' ∧ work cl' ≤ work cl := by
  have hk := h.i2.loop r g hg
  have hal := (h.i3.alive r g hg).2
  have same : ∀ (g' : Region τ) (c : ℕ) (cl : Client τ), s.clients[c]? = some cl → isDone cl = false →
      (∀ r, waitsFor cl.pc ≠ some (r, .fn)) → ∃ cl', (s.setR r g').clients[c]? = some cl' ∧ work cl' ≤ work cl :=
    fun g' c cl hc _ _ => ⟨cl, hc, le_rfl⟩
  match hgl : g.loop with
  | .select => exact absurd hgl hl
  | .crashed => exact absurd hgl hal
  | .handle n =>
    refine ⟨_, _, .handle s r g n hg hgl, gentle_setR fun e he => ?_, ?_, same _⟩
    · unfold Region.handleEvents at he
      split at he
      · rw [List.mem_singleton.mp he]; rfl
      · cases he
    · have := loops_setR (g' := g.handleLockUnlock n) hg
      have a : loopWork g = 9 := by simp [loopWork, hgl]
      have b : loopWork (g.handleLockUnlock n) ≤ 8 := by
        unfold Region.handleLockUnlock; simp only
        split
        · simp [loopWork]
        · split <;> simp [loopWork]
      omega
  | .calling =>
    refine ⟨_, _, .updated s r g default hg hgl, gentle_setR (by simp [starts]), ?_, same _⟩
    have := loops_setR (g' := { g with updateTime := default, loop := .reply default }) hg
    have a : loopWork g = 8 := by simp [loopWork, hgl]
    have b : loopWork ({ g with updateTime := default, loop := .reply default } : Region τ) = 7 := by simp [loopWork]
    omega
  | .reply t =>
    simp only [loopOK, hgl] at hk
    have hsome : ∃ k, Option.map Prod.snd (pend r tr) = some k ∧ (k = .lock ∨ k = .unlock) := by
      rcases hk.1 with hk | hk
      · exact ⟨_, hk, .inl rfl⟩
      · exact ⟨_, hk, .inr rfl⟩
    obtain ⟨k, hk1, hk2⟩ := hsome
    obtain ⟨⟨c, k'⟩, hpend, rfl⟩ := Option.map_eq_some_iff.1 hk1
    obtain ⟨cl, hc, hw⟩ := h.i2.owner r c _ hpend
    have hrec : ∃ cl', cl.receive r t = some cl' ∧ work cl' < work cl ∧ cl.pc ≠ .user ∧ cl.pc ≠ .closed := by
      cases hp : cl.pc <;> rw [hp] at hw <;>
        simp only [waitsFor, reduceCtorEq, Option.some.injEq, Prod.mk.injEq] at hw
      · obtain ⟨rfl, -⟩ := hw
        refine ⟨_, (by simp only [Client.receive, hp, if_true]; rfl), ?_, by simp, by simp⟩
        simp [work, hp]
      · obtain ⟨rfl, -⟩ := hw
        refine ⟨_, (by simp only [Client.receive, hp, if_true]; rfl), ?_, by simp, by simp⟩
        simp [work, hp]
      · obtain ⟨-, e⟩ := hw
        dsimp only at hk2; rw [← e] at hk2; simp at hk2
    obtain ⟨cl', hrec, hwork, hn1, hn2⟩ := hrec
    refine ⟨_, _, .receive s c cl cl' r g t hc hg hgl hrec, (gentle_setC hc hn1 hn2 (by simp [starts])).setR _ _, ?_, ?_⟩
    · have e2 := loops_setR (s := s.setC c cl') (g' := { g with loop := .select }) hg
      rw [loops_setC] at e2
      have a : loopWork g = 7 := by simp [loopWork, hgl]
      have b : loopWork ({ g with loop := .select } : Region τ) = 0 := by simp [loopWork]
      omega
    · intro i client hi _ _
      by_cases hci : c = i
      · subst hci
        rw [hc] at hi; cases hi
        exact ⟨cl', by simp [State.setR, State.setC, (List.getElem?_eq_some_iff.mp hc).1], hwork.le⟩
      · exact ⟨client, by simpa [State.setR, State.setC, List.getElem?_set_ne hci] using hi, le_rfl⟩
  | .handleFn f =>
    refine ⟨_, _, .fnHandle s r f g hg hgl, gentle_setR (by simp), ?_, same _⟩
    have := loops_setR (g' := { g with updateFunc := f, loop := .replyFn }) hg
    have a : loopWork g = 9 := by simp [loopWork, hgl]
    have b : loopWork ({ g with updateFunc := f, loop := .replyFn } : Region τ) = 7 := by simp [loopWork]
    omega
  | .replyFn =>
    simp only [loopOK, hgl] at hk
    obtain ⟨⟨c, k'⟩, hpend, rfl⟩ := Option.map_eq_some_iff.1 hk
    obtain ⟨cl, hc, hw⟩ := h.i2.owner r c _ hpend
    have hp : cl.pc = .fnRecv r := by
      cases hp : cl.pc <;> rw [hp] at hw <;>
        simp only [waitsFor, reduceCtorEq, Option.some.injEq, Prod.mk.injEq, and_false] at hw
      rw [hw.1]
    refine ⟨_, _, .fnReceive s c cl r g hc hp hg hgl,
      (gentle_setC hc (by simp [hp]) (by simp [hp]) (by simp [starts])).setR _ _, ?_, ?_⟩
    · have e2 := loops_setR (s := s.setC c { cl with pc := .user }) (g' := { g with loop := .select }) hg
      rw [loops_setC] at e2
      have a : loopWork g = 7 := by simp [loopWork, hgl]
      have b : loopWork ({ g with loop := .select } : Region τ) = 0 := by simp [loopWork]
      omega
    · intro i client hi _ hnw
      by_cases hci : c = i
      · subst hci
        rw [hc] at hi; cases hi
        exact absurd (by simp [waitsFor, hp]) (hnw r)
      · exact ⟨client, by simpa [State.setR, State.setC, List.getElem?_set_ne hci] using hi, le_rfl⟩

/-- a request in `RLock` or `Close` -/
def busy : PC τ → Bool
  | .lockSend _ | .lockRecv _ | .lockDone _ _ | .closing _ | .unlockSend _ _ | .unlockRecv _ _ => true
  | _ => false

/-- it can move on, or a loop can -/
theorem client_gentle {tr : List (Ev τ)} {s : State τ} (h : Inv tr s) (c : Cid) (cl : Client τ) (hc : s.clients[c]? = some cl)
    (hb : busy cl.pc = true) :
    ∃ es s' cl', Step s es s' ∧ Gentle s es s' ∧ s'.clients[c]? = some cl' ∧ work cl' + loops s' < work cl + loops s := by
  have ok := h.i1 c cl hc
  have hlt := (List.getElem?_eq_some_iff.mp hc).1
  have hn1 : cl.pc ≠ .user := fun e => by rw [e] at hb; cases hb
  have hn2 : cl.pc ≠ .closed := fun e => by rw [e] at hb; cases hb
  have byLoop : ∀ (r : Rid) (g : Region τ), s.regions[r]? = some g → g.loop ≠ .select →
      ∃ es s' cl', Step s es s' ∧ Gentle s es s' ∧ s'.clients[c]? = some cl' ∧ work cl' + loops s' < work cl + loops s := by
    intro r g hg hne
    obtain ⟨es, s', h1, h2, h3, h4⟩ := loop_gentle h r g hg hne
    obtain ⟨cl', h5, h6⟩ := h4 c cl hc (by cases hp : cl.pc <;> simp [hp, busy] at hb <;> simp [isDone, hp])
      (fun r => by cases hp : cl.pc <;> simp [hp, busy] at hb <;> simp [waitsFor])
    exact ⟨es, s', cl', h1, h2, h5, by omega⟩
  have waits : ∀ r k, waitsFor cl.pc = some (r, k) → ∃ g, s.regions[r]? = some g ∧ g.loop ≠ .select := by
    intro r k hw
    have hp := h.i2.waits c cl r k hc hw
    have hlt := waits_lt ok hw
    have hg := List.getElem?_eq_getElem hlt
    have hk := h.i2.loop r _ hg
    refine ⟨_, hg, fun hsel => ?_⟩
    simp only [loopOK, hsel, hp] at hk
    simp at hk
  have setC_case : ∀ (es : List (Ev τ)) (cl' : Client τ), Step s es (s.setC c cl') → work cl' < work cl →
      (∀ e ∈ es, starts e = false) →
      ∃ es s' cl', Step s es s' ∧ Gentle s es s' ∧ s'.clients[c]? = some cl' ∧ work cl' + loops s' < work cl + loops s := by
    intro es cl' hst hw hq
    exact ⟨es, _, cl', hst, gentle_setC hc hn1 hn2 hq, by simp [State.setC, hlt], by rw [loops_setC]; omega⟩
  have send_case : ∀ (r : Rid) (g : Region τ) (cl' : Client τ) (n : ℤ), s.regions[r]? = some g → g.loop = .select →
      cl.send r = some (cl', n) → work cl' + 10 ≤ work cl →
      ∃ es s' cl', Step s es s' ∧ Gentle s es s' ∧ s'.clients[c]? = some cl' ∧ work cl' + loops s' < work cl + loops s := by
    intro r g cl' n hg hl hs hw
    refine ⟨_, _, cl', .send s c cl cl' r g n hc hg hl hs, (gentle_setC hc hn1 hn2 (by simp [starts])).setR _ _,
      by simp [State.setR, State.setC, hlt], ?_⟩
    have e2 := loops_setR (s := s.setC c cl') (g' := { g with loop := .handle n }) hg
    rw [loops_setC] at e2
    have b : loopWork ({ g with loop := .handle n } : Region τ) = 9 := by simp [loopWork]
    omega
  match hp : cl.pc with
  | .lockSend r =>
    simp only [ClientOK, hp] at ok
    obtain ⟨g, hg⟩ : ∃ g, s.regions[r]? = some g := ⟨_, List.getElem?_eq_getElem ok.2.2.2⟩
    by_cases hl : g.loop = .select
    · exact send_case r g { cl with pc := .lockRecv r } 1 hg hl (by simp [Client.send, hp]) (by simp [work, hp]; omega)
    · exact byLoop r g hg hl
  | .lockRecv r =>
    obtain ⟨g, h1, h2⟩ := waits r .lock (by simp [waitsFor, hp])
    exact byLoop r g h1 h2
  | .lockDone r t =>
    exact setC_case _ _ (.visitDone s c cl r t hc hp) (by simp [work, hp]; omega) (by simp [starts])
  | .closing [] => exact setC_case _ _ (.closeEnd s c cl hc hp) (by simp [work, hp]) (by simp [starts])
  | .closing (r :: todo) =>
    exact setC_case _ _ (.closeNext s c cl r (r :: todo) hc hp (by simp)) (by simp [work, hp]; omega) (by simp)
  | .unlockSend r todo =>
    simp only [ClientOK, hp] at ok
    obtain ⟨g, hg⟩ : ∃ g, s.regions[r]? = some g := ⟨_, List.getElem?_eq_getElem ok.2.2.2.1⟩
    by_cases hl : g.loop = .select
    · exact send_case r g { cl with pc := .unlockRecv r todo } (-1) hg hl (by simp [Client.send, hp]) (by simp [work, hp]; omega)
    · exact byLoop r g hg hl
  | .unlockRecv r todo =>
    obtain ⟨g, h1, h2⟩ := waits r .unlock (by simp [waitsFor, hp])
    exact byLoop r g h1 h2
  | .user => exact absurd hp hn1
  | .closed => exact absurd hp hn2
  | .panicked => rw [hp] at hb; cases hb
  | .fnSend r f => rw [hp] at hb; cases hb
  | .fnRecv r => rw [hp] at hb; cases hb

end Tricorder.Group
