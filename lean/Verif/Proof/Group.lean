import Verif.Spec.Group
import Mathlib.Algebra.BigOperators.Group.List.Basic
import Mathlib.Algebra.Order.BigOperators.Group.List
import Mathlib.Data.List.Nodup
import Mathlib.Tactic.Ring
import Mathlib.Tactic.Linarith
/-! # Groups: lemmas -/

namespace Tricorder.Group
open Go

variable {τ : Type} [Inhabited τ]

/-! ### Runs -/

theorem Step.events_le {s s' : State τ} {es : List (Ev τ)} (h : Step s es s') : es.length ≤ 1 := by
  cases h <;> simp [Region.handleEvents] <;> split <;> simp

theorem Run.trans {s0 s1 s2 : State τ} {a b : List (Ev τ)} (h1 : Run s0 a s1) (h2 : Run s1 b s2) :
    Run s0 (a ++ b) s2 := by
  induction h2 with
  | nil => simpa using h1
  | snoc _ hs ih => rw [← List.append_assoc]; exact .snoc ih hs

theorem Run.one {s0 s1 : State τ} {es : List (Ev τ)} (h : Step s0 es s1) : Run s0 es s1 := by
  simpa using Run.snoc Run.nil h

/-- a run can be cut between any two events -/
theorem Run.split {s0 s : State τ} {tr : List (Ev τ)} (h : Run s0 tr s) :
    ∀ a b, tr = a ++ b → ∃ s1, Run s0 a s1 ∧ Run s1 b s := by
  induction h with
  | nil =>
    intro a b hab
    obtain ⟨rfl, rfl⟩ := List.append_eq_nil_iff.1 hab.symm
    exact ⟨_, .nil, .nil⟩
  | @snoc tr s es s' hr hs ih =>
    intro a b hab
    have hl := hs.events_le
    match es, hl with
    | [], _ =>
      rw [List.append_nil] at hab
      obtain ⟨s1, h1, h2⟩ := ih a b hab
      exact ⟨s1, h1, by simpa using Run.snoc h2 hs⟩
    | [e], _ =>
      rcases List.eq_nil_or_concat b with rfl | ⟨b', x, rfl⟩
      · rw [List.append_nil] at hab
        subst hab
        exact ⟨_, .snoc hr hs, .nil⟩
      · rw [List.concat_eq_append, ← List.append_assoc] at hab
        obtain ⟨hab', hx⟩ := List.append_inj' hab rfl
        obtain ⟨rfl⟩ : e = x := by simpa using hx
        obtain ⟨s1, h1, h2⟩ := ih a b' hab'
        exact ⟨s1, h1, by rw [List.concat_eq_append]; exact .snoc h2 hs⟩

/-- cut out one event -/
theorem Run.cut {s0 s : State τ} {a b : List (Ev τ)} {e : Ev τ} (h : Run s0 (a ++ e :: b) s) :
    ∃ s1 s2 s3, Run s0 a s1 ∧ Run s0 a s2 ∧ Step s2 [e] s3 ∧ Run s0 (a ++ [e]) s3 ∧ Run s3 b s := by
  obtain ⟨s1, h1, h2⟩ := h.split a (e :: b) rfl
  have key : ∀ {s1 s : State τ} {tr : List (Ev τ)}, Run s1 tr s → ∀ b, tr = e :: b →
      ∃ s2 s3, Run s1 [] s2 ∧ Step s2 [e] s3 ∧ Run s3 b s := by
    intro s1 s tr h
    induction h with
    | nil => intro b hb; cases hb
    | @snoc tr s es s' hr hs ih =>
      intro b hb
      cases tr with
      | cons x tr =>
        simp only [List.cons_append, List.cons.injEq] at hb
        obtain ⟨rfl, rfl⟩ := hb
        obtain ⟨s2, s3, g1, g2, g3⟩ := ih tr rfl
        exact ⟨s2, s3, g1, g2, .snoc g3 hs⟩
      | nil =>
        simp only [List.nil_append] at hb
        subst hb
        have hl := hs.events_le
        simp only [List.length_cons] at hl
        obtain rfl : b = [] := List.length_eq_zero_iff.1 (by omega)
        exact ⟨_, _, hr, hs, .nil⟩
  obtain ⟨s2, s3, g1, g2, g3⟩ := key h2 b rfl
  have r2 : Run s0 a s2 := by simpa using h1.trans g1
  exact ⟨s1, s2, s3, h1, r2, g2, .snoc r2 g2, g3⟩

/-! ### What a client does -/

theorem send_cases {cl cl' : Client τ} {r : Rid} {n : ℤ} (h : cl.send r = some (cl', n)) :
    (cl.pc = .lockSend r ∧ cl' = { cl with pc := .lockRecv r } ∧ n = 1) ∨
    (∃ todo, cl.pc = .unlockSend r todo ∧ cl' = { cl with pc := .unlockRecv r todo } ∧ n = -1) := by
  unfold Client.send at h
  split at h
  · next r' hp =>
    split at h
    · next hr => subst hr; cases h; exact .inl ⟨hp, rfl, rfl⟩
    · cases h
  · next r' todo hp =>
    split at h
    · next hr => subst hr; cases h; exact .inr ⟨todo, hp, rfl, rfl⟩
    · cases h
  · cases h

theorem receive_cases {cl cl' : Client τ} {r : Rid} {t : τ} (h : cl.receive r t = some cl') :
    (cl.pc = .lockRecv r ∧ cl' = { cl with pc := .lockDone r t }) ∨
    (∃ todo, cl.pc = .unlockRecv r todo ∧ cl' = { cl with pc := .closing todo }) := by
  unfold Client.receive at h
  split at h
  · next r' hp =>
    split at h
    · next hr => subst hr; cases h; exact .inl ⟨hp, rfl⟩
    · cases h
  · next r' todo hp =>
    split at h
    · next hr => subst hr; cases h; exact .inr ⟨todo, hp, rfl⟩
    · cases h
  · cases h

theorem visit_none {cl : Client τ} {r : Rid} (h : (cl.visit r).2 = none) :
    (cl.visit r).1 = { cl with pc := .lockSend r } ∧ r ∉ cl.visited.map Prod.fst := by
  unfold Client.visit at h ⊢
  cases hl : cl.visited.lookup r with
  | some t => rw [hl] at h; cases h
  | none =>
    refine ⟨rfl, ?_⟩
    rw [List.lookup_eq_none_iff] at hl
    intro hm
    obtain ⟨p, hp, rfl⟩ := List.mem_map.1 hm
    simpa using hl p hp

theorem visit_some {cl : Client τ} {r : Rid} {t : τ} (h : (cl.visit r).2 = some t) :
    (r, t) ∈ cl.visited := by
  unfold Client.visit at h
  cases hl : cl.visited.lookup r with
  | none => rw [hl] at h; cases h
  | some u =>
    rw [hl] at h
    cases h
    rw [List.lookup_eq_some_iff] at hl
    obtain ⟨l1, l2, e, -⟩ := hl
    rw [e]; simp

/-! ### Layer 1: each client by itself -/

/-- the groups a request holds or is asking for are distinct and exist -/
def ClientOK (n : ℕ) (cl : Client τ) : Prop :=
  (cl.visited.map Prod.fst).Nodup ∧ (∀ r ∈ cl.visited.map Prod.fst, r < n) ∧
  match cl.pc with
  | .lockSend r => r ∉ cl.visited.map Prod.fst ∧ r < n
  | .lockRecv r => r ∉ cl.visited.map Prod.fst ∧ r < n
  | .lockDone r _ => r ∉ cl.visited.map Prod.fst ∧ r < n
  | .closing todo => todo.Nodup ∧ ∀ r ∈ todo, r < n
  | .unlockSend r todo => (r :: todo).Nodup ∧ r < n ∧ ∀ r ∈ todo, r < n
  | .unlockRecv r todo => (r :: todo).Nodup ∧ r < n ∧ ∀ r ∈ todo, r < n
  | .fnSend r _ => r < n
  | .fnRecv r => r < n
  | _ => True

def Inv1 (s : State τ) : Prop := ∀ (c : Cid) (cl : Client τ), s.clients[c]? = some cl → ClientOK s.regions.length cl

theorem ClientOK.mono {n m : ℕ} {cl : Client τ} (h : ClientOK n cl) (hnm : n ≤ m) : ClientOK m cl := by
  obtain ⟨h1, h2, h3⟩ := h
  refine ⟨h1, fun r hr => (h2 r hr).trans_le hnm, ?_⟩
  revert h3
  cases cl.pc <;> simp only [imp_self] <;> intro h3
  all_goals first
    | exact ⟨h3.1, h3.2.trans_le hnm⟩
    | exact ⟨h3.1, fun r hr => (h3.2 r hr).trans_le hnm⟩
    | exact ⟨h3.1, h3.2.1.trans_le hnm, fun r hr => (h3.2.2 r hr).trans_le hnm⟩
    | exact h3.trans_le hnm

omit [Inhabited τ] in
theorem inv1_set {s : State τ} {c : Cid} {cl : Client τ} (h : Inv1 s) (hc : ClientOK s.regions.length cl) :
    Inv1 (s.setC c cl) := by
  intro c' cl' h'
  simp only [State.setC, List.getElem?_set] at h'
  split at h'
  · split at h' <;> cases h'
    exact hc
  · exact h c' cl' h'

omit [Inhabited τ] in
theorem inv1_setR {s : State τ} {r : Rid} {g : Region τ} (h : Inv1 s) : Inv1 (s.setR r g) := by
  intro c cl h'
  have := h c cl h'
  simpa [State.setR] using this

theorem inv1_step {s s' : State τ} {es : List (Ev τ)} (h : Inv1 s) (hs : Step s es s') : Inv1 s' := by
  cases hs with
  | newGroup f =>
    intro c cl hc
    exact (h c cl hc).mono (by simp)
  | newOther => exact h
  | openSession =>
    intro c cl hc
    simp only [List.getElem?_append] at hc
    split at hc
    · exact h c cl hc
    · have : cl = ⟨[], .user⟩ := by
        have := List.mem_of_getElem? hc
        simpa using this
      subst this
      simp [ClientOK]
  | visitAgain c cl r t hc hp hv => exact h
  | visitNew c cl r hc hp hr hv =>
    obtain ⟨e, hn⟩ := visit_none hv
    rw [e]
    have := h c cl hc
    exact inv1_set h ⟨this.1, this.2.1, hn, hr⟩
  | visitClosed c cl hc hp =>
    have := h c cl hc
    exact inv1_set h ⟨this.1, this.2.1, trivial⟩
  | send c cl cl' r g n hc hg hl hsend =>
    apply inv1_setR
    have := h c cl hc
    rcases send_cases hsend with ⟨hp, rfl, -⟩ | ⟨todo, hp, rfl, -⟩
    · apply inv1_set h
      simp only [ClientOK, hp] at this ⊢; exact this
    · apply inv1_set h
      simp only [ClientOK, hp] at this ⊢; exact this
  | handle r g n hg hl => exact inv1_setR h
  | updated r g t hg hl => exact inv1_setR h
  | receive c cl cl' r g t hc hg hl hrec =>
    apply inv1_setR
    have := h c cl hc
    rcases receive_cases hrec with ⟨hp, rfl⟩ | ⟨todo, hp, rfl⟩
    · apply inv1_set h
      simp only [ClientOK, hp] at this ⊢; exact this
    · apply inv1_set h
      simp only [ClientOK, hp] at this ⊢
      exact ⟨this.1, this.2.1, (List.nodup_cons.1 this.2.2.1).2, this.2.2.2.2⟩
  | visitDone c cl r t hc hp =>
    have := h c cl hc
    apply inv1_set h
    simp only [ClientOK, hp] at this ⊢
    refine ⟨?_, ?_, trivial⟩
    · simp only [List.map_cons, List.nodup_cons]; exact ⟨this.2.2.1, this.1⟩
    · intro r' hr'
      simp only [List.map_cons, List.mem_cons] at hr'
      rcases hr' with rfl | hr'
      · exact this.2.2.2
      · exact this.2.1 r' hr'
  | closeBegin c cl hc hp =>
    have := h c cl hc
    apply inv1_set h
    exact ⟨this.1, this.2.1, this.1, this.2.1⟩
  | closeNext c cl r todo hc hp hr =>
    have := h c cl hc
    apply inv1_set h
    simp only [ClientOK, hp] at this ⊢
    refine ⟨this.1, this.2.1, ?_, this.2.2.2 r hr, fun r' hr' => this.2.2.2 r' (List.mem_of_mem_erase hr')⟩
    exact List.nodup_cons.2 ⟨fun hm => (this.2.2.1.not_mem_erase) hm, this.2.2.1.erase r⟩
  | closeEnd c cl hc hp =>
    apply inv1_set h
    simp [ClientOK]
  | closeAgain c cl hc hp => exact h
  | fnBegin c cl r f hc hp hr =>
    have := h c cl hc
    exact inv1_set h ⟨this.1, this.2.1, hr⟩
  | fnSend c cl r f g hc hp hg hl =>
    have := h c cl hc
    apply inv1_setR
    apply inv1_set h
    simp only [ClientOK, hp] at this ⊢; exact this
  | fnHandle r f g hg hl => exact inv1_setR h
  | fnReceive c cl r g hc hp hg hl =>
    have := h c cl hc
    apply inv1_setR
    exact inv1_set h ⟨this.1, this.2.1, trivial⟩

end Tricorder.Group
