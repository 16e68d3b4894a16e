import Verif.Model.Nested
import Verif.Proof.GroupSim
/-! # Groups with nested reads: an executable scheduler, used for the examples -/

namespace Tricorder.Group.Nested
open Go

variable {τ : Type} [Inhabited τ]

/-- who moves, and how -/
inductive Move (τ : Type) where
  | opens (o : Option Owner)
  | does (a : Act τ)

def closedB (cl : Client τ) : Bool := match cl.pc with | .closed | .panicked => true | _ => false

def freeB (s : St τ) (o : Owner) : Bool :=
  (List.range s.owners.length).all fun c => match s.owners[c]?, s.grp.clients[c]? with
    | some (some o'), some cl => o' != o || closedB cl
    | _, _ => true

def canOpenB (s : St τ) : Option Owner → Bool
  | none => true
  | some (.upd q) => match s.grp.regions[q]? with | some g => (match g.loop with | .calling => true | _ => false) | none => false
  | some (.fn c) => (match s.grp.clients[c]? with | some cl => (match cl.pc with | .user => true | _ => false) | none => false) && freeB s (.fn c)

/-- the update function that the request belongs to, if the search ends -/
def chain (s : St τ) : ℕ → ℕ → Option (Option ℕ)
  | 0, _ => none
  | n + 1, c => match s.owners[c]? with
    | some (some (.upd q)) => some (some q)
    | some (some (.fn c0)) => chain s n c0
    | _ => some none

def begins (cl : Client τ) : Option ℕ := match cl.pc with | .lockSend r => some r | .fnSend r _ => some r | _ => none

def userB (cl : Client τ) : Bool := match cl.pc with | .user => true | _ => false

def okB [DecidableEq τ] (may : ℕ → ℕ → Bool) (s : St τ) (es : List (Ev τ)) (g : State τ) : Bool :=
  (g.clients.length == s.grp.clients.length) &&
  (es.all fun e => match e with | .updEnd q _ _ => freeB s (.upd q) | _ => true) &&
  ((List.range s.grp.clients.length).all fun c => match s.grp.clients[c]?, g.clients[c]? with
    | some cl, some cl' => !userB cl ||
      ((freeB s (.fn c) || (cl' == cl && es.all fun e => match e with | .visit c' _ _ => c' != c | _ => true)) &&
      (match begins cl' with
       | none => true
       | some r => match chain s 10 c with | some none => true | some (some q) => may q r | none => false))
    | _, _ => false)

/-- the step, if possible -/
def actN [DecidableEq τ] (may : ℕ → ℕ → Bool) (s : St τ) : Move τ → Option (List (Ev τ) × St τ)
  | .opens o => if canOpenB s o then
      some ([.opened s.grp.clients.length], ⟨{ s.grp with clients := s.grp.clients ++ [⟨[], .user⟩] }, s.owners ++ [o]⟩) else none
  | .does a => match act s.grp a with
    | some (es, g) => if okB may s es g then some (es, ⟨g, s.owners⟩) else none
    | none => none

def playN [DecidableEq τ] (may : ℕ → ℕ → Bool) (s : St τ) : List (Move τ) → Option (List (Ev τ) × St τ)
  | [] => some ([], s)
  | m :: ms => match actN may s m with
    | none => none
    | some (es, s1) => match playN may s1 ms with
      | none => none
      | some (es', s2) => some (es ++ es', s2)

omit [Inhabited τ] in
theorem closed_of_closedB {cl : Client τ} (h : closedB cl = true) : Closed cl := by
  unfold closedB at h
  unfold Closed
  split at h <;> simp_all

omit [Inhabited τ] in
theorem free_of_freeB {s : St τ} {o : Owner} (h : freeB s o = true) : s.Free o := by
  intro c cl h1 h2
  have := List.all_eq_true.1 h c (List.mem_range.2 (List.getElem?_eq_some_iff.1 h1).1)
  simp only [h1, h2, bne_self_eq_false, Bool.false_or] at this
  exact closed_of_closedB this

omit [Inhabited τ] in
theorem canOpen_of {s : St τ} {o : Option Owner} (h : canOpenB s o = true) : s.CanOpen o := by
  match o with
  | none => trivial
  | some (.upd q) =>
    simp only [canOpenB] at h
    split at h
    · next g hg => split at h <;> first | exact ⟨g, hg, by assumption⟩ | cases h
    · cases h
  | some (.fn c) =>
    simp only [canOpenB, Bool.and_eq_true] at h
    refine ⟨?_, free_of_freeB h.2⟩
    have h := h.1
    split at h
    · next g hg => split at h <;> first | exact ⟨g, hg, by assumption⟩ | cases h
    · cases h

omit [Inhabited τ] in
theorem chain_within {s : St τ} {c q : ℕ} (hw : Within s c q) : ∀ {n : ℕ} {x : Option ℕ}, chain s n c = some x → x = some q := by
  induction hw with
  | upd h =>
    intro n x hx
    cases n with
    | zero => cases hx
    | succ n => simp only [chain, h, Option.some.injEq] at hx; exact hx.symm
  | fn h _ ih =>
    intro n x hx
    cases n with
    | zero => cases hx
    | succ n => simp only [chain, h] at hx; exact ih hx

theorem step_of_okB [DecidableEq τ] {may : ℕ → ℕ → Bool} {s : St τ} {es : List (Ev τ)} {g : State τ} (hs : Group.Step s.grp es g) (h : okB may s es g = true) :
    Step (fun q r => may q r = true) s es ⟨g, s.owners⟩ := by
  simp only [okB, Bool.and_eq_true, beq_iff_eq] at h
  obtain ⟨⟨h1, h2⟩, h3⟩ := h
  have key : ∀ (c : ℕ) cl, s.grp.clients[c]? = some cl → cl.pc = .user → ∃ cl', g.clients[c]? = some cl' ∧
      (s.Free (.fn c) ∨ cl' = cl ∧ ∀ r t, .visit c r t ∉ es) ∧
      ∀ r, begins cl' = some r → ∃ x, chain s 10 c = some x ∧ ∀ q, x = some q → may q r = true := by
    intro c cl hc hp
    have := List.all_eq_true.1 h3 c (List.mem_range.2 (List.getElem?_eq_some_iff.1 hc).1)
    simp only [hc] at this
    split at this
    · next cl0 cl' e1 hc' =>
      cases e1
      refine ⟨cl', hc', ?_⟩
      simp only [userB, hp, Bool.not_true, Bool.false_or, Bool.and_eq_true, Bool.or_eq_true, beq_iff_eq] at this
      obtain ⟨h4, h5⟩ := this
      refine ⟨?_, fun r hr => ?_⟩
      · rcases h4 with h4 | ⟨h4, h6⟩
        · exact .inl (free_of_freeB h4)
        · refine .inr ⟨h4, fun r t hv => ?_⟩
          have := List.all_eq_true.1 h6 _ hv
          simp at this
      · simp only [hr] at h5
        split at h5
        · next e => exact ⟨_, e, by simp⟩
        · next q e => exact ⟨_, e, fun q' hq' => by cases hq'; exact h5⟩
        · cases h5
    · cases this
  refine .base s es g hs h1 (fun q f t he => ?_) (fun c cl hc hp hf => ?_) fun c q cl cl' r hw hc hp hc' hb => ?_
  · exact free_of_freeB (List.all_eq_true.1 h2 _ he)
  · obtain ⟨cl', h4, h5, -⟩ := key c cl hc hp
    rcases h5 with h5 | ⟨rfl, h5⟩
    · exact absurd h5 hf
    · exact ⟨h4, h5⟩
  · obtain ⟨cl'', h4, -, h5⟩ := key c cl hc hp
    rw [hc'] at h4
    cases h4
    obtain ⟨x, h6, h7⟩ := h5 r (by rcases hb with hb | ⟨f, hb⟩ <;> simp [begins, hb])
    exact h7 q (chain_within hw h6)

theorem playN_run [DecidableEq τ] {may : ℕ → ℕ → Bool} {ms : List (Move τ)} : ∀ {s s' s0 : St τ} {es tr : List (Ev τ)}, playN may s ms = some (es, s') →
    Run (fun q r => may q r = true) s0 tr s → Run (fun q r => may q r = true) s0 (tr ++ es) s' := by
  induction ms with
  | nil => intro s s' s0 es tr h hr; cases h; simpa using hr
  | cons m ms ih =>
    intro s s' s0 es tr h hr
    simp only [playN] at h
    split at h
    · cases h
    · next es1 s1 h1 =>
      split at h
      · cases h
      · next es2 s2 h2 =>
        cases h
        rw [← List.append_assoc]
        refine ih h2 (.snoc hr ?_)
        cases m with
        | opens o =>
          simp only [actN] at h1
          split at h1
          · next ho => cases h1; exact .opens s o (canOpen_of ho)
          · cases h1
        | does a =>
          simp only [actN] at h1
          split at h1
          · next es3 g ha =>
            split at h1
            · next hok => cases h1; exact step_of_okB (act_step ha) hok
            · cases h1
          · cases h1

end Tricorder.Group.Nested
