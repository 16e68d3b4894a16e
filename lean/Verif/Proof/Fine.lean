import Verif.Spec.Fine
import Verif.Proof.Locks3
/-! A run of `Model/Fine` is followed step by step by one of `Model/Whole`. -/

namespace Tricorder.Fine
open Go Locks

variable {A : Type} {w : World} {n : ℕ}

theorem replays_last {s s1 s2 : State} {l : List Done} {c : ℕ} {cmd : Cmd} {r : cmd.Resp} (h : Replays w s l s1)
    (h' : Replays w s (l ++ [⟨c, cmd, r⟩]) s2) : cmd.Ok s1 ∧ r = (exec w cmd s1).2 ∧ s2 = (exec w cmd s1).1 := by
  induction h with
  | nil s =>
    cases h' with
    | cons _ _ ok h2 => cases h2; exact ⟨ok, rfl, rfl⟩
  | cons c' cmd' ok' _ ih =>
    cases h' with
    | cons _ _ ok h2 => exact ih h2

theorem replays_same {s s1 s2 : State} {l : List Done} (h : Replays w s l s1) (h' : Replays w s l s2) : s2 = s1 := by
  induction h with
  | nil s => cases h'; rfl
  | cons c' cmd' ok' _ ih => cases h' with | cons _ _ ok h2 => exact ih h2

/-- the method that a goroutine is in -/
def cmdOf : Phase → Option Cmd
  | .idle => none
  | .wait cmd _ => some cmd
  | .inside cmd _ _ _ => some cmd
  | .done cmd _ _ => some cmd

/-- the method has taken effect -/
def isDone : Phase → Bool
  | .done _ _ _ => true
  | _ => false

theorem cmdOf_none {p : Phase} : cmdOf p = none ↔ p = .idle := by cases p <;> simp [cmdOf]

/-- how a step changes the phase of the goroutine that takes it -/
inductive Moves : Locks.Lab → ℕ → Phase → Phase → Prop where
  | call {c cmd i} : Moves (.call c cmd) c .idle (.wait cmd i)
  | quiet {c cmd p p'} : cmdOf p = some cmd → cmdOf p' = some cmd → isDone p = false → isDone p' = false → Moves (.quiet c) c p p'
  | effect {c cmd r p lock} : cmdOf p = some cmd → isDone p = false → Moves (.effect c cmd r) c p (.done cmd lock r)
  | ret {c cmd r lock} : Moves (.ret c cmd r) c (.done cmd lock r) .idle

theorem moves {s s' : Locks.St} {l : Locks.Lab} (h : Locks.Step w s l s') :
    ∃ i p p', s.phases[i]? = some p ∧ s'.phases = s.phases.set i p' ∧ Moves l i p p' := by
  cases h with
  | call c cmd h1 h2 => exact ⟨_, _, _, h1, rfl, .call⟩
  | plain c cmd f h1 => exact ⟨_, _, _, h1, rfl, .effect rfl rfl⟩
  | acquire c cmd loc excl sec h1 h2 => exact ⟨_, _, _, h1, rfl, .quiet (cmd := cmd) rfl rfl rfl rfl⟩
  | read c cmd loc excl X f k h1 => exact ⟨_, _, _, h1, rfl, .quiet (cmd := cmd) rfl rfl rfl rfl⟩
  | write c cmd loc excl f k h1 => exact ⟨_, _, _, h1, rfl, .quiet (cmd := cmd) rfl rfl rfl rfl⟩
  | last c cmd loc excl f h1 => exact ⟨_, _, _, h1, rfl, .effect rfl rfl⟩
  | ret c cmd lock r h1 => exact ⟨_, _, _, h1, rfl, .ret⟩

/-- the goroutine of `Model/Whole` is where this one is, or past the method that has taken effect -/
def Ahead (ph : Option Phase) (p p' : Whole.Proc A) : Prop :=
  match ph with
  | some (.done cmd _ r) => ∃ k held, p = ⟨.run (.op cmd k), held⟩ ∧ p' = ⟨.run (k r), held⟩
  | _ => p' = p

theorem Ahead.eq {ph : Option Phase} {p p' : Whole.Proc A} (h : Ahead ph p p') (hn : ∀ x, ph = some x → isDone x = false) :
    p' = p := by
  rcases ph with _ | x
  · exact h
  · cases x with
    | done => exact absurd (hn _ rfl) (by simp [isDone])
    | _ => exact h

theorem Ahead.of_eq {ph : Option Phase} (p : Whole.Proc A) (hn : ∀ x, ph = some x → isDone x = false) : Ahead ph p p := by
  rcases ph with _ | x
  · rfl
  · cases x with
    | done => exact absurd (hn _ rfl) (by simp [isDone])
    | _ => rfl

theorem Ahead.clients {ph : Option Phase} {p p' : Whole.Proc A} (h : Ahead ph p p') : p'.clients = p.clients := by
  by_cases hn : ∀ x, ph = some x → isDone x = false
  · rw [h.eq hn]
  · rcases ph with _ | x
    · rw [show p' = p from h]
    · cases x with
      | done => obtain ⟨k, held, rfl, rfl⟩ := h; rfl
      | _ => rw [show p' = p from h]

/-- the steps of `Model/Locks` among those of a run -/
def inner (tr : List (Item A)) : List Locks.Lab :=
  tr.filterMap fun it => match it.lab with
    | .lk l => some l
    | _ => none

/-- what connects the two runs -/
structure J (w : World) (n : ℕ) (tr : List (Item A)) (f : St A) (tr' : List (Whole.Item A)) (s : Whole.St A) : Prop where
  run : Whole.Run w tr' s
  locks : Locks.Run w n (inner tr) f.lk
  replay : Replays w State.init (effects (inner tr)) s.mem
  order : tr'.map (fun i => (i.lab, i.evs)) = tr.filterMap coarse
  groups : s.grp = f.grp
  len : s.procs.length = f.procs.length
  ahead : ∀ c p p', f.procs[c]? = some p → s.procs[c]? = some p' → Ahead f.lk.phases[2 * c]? p p'
  own : ∀ (c : ℕ) ph cmd, f.lk.phases[2 * c]? = some ph → cmdOf ph = some cmd →
    (Whole.MemOnly cmd ∨ cmd = .newRegion) ∧ ∃ k held, f.procs[c]? = some ⟨.run (.op cmd k), held⟩
  upd : ∀ (r : ℕ) ph cmd, f.lk.phases[2 * r + 1]? = some ph → cmdOf ph = some cmd → Whole.MemOnly cmd ∧ Calling f.grp r

theorem start_phase {i : ℕ} {ph : Phase} (h : (Locks.start n).phases[i]? = some ph) : cmdOf ph = none := by
  rw [start_idle h]; rfl

theorem J.nil : J w n ([] : List (Item A)) (start A n) [] (Whole.start A) where
  run := .nil
  locks := .nil
  replay := .nil _
  order := rfl
  groups := rfl
  len := rfl
  ahead := by intro c p p' h; simp [start] at h
  own := by intro c ph cmd h h2; rw [start_phase h] at h2; cases h2
  upd := by intro c ph cmd h h2; rw [start_phase h] at h2; cases h2

theorem inner_snoc (tr : List (Item A)) (l : Locks.Lab) (es : List (Group.Ev Time)) :
    inner (tr ++ [⟨.lk l, es⟩]) = inner tr ++ [l] := by simp [inner]

theorem inner_none {tr : List (Item A)} {it : Item A} (h : ∀ l, it.lab ≠ .lk l) : inner (tr ++ [it]) = inner tr := by
  obtain ⟨lab, es⟩ := it
  cases lab with
  | lk l => exact absurd rfl (h l)
  | _ => simp [inner]

variable {tr : List (Item A)} {f : St A} {tr' : List (Whole.Item A)} {s : Whole.St A}

theorem J.idle (h : J w n tr f tr' s) {c : ℕ} {p : Whole.Proc A} (hp : f.procs[c]? = some p)
    (hn : ∀ cmd k, p.pc = .run (.op cmd k) → ¬ (Whole.MemOnly cmd ∨ cmd = .newRegion)) :
    ∀ ph, f.lk.phases[2 * c]? = some ph → cmdOf ph = none := by
  intro ph hph
  cases e : cmdOf ph with
  | none => rfl
  | some cmd =>
    obtain ⟨h1, k, held, h2⟩ := h.own c ph cmd hph e
    rw [hp] at h2
    cases h2
    exact absurd h1 (hn _ _ rfl)

theorem isDone_of_none {ph : Phase} (h : cmdOf ph = none) : isDone ph = false := by
  rw [cmdOf_none.1 h]; rfl

theorem J.same (h : J w n tr f tr' s) {c : ℕ} {p : Whole.Proc A} (hp : f.procs[c]? = some p)
    (hn : ∀ cmd k, p.pc = .run (.op cmd k) → ¬ (Whole.MemOnly cmd ∨ cmd = .newRegion)) : s.procs[c]? = some p := by
  have hc : c < s.procs.length := by rw [h.len]; exact (List.getElem?_eq_some_iff.1 hp).1
  have h1 := List.getElem?_eq_getElem hc
  rw [h1, (h.ahead c p _ hp h1).eq fun x hx => isDone_of_none (h.idle hp hn x hx)]

/-- a step that is not on the memory, by goroutine `c` -/
theorem J.group (h : J w n tr f tr' s) {c : ℕ} {p q : Whole.Proc A} (hp : f.procs[c]? = some p)
    (hn : ∀ cmd k, p.pc = .run (.op cmd k) → ¬ (Whole.MemOnly cmd ∨ cmd = .newRegion)) {it : Item A} (hit : ∀ l, it.lab ≠ .lk l)
    {wit : Whole.Item A} {g : Group.State Time} (hco : coarse it = some (wit.lab, wit.evs))
    (hg : ∀ r, Calling f.grp r → Calling g r)
    (hs : s.procs[c]? = some p → s.grp = f.grp → Whole.Step w s wit ⟨s.mem, g, s.procs.set c q⟩) :
    J w n (tr ++ [it]) ⟨f.lk, g, f.procs.set c q⟩ (tr' ++ [wit]) ⟨s.mem, g, s.procs.set c q⟩ where
  run := h.run.snoc (hs (h.same hp hn) h.groups)
  locks := by rw [inner_none hit]; exact h.locks
  replay := by rw [inner_none hit]; exact h.replay
  order := by simp [h.order, hco]
  groups := rfl
  len := by simp [h.len]
  ahead := by
    intro c' a b ha hb
    rw [List.getElem?_set] at ha hb
    by_cases e : c = c'
    · subst e
      rw [if_pos rfl] at ha hb
      split at ha
      · split at hb
        · cases ha; cases hb
          exact Ahead.of_eq _ fun x hx => isDone_of_none (h.idle hp hn x hx)
        · cases hb
      · cases ha
    · rw [if_neg e] at ha hb
      exact h.ahead c' a b ha hb
  own := by
    intro c' ph cmd h1 h2
    obtain ⟨h3, k, held, h4⟩ := h.own c' ph cmd h1 h2
    refine ⟨h3, k, held, ?_⟩
    have e : c ≠ c' := by
      rintro rfl
      rw [h.idle hp hn ph h1] at h2
      cases h2
    rw [List.getElem?_set, if_neg e]
    exact h4
  upd := by
    intro r ph cmd h1 h2
    exact ⟨(h.upd r ph cmd h1 h2).1, hg r (h.upd r ph cmd h1 h2).2⟩

/-- a step on the memory that has no effect yet, or no more -/
theorem J.still (h : J w n tr f tr' s) {l : Locks.Lab} {lk : Locks.St} (hl : Locks.Step w f.lk l lk)
    (hne : ∀ c cmd r, l ≠ .effect c cmd r) : 
    effects (inner (tr ++ [⟨.lk l, []⟩])) = effects (inner tr) ∧
      (tr ++ [(⟨.lk l, []⟩ : Item A)]).filterMap coarse = tr.filterMap coarse := by
  rw [inner_snoc, effects_append]
  cases l with
  | effect c cmd r => exact absurd rfl (hne c cmd r)
  | _ => simp [effects, coarse]

end Tricorder.Fine
