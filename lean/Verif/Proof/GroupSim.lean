import Verif.Proof.Group
/-! # Groups: an executable scheduler, used for the examples -/

namespace Tricorder.Group
open Go

variable {τ : Type} [Inhabited τ]

/-- which goroutine moves, and how -/
inductive Act (τ : Type) where
  | newGroup (f : Fn) | newOther | openSession
  | visit (c : Cid) (r : Rid)
  | send (c : Cid) (r : Rid) | handle (r : Rid) | updated (r : Rid) (t : τ) | receive (c : Cid) (r : Rid)
  | visitDone (c : Cid) | closeBegin (c : Cid) | closeNext (c : Cid) (r : Rid) | closeEnd (c : Cid)
  | fnBegin (c : Cid) (r : Rid) (f : Fn) | fnSend (c : Cid) | fnHandle (r : Rid) | fnReceive (c : Cid)

/-- the step, if possible -/
def act (s : State τ) : Act τ → Option (List (Ev τ) × State τ)
  | .newGroup f => some ([.newGroup s.regions.length f s.nextId], ⟨s.regions ++ [newRegion s.nextId f], s.clients, i64 (s.nextId + 1)⟩)
  | .newOther => some ([.newOther s.nextId], { s with nextId := i64 (s.nextId + 1) })
  | .openSession => some ([.opened s.clients.length], { s with clients := s.clients ++ [⟨[], .user⟩] })
  | .visit c r =>
    match s.clients[c]? with
    | none => none
    | some cl =>
      match cl.pc with
      | .user =>
        match (cl.visit r).2 with
        | some t => some ([.visit c r t], s)
        | none => if r < s.regions.length then some ([], s.setC c (cl.visit r).1) else none
      | .closed => some ([], s.setC c { cl with pc := .panicked })
      | _ => none
  | .send c r =>
    match s.clients[c]?, s.regions[r]? with
    | some cl, some g =>
      match g.loop, cl.send r with
      | .select, some (cl', n) => some ([.accept c r n], (s.setC c cl').setR r { g with loop := .handle n })
      | _, _ => none
    | _, _ => none
  | .handle r =>
    match s.regions[r]? with
    | none => none
    | some g =>
      match g.loop with
      | .handle n => some (g.handleEvents r n, s.setR r (g.handleLockUnlock n))
      | _ => none
  | .updated r t =>
    match s.regions[r]? with
    | none => none
    | some g =>
      match g.loop with
      | .calling => some ([.updEnd r g.updateFunc t], s.setR r { g with updateTime := t, loop := .reply t })
      | _ => none
  | .receive c r =>
    match s.clients[c]?, s.regions[r]? with
    | some cl, some g =>
      match g.loop with
      | .reply t =>
        match cl.receive r t with
        | some cl' => some ([.answer c r t], (s.setC c cl').setR r { g with loop := .select })
        | none => none
      | _ => none
    | _, _ => none
  | .visitDone c =>
    match s.clients[c]? with
    | none => none
    | some cl =>
      match cl.pc with
      | .lockDone r t => some ([.visit c r t], s.setC c ⟨(r, t) :: cl.visited, .user⟩)
      | _ => none
  | .closeBegin c =>
    match s.clients[c]? with
    | none => none
    | some cl =>
      match cl.pc with
      | .user => some ([.closeBegin c], s.setC c { cl with pc := .closing (cl.visited.map Prod.fst) })
      | _ => none
  | .closeNext c r =>
    match s.clients[c]? with
    | none => none
    | some cl =>
      match cl.pc with
      | .closing todo => if r ∈ todo then some ([], s.setC c { cl with pc := .unlockSend r (todo.erase r) }) else none
      | _ => none
  | .closeEnd c =>
    match s.clients[c]? with
    | none => none
    | some cl =>
      match cl.pc with
      | .closing [] => some ([.closeEnd c], s.setC c ⟨[], .closed⟩)
      | _ => none
  | .fnBegin c r f =>
    match s.clients[c]? with
    | none => none
    | some cl =>
      match cl.pc with
      | .user => if r < s.regions.length then some ([], s.setC c { cl with pc := .fnSend r f }) else none
      | _ => none
  | .fnSend c =>
    match s.clients[c]? with
    | none => none
    | some cl =>
      match cl.pc with
      | .fnSend r f =>
        match s.regions[r]? with
        | none => none
        | some g =>
          match g.loop with
          | .select => some ([.acceptFn c r f], (s.setC c { cl with pc := .fnRecv r }).setR r { g with loop := .handleFn f })
          | _ => none
      | _ => none
  | .fnHandle r =>
    match s.regions[r]? with
    | none => none
    | some g =>
      match g.loop with
      | .handleFn f => some ([], s.setR r { g with updateFunc := f, loop := .replyFn })
      | _ => none
  | .fnReceive c =>
    match s.clients[c]? with
    | none => none
    | some cl =>
      match cl.pc with
      | .fnRecv r =>
        match s.regions[r]? with
        | none => none
        | some g =>
          match g.loop with
          | .replyFn => some ([.answerFn c r], (s.setC c { cl with pc := .user }).setR r { g with loop := .select })
          | _ => none
      | _ => none

theorem act_step {s s' : State τ} {a : Act τ} {es : List (Ev τ)} (h : act s a = some (es, s')) : Step s es s' := by
  cases a <;> simp only [act] at h
  all_goals repeat' split at h
  all_goals try cases h
  · exact .newGroup s _
  · exact .newOther s
  · exact .openSession s
  · exact .visitAgain s _ _ _ _ (by assumption) (by assumption) (by assumption)
  · exact .visitNew s _ _ _ (by assumption) (by assumption) (by assumption) (by assumption)
  · exact .visitClosed s _ _ (by assumption) (by assumption)
  · exact .send s _ _ _ _ _ _ (by assumption) (by assumption) (by assumption) (by assumption)
  · exact .handle s _ _ _ (by assumption) (by assumption)
  · exact .updated s _ _ _ (by assumption) (by assumption)
  · exact .receive s _ _ _ _ _ _ (by assumption) (by assumption) (by assumption) (by assumption)
  · exact .visitDone s _ _ _ _ (by assumption) (by assumption)
  · exact .closeBegin s _ _ (by assumption) (by assumption)
  · exact .closeNext s _ _ _ _ (by assumption) (by assumption) (by assumption)
  · exact .closeEnd s _ _ (by assumption) (by assumption)
  · exact .fnBegin s _ _ _ _ (by assumption) (by assumption) (by assumption)
  · exact .fnSend s _ _ _ _ _ (by assumption) (by assumption) (by assumption) (by assumption)
  · exact .fnHandle s _ _ _ (by assumption) (by assumption)
  · exact .fnReceive s _ _ _ _ (by assumption) (by assumption) (by assumption) (by assumption)

/-- run a schedule -/
def play : List (Act τ) → State τ → Option (List (Ev τ) × State τ)
  | [], s => some ([], s)
  | a :: as, s =>
    match act s a with
    | none => none
    | some (es, s') =>
      match play as s' with
      | none => none
      | some (tr, s'') => some (es ++ tr, s'')

theorem play_run {as : List (Act τ)} {s s' : State τ} {tr : List (Ev τ)} (h : play as s = some (tr, s')) : Run s tr s' := by
  induction as generalizing s tr with
  | nil => simp only [play, Option.some.injEq, Prod.mk.injEq] at h; obtain ⟨rfl, rfl⟩ := h; exact .nil
  | cons a as ih =>
    rw [play] at h
    split at h
    · cases h
    · next es s1 h1 =>
      split at h
      · cases h
      · next tr1 s2 h2 =>
        simp only [Option.some.injEq, Prod.mk.injEq] at h
        obtain ⟨rfl, rfl⟩ := h
        have h1' : Run s es s1 := by simpa using Run.snoc (Run.nil (s0 := s)) (act_step h1)
        exact h1'.trans (ih h2)

end Tricorder.Group
