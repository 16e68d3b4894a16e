import Verif.Proof.Sys2
import Verif.Model.Whole
/-!
# Playing runs of the whole library

A schedule of moves, executed; used for examples.
-/

namespace Tricorder.Whole
open Go

variable {A : Type} {w : World}

/-- moves: a goroutine is started, makes its next step; steps of update functions; steps of the groups -/
inductive Move (A : Type) where
  | spawn (p : Prog A)
  | go (c : ℕ)
  | upd (r : ℕ) (cmd : Cmd)
  | send (cl r : ℕ)
  | handle (r : ℕ)
  | updated (r : ℕ) (t : Time)
  | receive (cl r : ℕ)
  | visited (cl : ℕ)
  | next (cl r : ℕ)
  | closed (cl : ℕ)

instance : (c : Cmd) → Decidable (MemOnly c)
  | .rlock _ | .runlock _ | .newRegion => .isFalse (fun h => h)
  | .createDir _ _ | .storeMetric _ _ _ _
  | .getEntry _ _ | .list _ | .removeEntry _ _ | .unregisterDir _ | .metric _ | .dirAbsPath _
  | .setUnit _ _ | .snapshot _ | .distCall _ _ | .newDist _ _ _ | .newList _ _ _ | .changeList _ _ _ _
  | .getList _ | .newVar _ | .readVar _ | .writeVar _ _ | .newSlice _ | .writeSlice _ _ _ | .callFn _
  | .callFlagGet _ | .callFlagString _ | .regionId _ | .tick _ => .isTrue trivial

/-- step of a goroutine -/
def moveGo (w : World) (c : ℕ) (s : St A) : Option (Item A × St A) :=
  match s.procs[c]? with
  | none => none
  | some ⟨.run (.ret _), _⟩ => none
  | some ⟨.run (.op (.rlock r) k), held⟩ =>
    if r < s.grp.regions.length then
      some (⟨.asks c r s.grp.clients.length, [.opened s.grp.clients.length], s.mem, s.mem⟩,
        { s.setP c ⟨.lock s.grp.clients.length r k, held⟩ with
          grp := { s.grp with clients := s.grp.clients ++ [⟨[], .lockSend r⟩] } })
    else none
  | some ⟨.run (.op (.runlock r) k), held⟩ =>
    match held.lookup r with
    | none => none
    | some cl => match s.grp.clients[cl]? with
      | none => none
      | some client => if client.pc = .user then
          some (⟨.gives c r cl, [.closeBegin cl], s.mem, s.mem⟩,
            { s.setP c ⟨.unlock cl r k, held⟩ with
              grp := s.grp.setC cl { client with pc := .closing (client.visited.map Prod.fst) } })
        else none
  | some ⟨.run (.op .newRegion k), held⟩ =>
    some (⟨.own c .newRegion, [.newGroup s.grp.regions.length 0 s.grp.nextId], s.mem, (exec w .newRegion s.mem).1⟩,
        { s.setP c ⟨.run (k s.mem.regions.length), held⟩ with
          mem := (exec w .newRegion s.mem).1
          grp := ⟨s.grp.regions ++ [Group.newRegion s.grp.nextId 0], s.grp.clients, i64 (s.grp.nextId + 1)⟩ })
  | some ⟨.run (.op cmd k), held⟩ =>
    if MemOnly cmd ∧ cmd.Ok s.mem then
      some (⟨.own c cmd, [], s.mem, (exec w cmd s.mem).1⟩,
        { s.setP c ⟨.run (k (exec w cmd s.mem).2), held⟩ with mem := (exec w cmd s.mem).1 })
    else none
  | some ⟨.lock cl r k, held⟩ =>
    match s.grp.clients[cl]? with
    | some ⟨[(r', t)], .user⟩ =>
      if r' = r then some (⟨.took c r cl t, [], s.mem, s.mem⟩, s.setP c ⟨.run (k t), (r, cl) :: held⟩) else none
    | _ => none
  | some ⟨.unlock cl r k, held⟩ =>
    match s.grp.clients[cl]? with
    | some client =>
      if client.pc = .closed then
        some (⟨.gave c r cl, [], s.mem, s.mem⟩, s.setP c ⟨.run (k ()), held.erase (r, cl)⟩) else none
    | none => none

def idle : Option (Group.Client Time) → Bool
  | some ⟨_, .user⟩ | some ⟨_, .closed⟩ => true
  | _ => false

/-- a step of the groups that leaves idle clients of goroutines alone -/
def moveGroup (s : St A) (x : Option (List (Group.Ev Time) × Group.State Time)) : Option (Item A × St A) :=
  match x with
  | none => none
  | some (es, g) =>
    if g.regions.length = s.grp.regions.length ∧ ∀ p ∈ s.procs, ∀ cl ∈ p.clients,
        idle s.grp.clients[cl]? = true → g.clients[cl]? = s.grp.clients[cl]?
    then some (⟨.loop, es, s.mem, s.mem⟩, { s with grp := g }) else none

/-- steps of the groups -/
def grpMove (s : Group.State Time) : Move A → Option (List (Group.Ev Time) × Group.State Time)
  | .send cl r => match s.clients[cl]?, s.regions[r]? with
    | some client, some g => match client.send r with
      | some (client', n) => if g.loop = .select then
          some ([.accept cl r n], (s.setC cl client').setR r { g with loop := .handle n }) else none
      | none => none
    | _, _ => none
  | .handle r => match s.regions[r]? with
    | some g => match g.loop with
      | .handle n => some (g.handleEvents r n, s.setR r (g.handleLockUnlock n))
      | _ => none
    | none => none
  | .updated r t => match s.regions[r]? with
    | some g => if g.loop = .calling then
        some ([.updEnd r g.updateFunc t], s.setR r { g with updateTime := t, loop := .reply t }) else none
    | none => none
  | .receive cl r => match s.clients[cl]?, s.regions[r]? with
    | some client, some g => match g.loop with
      | .reply t => match client.receive r t with
        | some client' => some ([.answer cl r t], (s.setC cl client').setR r { g with loop := .select })
        | none => none
      | _ => none
    | _, _ => none
  | .visited cl => match s.clients[cl]? with
    | some client => match client.pc with
      | .lockDone r t => some ([.visit cl r t], s.setC cl ⟨(r, t) :: client.visited, .user⟩)
      | _ => none
    | none => none
  | .next cl r => match s.clients[cl]? with
    | some client => match client.pc with
      | .closing todo => if r ∈ todo then some ([], s.setC cl { client with pc := .unlockSend r (todo.erase r) }) else none
      | _ => none
    | none => none
  | .closed cl => match s.clients[cl]? with
    | some client => if client.pc = .closing [] then some ([.closeEnd cl], s.setC cl ⟨[], .closed⟩) else none
    | none => none
  | _ => none

def move (w : World) (m : Move A) (s : St A) : Option (Item A × St A) :=
  match m with
  | .spawn p => some (⟨.spawn s.procs.length p, [], s.mem, s.mem⟩, { s with procs := s.procs ++ [⟨.run p, []⟩] })
  | .go c => moveGo w c s
  | .upd r cmd => match s.grp.regions[r]? with
    | some g => if g.loop = .calling ∧ MemOnly cmd ∧ cmd.Ok s.mem then
        some (⟨.upd r cmd, [], s.mem, (exec w cmd s.mem).1⟩, { s with mem := (exec w cmd s.mem).1 }) else none
    | none => none
  | m => moveGroup s (grpMove s.grp m)

theorem moveGo_step {c : ℕ} {s s' : St A} {it : Item A} (h : moveGo w c s = some (it, s')) : Step w s it s' := by
  unfold moveGo at h
  split at h
  · cases h
  · cases h
  · rename_i hp
    split at h
    · cases h; exact .asks _ _ _ _ _ hp ‹_›
    · cases h
  · rename_i hp
    split at h
    · cases h
    · rename_i hl
      split at h
      · cases h
      · rename_i hc
        split at h
        · cases h; exact .gives _ _ _ _ _ _ _ hp hl hc ‹_›
        · cases h
  · rename_i hp
    cases h; exact .newGroup _ _ _ _ hp
  · rename_i hp
    split at h
    · rename_i hc
      cases h; exact .own _ _ _ _ _ hp hc.1 hc.2
    · cases h
  · rename_i hp
    split at h
    · rename_i hc
      split at h
      · rename_i hr
        subst hr
        cases h; exact .took _ _ _ _ _ _ _ hp hc
      · cases h
    · cases h
  · rename_i hp
    split at h
    · rename_i hc
      split at h
      · cases h; exact .gave _ _ _ _ _ _ _ hp hc ‹_›
      · cases h
    · cases h

theorem grpMove_step {s g : Group.State Time} {es} {m : Move A} (h : grpMove s m = some (es, g)) : Group.Step s es g := by
  unfold grpMove at h
  split at h
  · split at h
    · rename_i hc hg
      split at h
      · rename_i hs
        split at h
        · rename_i hl; cases h; exact .send _ _ _ _ _ _ _ hc hg hl hs
        · cases h
      · cases h
    · cases h
  · split at h
    · rename_i hg
      split at h
      · rename_i hl; cases h; exact .handle _ _ _ _ hg hl
      · cases h
    · cases h
  · split at h
    · rename_i hg
      split at h
      · rename_i hl; cases h; exact .updated _ _ _ _ hg hl
      · cases h
    · cases h
  · split at h
    · rename_i hc hg
      split at h
      · rename_i hl
        split at h
        · rename_i hs; cases h; exact .receive _ _ _ _ _ _ _ hc hg hl hs
        · cases h
      · cases h
    · cases h
  · split at h
    · rename_i hc
      split at h
      · rename_i hl; cases h; exact .visitDone _ _ _ _ _ hc hl
      · cases h
    · cases h
  · split at h
    · rename_i hc
      split at h
      · rename_i hl
        split at h
        · cases h; exact .closeNext _ _ _ _ _ hc hl ‹_›
        · cases h
      · cases h
    · cases h
  · split at h
    · rename_i hc
      split at h
      · rename_i hl; cases h; exact .closeEnd _ _ _ hc hl
      · cases h
    · cases h
  · cases h

theorem moveGroup_step {s s' : St A} {it : Item A} {m : Move A} (h : moveGroup s (grpMove s.grp m) = some (it, s')) :
    Step w s it s' := by
  unfold moveGroup at h
  split at h
  · cases h
  · rename_i es g hg
    split at h
    · rename_i hc
      cases h
      refine .loop _ _ _ (grpMove_step hg) hc.1 fun p hp cl hcl client hcc hu => ?_
      rw [← hcc]
      refine hc.2 p hp cl hcl ?_
      rw [hcc]
      obtain ⟨v, pc⟩ := client
      rcases hu with rfl | rfl <;> rfl
    · cases h

theorem move_step {s s' : St A} {it : Item A} {m : Move A} (h : move w m s = some (it, s')) : Step w s it s' := by
  unfold move at h
  split at h
  · cases h; exact .spawn _ _
  · exact moveGo_step h
  · split at h
    · rename_i hg
      split at h
      · rename_i hc; cases h; exact .upd _ _ _ _ hg hc.1 hc.2.1 hc.2.2
      · cases h
    · cases h
  · exact moveGroup_step h

/-- execute a schedule -/
def playW (w : World) : List (Move A) → List (Item A) → St A → Option (List (Item A) × St A)
  | [], tr, s => some (tr, s)
  | m :: ms, tr, s => match move w m s with
    | none => none
    | some (it, s') => playW w ms (tr ++ [it]) s'

theorem playW_run {ms : List (Move A)} {tr tr' : List (Item A)} {s s' : St A} (hr : Run w tr s)
    (h : playW w ms tr s = some (tr', s')) : Run w tr' s' := by
  induction ms generalizing tr s with
  | nil => cases h; exact hr
  | cons m ms ih =>
    unfold playW at h
    split at h
    · cases h
    · exact ih (.snoc hr (move_step ‹_›)) h

def Move.spawns : Move A → ℕ
  | .spawn _ => 1
  | _ => 0

theorem moveGo_length {c : ℕ} {s s' : St A} {it : Item A} (h : moveGo w c s = some (it, s')) :
    s'.procs.length = s.procs.length := by
  unfold moveGo at h
  repeat' split at h
  all_goals first | (cases h; done) | (cases h; simp [St.setP])

theorem moveGroup_length {s s' : St A} {it : Item A} {x} (h : moveGroup s x = some (it, s')) :
    s'.procs.length = s.procs.length := by
  unfold moveGroup at h
  repeat' split at h
  all_goals first | (cases h; done) | (cases h; rfl)

theorem move_length {s s' : St A} {it : Item A} {m : Move A} (h : move w m s = some (it, s')) :
    s'.procs.length = s.procs.length + m.spawns := by
  unfold move at h
  cases m with
  | spawn p => cases h; simp [Move.spawns]
  | go c => exact moveGo_length h
  | upd r cmd =>
    dsimp only at h
    repeat' split at h
    all_goals first | (cases h; done) | (cases h; rfl)
  | _ => exact moveGroup_length h

theorem playW_keeps {ms : List (Move A)} {tr tr' : List (Item A)} {s s' : St A} (h : playW w ms tr s = some (tr', s')) :
    ∀ it ∈ tr, it ∈ tr' := by
  induction ms generalizing tr s with
  | nil => cases h; exact fun _ h => h
  | cons m ms ih =>
    unfold playW at h
    split at h
    · cases h
    · exact fun it hit => ih h it (List.mem_append_left _ hit)

/-- a call made in a schedule -/
theorem playW_spawn {ms1 ms2 : List (Move A)} {p : Prog A} {tr tr' : List (Item A)} {s s' : St A} {c : ℕ}
    (h : playW w (ms1 ++ .spawn p :: ms2) tr s = some (tr', s')) (hc : c = s.procs.length + (ms1.map Move.spawns).sum) :
    ∃ it ∈ tr', it.lab = .spawn c p := by
  induction ms1 generalizing tr s with
  | nil =>
    unfold playW at h
    refine ⟨⟨.spawn c p, [], s.mem, s.mem⟩, playW_keeps h _ (List.mem_append_right _ ?_), rfl⟩
    simp at hc
    simp [hc]
  | cons m ms ih =>
    rw [List.cons_append] at h
    unfold playW at h
    split at h
    · cases h
    · rename_i it s1 hm
      refine ih h ?_
      rw [move_length hm]
      simp only [List.map_cons, List.sum_cons] at hc
      omega

/-- a goroutine makes `n` steps -/
def gos (c n : ℕ) : List (Move A) := List.replicate n (.go c)

/-- goroutine `c` takes group `r` as client `cl`; the update function makes the steps `upds` and returns `t` -/
def taking (c r cl : ℕ) (upds : List Cmd) (t : Time) : List (Move A) :=
  [.go c, .send cl r, .handle r] ++ upds.map (.upd r) ++ [.updated r t, .receive cl r, .visited cl, .go c]

/-- it takes a group that somebody holds -/
def sharing (c r cl : ℕ) : List (Move A) :=
  [.go c, .send cl r, .handle r, .receive cl r, .visited cl, .go c]

/-- it releases the group -/
def releasing (c r cl : ℕ) : List (Move A) :=
  [.go c, .next cl r, .send cl r, .handle r, .receive cl r, .closed cl, .go c]

end Tricorder.Whole
