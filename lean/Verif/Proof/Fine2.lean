import Verif.Proof.Fine
/-! Every step of `Model/Fine` is followed by `Model/Whole`. -/

namespace Tricorder.Fine
open Go Locks

variable {A : Type} {w : World} {n : ℕ} {tr : List (Item A)} {f : St A} {tr' : List (Whole.Item A)} {s : Whole.St A}

/-- a step of `Model/Locks` by its goroutine `i` -/
theorem J.move (h : J w n tr f tr' s) {l : Locks.Lab} {lk : Locks.St} {es : List (Group.Ev Time)} (hl : Locks.Step w f.lk l lk)
    {i : ℕ} {p p' : Phase} (hp : f.lk.phases[i]? = some p) (hset : lk.phases = f.lk.phases.set i p')
    {procs : List (Whole.Proc A)} {g : Group.State Time} {tr2 : List (Whole.Item A)} {s2 : Whole.St A}
    (run : Whole.Run w tr2 s2) (replay : Replays w State.init (effects (inner tr ++ [l])) s2.mem)
    (order : tr2.map (fun i => (i.lab, i.evs)) = (tr ++ [(⟨.lk l, es⟩ : Item A)]).filterMap coarse)
    (groups : s2.grp = g) (len : s2.procs.length = procs.length)
    (other : ∀ c, i ≠ 2 * c → procs[c]? = f.procs[c]? ∧ s2.procs[c]? = s.procs[c]?)
    (ahead : ∀ c, i = 2 * c → ∀ a b, procs[c]? = some a → s2.procs[c]? = some b → Ahead (some p') a b)
    (own : ∀ c cmd, i = 2 * c → cmdOf p' = some cmd →
      (Whole.MemOnly cmd ∨ cmd = .newRegion) ∧ ∃ k held, procs[c]? = some ⟨.run (.op cmd k), held⟩)
    (hg : ∀ r, Calling f.grp r → Calling g r)
    (upd : ∀ r cmd, i = 2 * r + 1 → cmdOf p' = some cmd → Whole.MemOnly cmd ∧ Calling g r) :
    J w n (tr ++ [⟨.lk l, es⟩]) ⟨lk, g, procs⟩ tr2 s2 where
  run := run
  locks := by rw [inner_snoc]; exact h.locks.snoc hl
  replay := by rw [inner_snoc]; exact replay
  order := order
  groups := groups
  len := len
  ahead := by
    intro c a b ha hb
    rw [show (⟨lk, g, procs⟩ : St A).lk.phases = _ from hset, get_set hp]
    by_cases e : i = 2 * c
    · rw [if_pos e.symm]; exact ahead c e a b ha hb
    · rw [if_neg (Ne.symm e)]
      rw [show (⟨lk, g, procs⟩ : St A).procs[c]? = _ from (other c e).1] at ha
      rw [(other c e).2] at hb
      exact h.ahead c a b ha hb
  own := by
    intro c ph cmd h1 h2
    rw [show (⟨lk, g, procs⟩ : St A).lk.phases = _ from hset, get_set hp] at h1
    by_cases e : i = 2 * c
    · rw [if_pos e.symm] at h1; cases h1; exact own c cmd e h2
    · rw [if_neg (Ne.symm e)] at h1
      rw [show (⟨lk, g, procs⟩ : St A).procs[c]? = _ from (other c e).1]
      exact h.own c ph cmd h1 h2
  upd := by
    intro r ph cmd h1 h2
    rw [show (⟨lk, g, procs⟩ : St A).lk.phases = _ from hset, get_set hp] at h1
    by_cases e : i = 2 * r + 1
    · rw [if_pos e.symm] at h1; cases h1; exact upd r cmd e h2
    · rw [if_neg (Ne.symm e)] at h1
      exact ⟨(h.upd r ph cmd h1 h2).1, hg r (h.upd r ph cmd h1 h2).2⟩

theorem even_cases (i : ℕ) : (∃ c, i = 2 * c) ∨ ∃ r, i = 2 * r + 1 := by
  rcases Nat.even_or_odd' i with ⟨c, h | h⟩
  · exact .inl ⟨c, h⟩
  · exact .inr ⟨c, h⟩

theorem coarse_still (tr : List (Item A)) {l : Locks.Lab} (hne : ∀ c cmd r, l ≠ .effect c cmd r) :
    (tr ++ [(⟨.lk l, []⟩ : Item A)]).filterMap coarse = tr.filterMap coarse ∧
      ∀ x, effects (x ++ [l]) = effects x := by
  cases l with
  | effect c cmd r => exact absurd rfl (hne c cmd r)
  | _ => simp [effects_append, effects, coarse]

theorem coarse_own (tr : List (Item A)) (c : ℕ) (cmd : Cmd) (r : cmd.Resp) (es : List (Group.Ev Time)) :
    (tr ++ [(⟨.lk (.effect (2 * c) cmd r), es⟩ : Item A)]).filterMap coarse = tr.filterMap coarse ++ [(.own c cmd, es)] := by
  simp [coarse]

theorem coarse_upd (tr : List (Item A)) (c : ℕ) (cmd : Cmd) (r : cmd.Resp) (es : List (Group.Ev Time)) :
    (tr ++ [(⟨.lk (.effect (2 * c + 1) cmd r), es⟩ : Item A)]).filterMap coarse = tr.filterMap coarse ++ [(.upd c cmd, es)] := by
  have h1 : (2 * c + 1) % 2 = 1 := by omega
  have h2 : (2 * c + 1) / 2 = c := by omega
  simp [coarse, h1, h2]

theorem calling_append {g : Group.State Time} {r : ℕ} (h : Calling g r) (x : List (Group.Region Time)) (cl : List (Group.Client Time))
    (i : ℤ) : Calling ⟨g.regions ++ x, cl, i⟩ r := by
  obtain ⟨y, h1, h2⟩ := h
  exact ⟨y, by
    show (g.regions ++ x)[r]? = some y
    rw [List.getElem?_append_left (List.getElem?_eq_some_iff.1 h1).1]; exact h1, h2⟩

/-- the effect of a method, as seen by `Model/Whole` -/
theorem J.effect (hw : Local w) (h : J w n tr f tr' s) {i : ℕ} {cmd : Cmd} {r : cmd.Resp} {lk : Locks.St}
    (hl : Locks.Step w f.lk (.effect i cmd r) lk) : cmd.Ok s.mem ∧ r = (exec w cmd s.mem).2 ∧
      Replays w State.init (effects (inner tr ++ [.effect i cmd r])) (exec w cmd s.mem).1 := by
  obtain ⟨o, ho⟩ := inv_run hw (h.locks.snoc hl)
  have h1 := ho.replay
  rw [effects_snoc_effect] at h1
  obtain ⟨h2, h3, h4⟩ := replays_last h.replay h1
  refine ⟨h2, h3, ?_⟩
  rw [effects_snoc_effect, ← h4]
  exact h1

theorem set_self_ne {α : Type} {l : List α} {c c' : ℕ} (x : α) (h : c ≠ c') : (l.set c x)[c']? = l[c']? := by
  rw [List.getElem?_set, if_neg h]

theorem set_self_eq {α : Type} {l : List α} {c : ℕ} {x y : α} (h : (l.set c x)[c]? = some y) : y = x := by
  rw [List.getElem?_set, if_pos rfl] at h
  split at h
  · cases h; rfl
  · cases h

/-- the goroutine of `Model/Whole` waits before the method that takes effect -/
theorem J.before (h : J w n tr f tr' s) {c : ℕ} {ph : Phase} {cmd : Cmd} (hp : f.lk.phases[2 * c]? = some ph)
    (hc : cmdOf ph = some cmd) (hd : isDone ph = false) :
    ∃ k held, f.procs[c]? = some ⟨.run (.op cmd k), held⟩ ∧ s.procs[c]? = some ⟨.run (.op cmd k), held⟩ := by
  obtain ⟨_, k, held, h2⟩ := h.own c ph cmd hp hc
  refine ⟨k, held, h2, ?_⟩
  have hlt : c < s.procs.length := by rw [h.len]; exact (List.getElem?_eq_some_iff.1 h2).1
  have h1 := List.getElem?_eq_getElem hlt
  rw [h1, (h.ahead c _ _ h2 h1).eq fun x hx => by rw [hp] at hx; cases hx; exact hd]

/-- what `Model/Whole` does in the meantime: nothing, or one step -/
inductive Follows (w : World) (it : Item A) (tr' : List (Whole.Item A)) (s : Whole.St A) : List (Whole.Item A) → Whole.St A → Prop where
  | still : coarse it = none → Follows w it tr' s tr' s
  | step {wit s2} : Whole.Step w s wit s2 → coarse it = some (wit.lab, wit.evs) → Follows w it tr' s (tr' ++ [wit]) s2

theorem J.group' (h : J w n tr f tr' s) {c : ℕ} {p q : Whole.Proc A} (hp : f.procs[c]? = some p)
    (hn : ∀ cmd k, p.pc = .run (.op cmd k) → ¬ (Whole.MemOnly cmd ∨ cmd = .newRegion)) {it : Item A} (hit : ∀ l, it.lab ≠ .lk l)
    {wit : Whole.Item A} {g : Group.State Time} (hco : coarse it = some (wit.lab, wit.evs))
    (hg : ∀ r, Calling f.grp r → Calling g r)
    (hs : s.procs[c]? = some p → s.grp = f.grp → Whole.Step w s wit ⟨s.mem, g, s.procs.set c q⟩) :
    ∃ tr2 s2, J w n (tr ++ [it]) ⟨f.lk, g, f.procs.set c q⟩ tr2 s2 ∧ Follows w it tr' s tr2 s2 :=
  ⟨_, _, h.group hp hn hit hco hg hs, .step (hs (h.same hp hn) h.groups) hco⟩

theorem J.step (hw : Local w) (h : J w n tr f tr' s) {it : Item A} {f' : St A} (hs : Step w f it f') :
    ∃ tr2 s2, J w n (tr ++ [it]) f' tr2 s2 ∧ Follows w it tr' s tr2 s2 := by
  cases hs with
  | spawn p =>
    refine ⟨_, _, ⟨h.run.snoc (.spawn s p), ?_, ?_, ?_, h.groups, ?_, ?_, ?_, h.upd⟩, .step (.spawn s p) (by simp [coarse, h.len])⟩
    · rw [inner_none (by intro l; simp)]; exact h.locks
    · rw [inner_none (by intro l; simp)]; exact h.replay
    · simp [h.order, coarse, h.len]
    · simp [h.len]
    · intro c a b ha hb
      rcases lt_trichotomy c f.procs.length with hc | hc | hc
      · rw [show (f.procs ++ [(⟨.run p, []⟩ : Whole.Proc A)])[c]? = _ from List.getElem?_append_left hc] at ha
        rw [show (s.procs ++ [(⟨.run p, []⟩ : Whole.Proc A)])[c]? = _ from List.getElem?_append_left (by rw [h.len]; exact hc)] at hb
        exact h.ahead c a b ha hb
      · subst hc
        have h1 : a = ⟨.run p, []⟩ := by simpa using ha.symm
        have h2 : b = ⟨.run p, []⟩ := by
          rw [← h.len] at hb
          simpa using hb.symm
        rw [h1, h2]
        refine Ahead.of_eq _ fun x hx => ?_
        cases e : cmdOf x with
        | none => exact isDone_of_none e
        | some cmd =>
          obtain ⟨_, k, held, h3⟩ := h.own _ x cmd hx e
          simp at h3
      · rw [show (f.procs ++ [(⟨.run p, []⟩ : Whole.Proc A)])[c]? = none by
          rw [List.getElem?_eq_none_iff]; simp; omega] at ha
        cases ha
    · intro c ph cmd h1 h2
      obtain ⟨h3, k, held, h4⟩ := h.own c ph cmd h1 h2
      refine ⟨h3, k, held, ?_⟩
      rw [show (f.procs ++ [(⟨.run p, []⟩ : Whole.Proc A)])[c]? = _ from
        List.getElem?_append_left (List.getElem?_eq_some_iff.1 h4).1]
      exact h4
  | call c held cmd k lk h1 h2 hl =>
    obtain ⟨i, p, p', h3, h4, h5⟩ := moves hl
    cases h5
    refine ⟨_, _, h.move hl h3 h4 h.run ?_ ?_ h.groups h.len (fun _ _ => ⟨rfl, rfl⟩) ?_ ?_ (fun _ => id) ?_, .still rfl⟩
    · rw [(coarse_still tr (by simp)).2]; exact h.replay
    · rw [(coarse_still tr (by simp)).1]; exact h.order
    · intro c' e a b ha hb
      rw [e] at h3
      exact (h.ahead c' a b ha hb).eq fun x hx => by rw [h3] at hx; cases hx; rfl
    · intro c' cmd' e hc
      cases hc
      have : c' = c := by omega
      subst this
      exact ⟨h2, k, held, h1⟩
    · intro r cmd' e; omega
  | updCall r cmd lk h1 h2 hl =>
    obtain ⟨i, p, p', h3, h4, h5⟩ := moves hl
    cases h5
    refine ⟨_, _, h.move hl h3 h4 h.run ?_ ?_ h.groups h.len (fun _ _ => ⟨rfl, rfl⟩) ?_ ?_ (fun _ => id) ?_, .still rfl⟩
    · rw [(coarse_still tr (by simp)).2]; exact h.replay
    · rw [(coarse_still tr (by simp)).1]; exact h.order
    · intro c' e; omega
    · intro c' cmd' e; omega
    · intro r' cmd' e hc
      cases hc
      have : r' = r := by omega
      subst this
      exact ⟨h2, h1⟩
  | quiet i lk hl =>
    obtain ⟨i, p, p', h3, h4, h5⟩ := moves hl
    cases h5 with
    | quiet q1 q2 q3 q4 =>
    refine ⟨_, _, h.move hl h3 h4 h.run ?_ ?_ h.groups h.len (fun _ _ => ⟨rfl, rfl⟩) ?_ ?_ (fun _ => id) ?_, .still rfl⟩
    · rw [(coarse_still tr (by simp)).2]; exact h.replay
    · rw [(coarse_still tr (by simp)).1]; exact h.order
    · intro c' e a b ha hb
      rw [e] at h3
      have := (h.ahead c' a b ha hb).eq fun x hx => by rw [h3] at hx; cases hx; exact q3
      rw [this]
      exact Ahead.of_eq _ fun x hx => by cases hx; exact q4
    · intro c' cmd' e hc
      rw [e] at h3
      rw [q2] at hc; cases hc
      exact h.own c' p _ h3 q1
    · intro r' cmd' e hc
      rw [e] at h3
      rw [q2] at hc; cases hc
      exact h.upd r' p _ h3 q1
  | effect i cmd r lk hm hl =>
    obtain ⟨i, p, p', h3, h4, h5⟩ := moves hl
    obtain ⟨ok, hr, hrep⟩ := h.effect hw hl
    cases h5 with
    | effect q1 q2 =>
    rcases even_cases i with ⟨c, rfl⟩ | ⟨c, rfl⟩
    · obtain ⟨k, held, b1, b2⟩ := h.before h3 q1 q2
      refine ⟨_, _, h.move hl h3 h4 (h.run.snoc (.own s c held cmd k b2 hm ok)) hrep ?_ h.groups ?_ ?_ ?_ ?_ (fun _ => id) ?_,
        .step (.own s c held cmd k b2 hm ok) (by simp [coarse])⟩
      · rw [coarse_own]; simp [h.order]
      · simp [Whole.St.setP, h.len]
      · intro c' e; exact ⟨rfl, set_self_ne _ (by omega)⟩
      · intro c' e a b ha hb
        have : c' = c := by omega
        subst this
        rw [b1] at ha; cases ha
        have hb' := set_self_eq (l := s.procs) hb
        subst hb'
        exact ⟨k, held, rfl, by rw [hr]⟩
      · intro c' cmd' e hc
        cases hc
        have : c' = c := by omega
        subst this
        exact ⟨.inl hm, k, held, b1⟩
      · intro r e; omega
    · obtain ⟨_, g, g1, g2⟩ := h.upd c p cmd h3 q1
      refine ⟨_, _, h.move hl h3 h4 (h.run.snoc (.upd s c g cmd (by rw [h.groups]; exact g1) g2 hm ok)) hrep ?_ h.groups h.len
        (fun _ _ => ⟨rfl, rfl⟩) ?_ ?_ (fun _ => id) ?_,
        .step (.upd s c g cmd (by rw [h.groups]; exact g1) g2 hm ok) (by
          have h1 : (2 * c + 1) % 2 = 1 := by omega
          have h2 : (2 * c + 1) / 2 = c := by omega
          simp [coarse, h1, h2])⟩
      · rw [coarse_upd]; simp [h.order]
      · intro c' e; omega
      · intro c' cmd' e; omega
      · intro r' cmd' e hc
        cases hc
        have : r' = c := by omega
        subst this
        exact ⟨hm, g, g1, g2⟩
  | newGroup i r lk hl =>
    obtain ⟨i, p, p', h3, h4, h5⟩ := moves hl
    obtain ⟨ok, hr, hrep⟩ := h.effect hw hl
    cases h5 with
    | effect q1 q2 =>
    rcases even_cases i with ⟨c, rfl⟩ | ⟨c, rfl⟩
    · obtain ⟨k, held, b1, b2⟩ := h.before h3 q1 q2
      refine ⟨_, _, h.move hl h3 h4 (h.run.snoc (.newGroup s c held k b2)) hrep ?_ (by rw [h.groups]) ?_ ?_ ?_ ?_
        (fun r hr => calling_append hr _ _ _) ?_, .step (.newGroup s c held k b2) (by simp [coarse, h.groups])⟩
      · rw [coarse_own]; simp [h.order, h.groups]
      · simp [Whole.St.setP, h.len]
      · intro c' e; exact ⟨rfl, set_self_ne _ (by omega)⟩
      · intro c' e a b ha hb
        have : c' = c := by omega
        subst this
        rw [b1] at ha; cases ha
        have hb' := set_self_eq (l := s.procs) hb
        subst hb'
        exact ⟨k, held, rfl, by rw [hr]; rfl⟩
      · intro c' cmd' e hc
        cases hc
        have : c' = c := by omega
        subst this
        exact ⟨.inr rfl, k, held, b1⟩
      · intro r e; omega
    · exact absurd (h.upd c p _ h3 q1).1 id
  | ret c held cmd k r lk h1 hl =>
    obtain ⟨i, p, p', h3, h4, h5⟩ := moves hl
    cases h5
    refine ⟨_, _, h.move hl h3 h4 h.run ?_ ?_ h.groups (by simp [h.len]) ?_ ?_ ?_ (fun _ => id) ?_, .still rfl⟩
    · rw [(coarse_still tr (by simp)).2]; exact h.replay
    · rw [(coarse_still tr (by simp)).1]; exact h.order
    · intro c' e; exact ⟨set_self_ne _ (by omega), rfl⟩
    · intro c' e a b ha hb
      have : c' = c := by omega
      subst this
      have := set_self_eq ha
      subst this
      have h6 := h.ahead c' _ b h1 hb
      rw [h3] at h6
      obtain ⟨k', held', e1, e2⟩ := h6
      cases e1
      exact e2
    · intro c' cmd' e hc; cases hc
    · intro r e; omega
  | updRet r cmd x lk hl =>
    obtain ⟨i, p, p', h3, h4, h5⟩ := moves hl
    cases h5
    refine ⟨_, _, h.move hl h3 h4 h.run ?_ ?_ h.groups h.len (fun _ _ => ⟨rfl, rfl⟩) ?_ ?_ (fun _ => id) ?_, .still rfl⟩
    · rw [(coarse_still tr (by simp)).2]; exact h.replay
    · rw [(coarse_still tr (by simp)).1]; exact h.order
    · intro c' e; omega
    · intro c' cmd' e; omega
    · intro r' cmd' e hc; cases hc
  | asks c r held k h1 h2 =>
    refine h.group' (wit := ⟨.asks c r f.grp.clients.length, [.opened f.grp.clients.length], s.mem, s.mem⟩) h1
      (by intro cmd k e; cases e; simp [Whole.MemOnly]) (by intro l; simp) rfl (fun r hr => hr) ?_
    intro h3 h4
    rw [← h4]
    exact .asks s c r held k h3 (by rw [h4]; exact h2)
  | took c r cl t held k h1 h2 =>
    refine h.group' (g := f.grp) (wit := ⟨.took c r cl t, [], s.mem, s.mem⟩) h1
      (by intro cmd k e; cases e) (by intro l; simp) rfl (fun r hr => hr) ?_
    intro h3 h4
    rw [← h4]
    exact .took s c r cl t held k h3 (by rw [h4]; exact h2)
  | gives c r cl client held k h1 h2 h3 h4 =>
    refine h.group' (wit := ⟨.gives c r cl, [.closeBegin cl], s.mem, s.mem⟩) h1
      (by intro cmd k e; cases e; simp [Whole.MemOnly]) (by intro l; simp) rfl (fun r hr => hr) ?_
    intro h5 h6
    rw [← h6]
    exact .gives s c r cl client held k h5 h2 (by rw [h6]; exact h3) h4
  | gave c r cl client held k h1 h2 h3 =>
    refine h.group' (g := f.grp) (wit := ⟨.gave c r cl, [], s.mem, s.mem⟩) h1
      (by intro cmd k e; cases e) (by intro l; simp) rfl (fun r hr => hr) ?_
    intro h5 h6
    rw [← h6]
    exact .gave s c r cl client held k h5 (by rw [h6]; exact h2) h3
  | loop es g h1 h2 h3 h4 =>
    have st : Whole.Step w s ⟨.loop, es, s.mem, s.mem⟩ { s with grp := g } := by
      refine .loop s es g (by rw [h.groups]; exact h1) (by rw [h.groups]; exact h2) ?_
      intro p' hp' cl hcl client hc
      rw [h.groups] at hc
      obtain ⟨c, hc'⟩ := List.getElem?_of_mem hp'
      have hlt : c < f.procs.length := by rw [← h.len]; exact (List.getElem?_eq_some_iff.1 hc').1
      have h5 := List.getElem?_eq_getElem hlt
      have h6 := h.ahead c _ _ h5 hc'
      exact h3 f.procs[c] (List.getElem_mem hlt) cl (by rw [← h6.clients]; exact hcl) client hc
    refine ⟨_, _, ⟨h.run.snoc st, ?_, ?_, ?_, rfl, h.len, h.ahead, h.own, ?_⟩, .step st rfl⟩
    · rw [inner_none (by intro l; simp)]; exact h.locks
    · rw [inner_none (by intro l; simp)]; exact h.replay
    · simp [h.order, coarse]
    · intro r ph cmd q1 q2
      exact ⟨(h.upd r ph cmd q1 q2).1, h4 r ph q1 (by rintro rfl; cases q2)⟩

theorem follow (hw : Local w) (h : Run w n tr f) : ∃ tr' s, J w n tr f tr' s := by
  induction h with
  | nil => exact ⟨_, _, J.nil⟩
  | snoc _ hs ih =>
    obtain ⟨_, _, hj⟩ := ih
    obtain ⟨_, _, hj', _⟩ := hj.step hw hs
    exact ⟨_, _, hj'⟩

theorem J.toSame (hw : Local w) (h : J w n tr f tr' s) : Same tr f tr' s where
  order := h.order
  groups := h.groups
  answers := by
    rintro c a ⟨held, hc⟩
    exact ⟨held, h.same hc (by intro cmd k e; cases e)⟩
  only := by
    rintro c a ⟨held, hc⟩
    have hlt : c < f.procs.length := by rw [← h.len]; exact (List.getElem?_eq_some_iff.1 hc).1
    have h5 := List.getElem?_eq_getElem hlt
    have h6 := h.ahead c _ _ h5 hc
    by_cases hn : ∀ x, f.lk.phases[2 * c]? = some x → isDone x = false
    · left
      have := h6.eq hn
      exact ⟨held, by rw [h5, ← this]⟩
    · right
      push Not at hn
      obtain ⟨x, hx, hd⟩ := hn
      cases x with
      | done cmd lock r => exact ⟨cmd, lock, r, hx⟩
      | _ => exact absurd rfl hd
  memory := by
    obtain ⟨o, ho⟩ := inv_run hw h.locks
    exact ⟨o, replays_same ho.replay h.replay, ho.sync⟩

end Tricorder.Fine
