import Verif.Proof.Locks2
import Verif.Proof.Sys
/-! The invariant of the machine: with the unfinished sections left out, the memory is that of `Model/Sys`. -/

namespace Tricorder.Locks
open Go Arith Spec

variable {w : World} {n : ℕ}

theorem effects_append (a b : List Lab) : effects (a ++ b) = effects a ++ effects b := by
  induction a with
  | nil => rfl
  | cons x a ih => cases x <;> simp [effects, ih]

theorem Replays.snoc {s s' : State} {l : List Done} (h : Replays w s l s') (c : ℕ) {cmd : Cmd} (ok : cmd.Ok s') :
    Replays w s (l ++ [⟨c, cmd, (exec w cmd s').2⟩]) (exec w cmd s').1 := by
  induction h with
  | nil s => exact .cons c cmd ok (.nil _)
  | cons c' cmd' ok' _ ih => exact .cons c' cmd' ok' (ih ok)

theorem Replays.reachable {s s' : State} {l : List Done} (h : Replays w s l s') (hs : Reachable w s) : Reachable w s' := by
  induction h with
  | nil s => exact hs
  | cons c cmd ok _ ih => exact ih (.step cmd hs ok)

theorem Right.mono {g g' : Shared} (hg : Grows g g') {cmd : Cmd} {i : Impl cmd.Resp} (h : Right w g cmd i) : Right w g' cmd i := by
  cases i with
  | plain f => exact fun R o hR => h R o (hg.trans hR)
  | locked loc excl sec => exact ⟨hg.has h.1, h.2.1, fun R o hR => h.2.2 R o (hg.trans hR)⟩

/-- what is known of a goroutine; `o'` are the fields without what unfinished sections have written -/
def PhaseOK (w : World) (o o' : Objs) (g : Shared) : Phase → Prop
  | .idle => True
  | .wait cmd i => Right w g cmd i
  | .inside cmd loc excl rest => g.has loc ∧ (excl = false → rest.ReadOnly) ∧
      ∀ R o1, Grows g R → o1 loc = o' loc → Agrees w cmd loc o1 R (rest.sem (o loc) R)
  | .done _ lock _ => ∀ loc e, lock = some (loc, e) → g.has loc

theorem PhaseOK.has {o o' : Objs} {g : Shared} {p : Phase} (h : PhaseOK w o o' g p) {loc : Loc} {e : Bool}
    (hh : p.holds = some (loc, e)) : g.has loc := by
  cases p with
  | idle => cases hh
  | wait => cases hh
  | inside cmd l x rest => cases hh; exact h.1
  | done cmd lock r => exact h _ _ hh

theorem PhaseOK.other {o o' o2 o2' : Objs} {g g2 : Shared} {p : Phase} (h : PhaseOK w o o' g p) (hg : Grows g g2)
    (hl : ∀ loc e, p.holds = some (loc, e) → o2 loc = o loc ∧ o2' loc = o' loc) : PhaseOK w o2 o2' g2 p := by
  cases p with
  | idle => trivial
  | wait cmd i => exact Right.mono hg h
  | inside cmd loc excl rest =>
    obtain ⟨e1, e2⟩ := hl loc excl rfl
    refine ⟨hg.has h.1, h.2.1, fun R o1 hR ho => ?_⟩
    rw [e1]
    exact h.2.2 R o1 (hg.trans hR) (ho.trans e2)
  | done cmd lock r => exact fun loc e he => hg.has (h loc e he)

structure Inv (w : World) (tr : List Lab) (s : St) (o' : Objs) : Prop where
  replay : Replays w State.init (effects tr) (whole o' s.shared)
  sync : ∀ l, (∀ (c : ℕ) cmd rest, s.phases[c]? ≠ some (.inside cmd l true rest)) → s.objs l = o' l
  phase : ∀ (c : ℕ) p, s.phases[c]? = some p → PhaseOK w s.objs o' s.shared p
  excl : ∀ (c c' : ℕ) p p' loc e e', c ≠ c' → s.phases[c]? = some p → s.phases[c']? = some p' →
    p.holds = some (loc, e) → p'.holds = some (loc, e') → e = false ∧ e' = false

theorem get_set {l : List Phase} {c : ℕ} {p0 : Phase} (h : l[c]? = some p0) (p : Phase) (c' : ℕ) :
    (l.set c p)[c']? = if c' = c then some p else l[c']? := by
  have := (List.getElem?_eq_some_iff.1 h).1
  rw [List.getElem?_set]
  by_cases e : c = c'
  · subst e; simp [this]
  · rw [if_neg e, if_neg (fun h => e h.symm)]

/-- one goroutine moves on; the others keep what they have -/
theorem Inv.move {tr tr' : List Lab} {s : St} {o' : Objs} (h : Inv w tr s o') {c : ℕ} {p0 p : Phase}
    (hc : s.phases[c]? = some p0) {o2 o2' : Objs} {g2 : Shared}
    (replay : Replays w State.init (effects tr') (whole o2' g2))
    (hg : Grows s.shared g2)
    (hp : PhaseOK w o2 o2' g2 p)
    (hold : ∀ loc e, p.holds = some (loc, e) → p0.holds = some (loc, e) ∨ Free s c loc e)
    (keep : ∀ (c' : ℕ) p', c' ≠ c → s.phases[c']? = some p' → ∀ loc e, p'.holds = some (loc, e) →
      o2 loc = s.objs loc ∧ o2' loc = o' loc)
    (sync : ∀ l, (∀ cmd rest, p ≠ .inside cmd l true rest) →
      (∀ (c' : ℕ) cmd rest, c' ≠ c → s.phases[c']? ≠ some (.inside cmd l true rest)) → o2 l = o2' l) :
    Inv w tr' ⟨o2, g2, s.phases.set c p⟩ o2' := by
  refine ⟨replay, ?_, ?_, ?_⟩
  · intro l hl
    apply sync l
    · intro cmd rest e
      exact hl c cmd rest (by simp only [get_set hc, if_true, e])
    · intro c' cmd rest hne e
      exact hl c' cmd rest (by simp only [get_set hc, if_neg hne, e])
  · intro c' p' hp'
    simp only [get_set hc] at hp'
    split at hp'
    · cases hp'; exact hp
    · exact (h.phase c' p' hp').other hg (keep c' p' ‹_› hp')
  · have one : ∀ (c' : ℕ) p' loc e e', c' ≠ c → s.phases[c']? = some p' → p.holds = some (loc, e) → p'.holds = some (loc, e') →
        e = false ∧ e' = false := by
      intro c' p' loc e e' hne hp' h1 h2
      rcases hold loc e h1 with h3 | h3
      · exact h.excl c c' p0 p' loc e e' (fun x => hne x.symm) hc hp' h3 h2
      · exact (h3 c' p' e' hne hp' h2).symm
    intro c1 c2 p1 p2 loc e1 e2 hne h1 h2 h3 h4
    simp only [get_set hc] at h1 h2
    split at h1
    · cases h1
      rw [if_neg (by omega)] at h2
      exact one c2 p2 loc e1 e2 (by omega) h2 h3 h4
    · split at h2
      · cases h2
        exact (one c1 p1 loc e2 e1 ‹_› h1 h4 h3).symm
      · exact h.excl c1 c2 p1 p2 loc e1 e2 hne h1 h2 h3 h4

theorem effects_snoc_effect (tr : List Lab) (c : ℕ) (cmd : Cmd) (r : cmd.Resp) :
    effects (tr ++ [.effect c cmd r]) = effects tr ++ [⟨c, cmd, r⟩] := by rw [effects_append]; rfl

theorem add_ne (o : Objs) {fr : Option Fresh} {g : Shared} (h : ∀ f, fr = some f → ¬ g.has f.loc) {l : Loc} (hl : g.has l) :
    o.add fr l = o l := by
  cases fr with
  | none => rfl
  | some f => exact Function.update_of_ne (by rintro rfl; exact h f rfl hl) _ _

theorem add_congr {o o' : Objs} (fr : Option Fresh) {l : Loc} (h : o l = o' l) : o.add fr l = o'.add fr l := by
  cases fr with
  | none => exact h
  | some f =>
    by_cases e : l = f.loc
    · subst e; simp [Objs.add]
    · simp only [Objs.add, Function.update_of_ne e]; exact h

theorem inv_step (hw : Local w) {tr : List Lab} {s s' : St} {l : Lab} {o' : Objs} (h : Inv w tr s o') (hs : Step w s l s') :
    ∃ o2, Inv w (tr ++ [l]) s' o2 := by
  cases hs with
  | call c cmd hc hcall =>
    refine ⟨o', h.move hc (tr' := tr ++ [.call c cmd]) (p := .wait cmd (code w s.shared cmd)) ?_ (.refl _) ?_ ?_ ?_ ?_⟩
    · rw [effects_append]; simpa [effects] using h.replay
    · exact code_right hw (reachable_isTree (h.replay.reachable .init)) hcall
    · intro loc e hh; cases hh
    · exact fun c' p' _ _ _ _ _ => ⟨rfl, rfl⟩
    · intro l _ hl
      refine h.sync l fun c' cmd' rest e => ?_
      by_cases hne : c' = c
      · subst hne; rw [hc] at e; cases e
      · exact hl c' cmd' rest hne e
  | plain c cmd f hc =>
    obtain ⟨ok, ex, gr, fr⟩ := (h.phase c _ hc : Right w s.shared cmd (.plain f)) s.shared o' (.refl _)
    refine ⟨o'.add (f s.shared).2.1, h.move hc (tr' := tr ++ [.effect c cmd (f s.shared).2.2])
      (p := .done cmd none (f s.shared).2.2) ?_ gr ?_ ?_ ?_ ?_⟩
    · rw [effects_snoc_effect]
      have := h.replay.snoc c ok
      rw [ex] at this
      exact this
    · intro loc e he; cases he
    · intro loc e hh; cases hh
    · intro c' p' _ hp' loc e hh
      have := (h.phase c' p' hp').has hh
      exact ⟨add_ne _ fr this, add_ne _ fr this⟩
    · intro l _ hl
      refine add_congr _ (h.sync l fun c' cmd' rest e => ?_)
      by_cases hne : c' = c
      · subst hne; rw [hc] at e; cases e
      · exact hl c' cmd' rest hne e
  | acquire c cmd loc excl sec hc hfree =>
    have hr : Right w s.shared cmd (.locked loc excl sec) := h.phase c _ hc
    have hloc : s.objs loc = o' loc := by
      refine h.sync loc fun c' cmd' rest e => ?_
      by_cases hne : c' = c
      · subst hne; rw [hc] at e; cases e
      · exact absurd (hfree c' _ true hne e rfl).1 (by simp)
    refine ⟨o', h.move hc (tr' := tr ++ [.quiet c]) (p := .inside cmd loc excl sec) ?_ (.refl _) ?_ ?_ ?_ ?_⟩
    · rw [effects_append]; simpa [effects] using h.replay
    · refine ⟨hr.1, hr.2.1, fun R o1 hR ho => ?_⟩
      rw [hloc, ← ho]
      exact hr.2.2 R o1 hR
    · intro l e hh; cases hh; exact Or.inr hfree
    · exact fun c' p' _ _ _ _ _ => ⟨rfl, rfl⟩
    · intro l _ hl
      refine h.sync l fun c' cmd' rest e => ?_
      by_cases hne : c' = c
      · subst hne; rw [hc] at e; cases e
      · exact hl c' cmd' rest hne e
  | read c cmd loc excl X f k hc =>
    obtain ⟨h1, h2, h3⟩ := (h.phase c _ hc : PhaseOK w s.objs o' s.shared (.inside cmd loc excl (.read f k)))
    refine ⟨o', h.move hc (tr' := tr ++ [.quiet c]) (p := .inside cmd loc excl (k (f (s.objs loc)))) ?_ (.refl _) ?_ ?_ ?_ ?_⟩
    · rw [effects_append]; simpa [effects] using h.replay
    · exact ⟨h1, fun e => h2 e _, fun R o1 hR ho => h3 R o1 hR ho⟩
    · intro l e hh; cases hh; exact Or.inl rfl
    · exact fun c' p' _ _ _ _ _ => ⟨rfl, rfl⟩
    · intro l hp hl
      refine h.sync l fun c' cmd' rest e => ?_
      by_cases hne : c' = c
      · subst hne; rw [hc] at e; cases e; exact hp _ _ rfl
      · exact hl c' cmd' rest hne e
  | write c cmd loc excl f k hc =>
    obtain ⟨h1, h2, h3⟩ := (h.phase c _ hc : PhaseOK w s.objs o' s.shared (.inside cmd loc excl (.write f k)))
    have hex : excl = true := by
      cases excl with
      | false => exact (h2 rfl).elim
      | true => rfl
    subst hex
    refine ⟨o', h.move hc (tr' := tr ++ [.quiet c]) (p := .inside cmd loc true k) ?_ (.refl _) ?_ ?_ ?_ ?_⟩
    · rw [effects_append]; simpa [effects] using h.replay
    · refine ⟨h1, fun e => (nomatch e), fun R o1 hR ho => ?_⟩
      simp only [Function.update_self]
      exact h3 R o1 hR ho
    · intro l e hh; cases hh; exact Or.inl rfl
    · intro c' p' hne hp' l e hh
      refine ⟨Function.update_of_ne ?_ _ _, rfl⟩
      rintro rfl
      have := (h.excl c c' _ p' l true e (fun x => hne x.symm) hc hp' rfl hh).1
      cases this
    · intro l hp hl
      have hne : l ≠ loc := by rintro rfl; exact hp _ _ rfl
      rw [Function.update_of_ne hne]
      refine h.sync l fun c' cmd' rest e => ?_
      by_cases hne' : c' = c
      · subst hne'; rw [hc] at e; cases e; exact hne rfl
      · exact hl c' cmd' rest hne' e
  | last c cmd loc excl f hc =>
    obtain ⟨h1, h2, h3⟩ := (h.phase c _ hc : PhaseOK w s.objs o' s.shared (.inside cmd loc excl (.last f)))
    obtain ⟨ok, ex, gr, fr⟩ := h3 s.shared o' (.refl _) rfl
    simp only [Sec.sem] at ex gr fr
    refine ⟨Objs.add (Function.update o' loc (f (s.objs loc) s.shared).1) (f (s.objs loc) s.shared).2.2.1,
      h.move hc (tr' := tr ++ [.effect c cmd (f (s.objs loc) s.shared).2.2.2])
        (p := .done cmd (some (loc, excl)) (f (s.objs loc) s.shared).2.2.2) ?_ gr ?_ ?_ ?_ ?_⟩
    · rw [effects_snoc_effect]
      have := h.replay.snoc c ok
      rw [ex] at this
      exact this
    · intro l e he; cases he; exact gr.has h1
    · intro l e hh; cases hh; exact Or.inl rfl
    · intro c' p' hne hp' l e hh
      have hl := (h.phase c' p' hp').has hh
      rw [add_ne _ fr hl, add_ne _ fr hl]
      by_cases e1 : l = loc
      · subst e1
        obtain ⟨e2, -⟩ := h.excl c c' _ p' l excl e (fun x => hne x.symm) hc hp' rfl hh
        have := (h2 e2 (s.objs l) s.shared).1
        rw [this, Function.update_self, Function.update_self]
        refine ⟨rfl, h.sync l fun c'' cmd' rest e => ?_⟩
        by_cases hc'' : c'' = c
        · subst hc''; rw [hc] at e; cases e; cases e2
        · have := (h.excl c c'' _ _ l excl true (fun x => hc'' x.symm) hc e rfl rfl).2
          cases this
      · exact ⟨Function.update_of_ne e1 _ _, Function.update_of_ne e1 _ _⟩
    · intro l _ hl
      refine add_congr _ ?_
      by_cases e1 : l = loc
      · subst e1; rw [Function.update_self, Function.update_self]
      · rw [Function.update_of_ne e1, Function.update_of_ne e1]
        refine h.sync l fun c' cmd' rest e => ?_
        by_cases hne' : c' = c
        · subst hne'; rw [hc] at e; cases e; exact e1 rfl
        · exact hl c' cmd' rest hne' e
  | ret c cmd lock r hc =>
    refine ⟨o', h.move hc (tr' := tr ++ [.ret c cmd r]) (p := .idle) ?_ (.refl _) trivial ?_ ?_ ?_⟩
    · rw [effects_append]; simpa [effects] using h.replay
    · intro loc e hh; cases hh
    · exact fun c' p' _ _ _ _ _ => ⟨rfl, rfl⟩
    · intro l _ hl
      refine h.sync l fun c' cmd' rest e => ?_
      by_cases hne : c' = c
      · subst hne; rw [hc] at e; cases e
      · exact hl c' cmd' rest hne e

theorem start_whole : whole blank (Shared.of State.init) = State.init := rfl

theorem start_idle {c : ℕ} {p : Phase} (h : (start n).phases[c]? = some p) : p = .idle := by
  simp only [start, List.getElem?_replicate] at h
  split at h
  · cases h; rfl
  · cases h

theorem inv_run (hw : Local w) {tr : List Lab} {s : St} (h : Run w n tr s) : ∃ o', Inv w tr s o' := by
  induction h with
  | nil =>
    refine ⟨blank, ?_, fun _ _ => rfl, ?_, ?_⟩
    · exact .nil _
    · intro c p hp; rw [start_idle hp]; trivial
    · intro c c' p p' loc e e' _ hp _ hh; rw [start_idle hp] at hh; cases hh
  | snoc _ hs ih =>
    obtain ⟨o', h⟩ := ih
    exact inv_step hw h hs

/-! ### Calls and returns -/

theorem mine_append (c : ℕ) (a b : List Lab) : mine c (a ++ b) = mine c a ++ mine c b := by
  induction a with
  | nil => rfl
  | cons x a ih => cases x <;> simp [mine, ih] <;> split <;> simp

/-- the trace of a goroutine fits what it is doing -/
def Fits (c : ℕ) (l : List Lab) : Phase → Prop
  | .idle => Calls c l
  | .wait cmd _ | .inside cmd _ _ _ => ∃ l', Calls c l' ∧ l = l' ++ [.call c cmd]
  | .done cmd _ r => ∃ l', Calls c l' ∧ l = l' ++ [.call c cmd, .effect c cmd r]

theorem Fits.orderly {c : ℕ} {l : List Lab} {p : Phase} (h : Fits c l p) : Orderly c l := by
  cases p with
  | idle => exact Or.inl h
  | wait cmd i => obtain ⟨l', h1, h2⟩ := h; exact Or.inr ⟨l', cmd, h1, Or.inl h2⟩
  | inside cmd _ _ _ => obtain ⟨l', h1, h2⟩ := h; exact Or.inr ⟨l', cmd, h1, Or.inl h2⟩
  | done cmd _ r => obtain ⟨l', h1, h2⟩ := h; exact Or.inr ⟨l', cmd, h1, Or.inr ⟨r, h2⟩⟩

theorem run_length {tr : List Lab} {s : St} (h : Run w n tr s) : s.phases.length = n := by
  induction h with
  | nil => simp [start]
  | snoc _ hs ih => cases hs <;> simp [St.setP, ih]

theorem fits_run {tr : List Lab} {s : St} (h : Run w n tr s) :
    (∀ (c : ℕ) p, s.phases[c]? = some p → Fits c (mine c tr) p) ∧ ∀ c, n ≤ c → mine c tr = [] := by
  induction h with
  | nil =>
    refine ⟨fun c p hp => ?_, fun c _ => rfl⟩
    rw [start_idle hp]; exact .nil
  | @snoc tr s l s' hr hs ih =>
    have hlen := run_length hr
    have key : ∀ (c0 : ℕ) p0 p (o : Objs) (g : Shared), s.phases[c0]? = some p0 → s' = ⟨o, g, s.phases.set c0 p⟩ →
        (∀ c, c ≠ c0 → mine c [l] = []) → (Fits c0 (mine c0 tr) p0 → Fits c0 (mine c0 tr ++ mine c0 [l]) p) →
        (∀ (c : ℕ) p, s'.phases[c]? = some p → Fits c (mine c (tr ++ [l])) p) ∧ ∀ c, n ≤ c → mine c (tr ++ [l]) = [] := by
      intro c0 p0 p o g hc0 hs' hm hf
      subst hs'
      have hlt := (List.getElem?_eq_some_iff.1 hc0).1
      refine ⟨fun c p1 hp1 => ?_, fun c hc => ?_⟩
      · simp only [get_set hc0] at hp1
        rw [mine_append]
        split at hp1
        · cases hp1; subst c; exact hf (ih.1 _ _ hc0)
        · rw [hm c ‹_›, List.append_nil]; exact ih.1 c p1 hp1
      · rw [mine_append, ih.2 c hc, hm c (by omega)]; rfl
    cases hs with
    | call c cmd hc _ =>
      refine key c _ _ _ _ hc rfl (fun c' h => by simp [mine, h.symm]) fun h => ⟨mine c tr, h, by simp [mine]⟩
    | plain c cmd f hc =>
      refine key c _ _ _ _ hc rfl (fun c' h => by simp [mine, h.symm]) fun h => ?_
      obtain ⟨l', h1, h2⟩ := h
      exact ⟨l', h1, by rw [h2]; simp [mine]⟩
    | acquire c cmd loc excl sec hc _ =>
      refine key c _ _ _ _ hc rfl (fun c' h => by simp [mine]) fun h => ?_
      simpa [mine, Fits] using h
    | read c cmd loc excl X f k hc =>
      refine key c _ _ _ _ hc rfl (fun c' h => by simp [mine]) fun h => ?_
      simpa [mine, Fits] using h
    | write c cmd loc excl f k hc =>
      refine key c _ _ _ _ hc rfl (fun c' h => by simp [mine]) fun h => ?_
      simpa [mine, Fits] using h
    | last c cmd loc excl f hc =>
      refine key c _ _ _ _ hc rfl (fun c' h => by simp [mine, h.symm]) fun h => ?_
      obtain ⟨l', h1, h2⟩ := h
      exact ⟨l', h1, by rw [h2]; simp [mine]⟩
    | ret c cmd lock r hc =>
      refine key c _ _ _ _ hc rfl (fun c' h => by simp [mine, h.symm]) fun h => ?_
      obtain ⟨l', h1, h2⟩ := h
      have := Calls.snoc cmd r h1
      rw [h2]
      simpa [mine, Fits] using this

/-! ### Programs -/

theorem Replays.runI {α : Type} {s s' : State} {l : List Done} (h : Replays w s l s') {p : Prog α} {c : ℕ} {a : α}
    (hp : Path p (l.filter fun d => d.c == c) a) : ∃ h, RunI w p s h s' a := by
  induction h generalizing p with
  | nil s => cases hp; exact ⟨_, .ret _ _⟩
  | @cons s l s' c' cmd ok _ ih =>
    by_cases e : c' = c
    · rw [List.filter_cons_of_pos (by simpa using e)] at hp
      cases hp with
      | op _ hp =>
        obtain ⟨h, hr⟩ := ih hp
        exact ⟨_, .op hr⟩
    · rw [List.filter_cons_of_neg (by simpa using e)] at hp
      obtain ⟨h, hr⟩ := ih hp
      exact ⟨_, .env cmd ok hr⟩

/-! ### Nobody waits for ever -/

/-- whoever is inside gets out -/
theorem leave {tr : List Lab} {s : St} (h : Run w n tr s) {c : ℕ} {cmd : Cmd} {loc : Loc} {excl : Bool}
    {rest : Sec (Data loc) cmd.Resp} (hc : s.phases[c]? = some (.inside cmd loc excl rest)) :
    ∃ tr' s' r, Run w n (tr ++ tr') s' ∧ (∀ l ∈ tr', l = .quiet c ∨ l = .effect c cmd r) ∧
      s'.phases = s.phases.set c (.done cmd (some (loc, excl)) r) := by
  induction rest generalizing tr s with
  | read f k ih =>
    have hlt := (List.getElem?_eq_some_iff.1 hc).1
    obtain ⟨tr', s', r, h1, h2, h3⟩ := ih (f (s.objs loc)) (h.snoc (.read s c cmd loc excl _ f k hc)) (by simp only [St.setP, get_set hc, if_true])
    refine ⟨.quiet c :: tr', s', r, by simpa using h1, ?_, by simpa [St.setP] using h3⟩
    intro l hl
    rcases List.mem_cons.1 hl with e | e
    · exact Or.inl e
    · exact h2 l e
  | write f k ih =>
    obtain ⟨tr', s', r, h1, h2, h3⟩ := ih (h.snoc (.write s c cmd loc excl f k hc)) (by simp only [St.setP, get_set hc, if_true])
    refine ⟨.quiet c :: tr', s', r, by simpa using h1, ?_, by simpa [St.setP] using h3⟩
    intro l hl
    rcases List.mem_cons.1 hl with e | e
    · exact Or.inl e
    · exact h2 l e
  | last f =>
    exact ⟨[_], _, _, h.snoc (.last s c cmd loc excl f hc), by simp, rfl⟩

/-- it calls nothing -/
def Lab.NoCall (l : Lab) : Prop := ∀ c cmd, l ≠ .call c cmd

/-- whoever holds a lock or is finished becomes idle -/
theorem settle {tr : List Lab} {s : St} (h : Run w n tr s) {c : ℕ} {p : Phase} (hc : s.phases[c]? = some p)
    (hp : ∀ cmd i, p ≠ .wait cmd i) :
    ∃ tr' s', Run w n (tr ++ tr') s' ∧ (∀ l ∈ tr', l.NoCall) ∧ s'.phases = s.phases.set c .idle := by
  have done : ∀ {tr : List Lab} {s : St} {cmd lock r}, Run w n tr s → s.phases[c]? = some (.done cmd lock r) →
      ∃ tr' s', Run w n (tr ++ tr') s' ∧ (∀ l ∈ tr', l.NoCall) ∧ s'.phases = s.phases.set c .idle :=
    fun {tr s cmd lock r} h hc => ⟨[.ret c cmd r], _, h.snoc (.ret s c cmd lock r hc), by simp [Lab.NoCall], rfl⟩
  cases p with
  | wait cmd i => exact absurd rfl (hp cmd i)
  | idle =>
    refine ⟨[], s, by simpa using h, by simp, ?_⟩
    apply List.ext_getElem?
    intro i
    rw [get_set hc]
    split
    · subst i; exact hc
    · rfl
  | done cmd lock r => exact done h hc
  | inside cmd loc excl rest =>
    obtain ⟨t1, s1, r, h1, h2, h3⟩ := leave h hc
    obtain ⟨t2, s2, h4, h5, h6⟩ := done h1 (by rw [h3, get_set hc, if_pos rfl])
    refine ⟨t1 ++ t2, s2, by simpa using h4, ?_, by rw [h6, h3, List.set_set]⟩
    intro l hl
    rcases List.mem_append.1 hl with e | e
    · rcases h2 l e with rfl | rfl <;> simp [Lab.NoCall]
    · exact h5 l e

/-- all of the first `k` goroutines that are not waiting become idle -/
theorem settle_all {tr : List Lab} {s : St} (h : Run w n tr s) (k : ℕ) :
    ∃ tr' s', Run w n (tr ++ tr') s' ∧ (∀ l ∈ tr', l.NoCall) ∧
      (∀ (c : ℕ) p, c < k → s'.phases[c]? = some p → p = .idle ∨ ∃ cmd i, p = .wait cmd i) ∧
      ∀ (c : ℕ) cmd i, s.phases[c]? = some (.wait cmd i) → s'.phases[c]? = some (.wait cmd i) := by
  induction k with
  | zero => exact ⟨[], s, by simpa using h, by simp, by intro c p hc; omega, fun _ _ _ h => h⟩
  | succ k ih =>
    obtain ⟨t1, s1, h1, h2, h3, h4⟩ := ih
    cases hk : s1.phases[k]? with
    | none =>
      refine ⟨t1, s1, h1, h2, ?_, h4⟩
      intro c p hc hp
      by_cases e : c = k
      · subst e; rw [hk] at hp; cases hp
      · exact h3 c p (by omega) hp
    | some p0 =>
      by_cases hw : ∃ cmd i, p0 = .wait cmd i
      · refine ⟨t1, s1, h1, h2, ?_, h4⟩
        intro c p hc hp
        by_cases e : c = k
        · subst e; rw [hk] at hp; cases hp; exact Or.inr hw
        · exact h3 c p (by omega) hp
      · obtain ⟨t2, s2, h5, h6, h7⟩ := settle h1 hk (fun cmd i e => hw ⟨cmd, i, e⟩)
        refine ⟨t1 ++ t2, s2, by simpa using h5, ?_, ?_, ?_⟩
        · intro l hl
          rcases List.mem_append.1 hl with e | e
          · exact h2 l e
          · exact h6 l e
        · intro c p hc hp
          rw [h7, get_set hk] at hp
          split at hp
          · cases hp; exact Or.inl rfl
          · exact h3 c p (by omega) hp
        · intro c cmd i hc
          rw [h7, get_set hk]
          split
          · subst c; have := h4 _ cmd i hc; rw [hk] at this; cases this; exact absurd ⟨_, _, rfl⟩ hw
          · exact h4 c cmd i hc

/-- when nobody is inside, one waiting goroutine becomes idle -/
theorem serve {tr : List Lab} {s : St} (h : Run w n tr s)
    (hq : ∀ (c : ℕ) p, s.phases[c]? = some p → p = .idle ∨ ∃ cmd i, p = .wait cmd i) {c : ℕ} {cmd : Cmd} {i : Impl cmd.Resp}
    (hc : s.phases[c]? = some (.wait cmd i)) :
    ∃ tr' s', Run w n (tr ++ tr') s' ∧ (∀ l ∈ tr', l.NoCall) ∧ s'.phases = s.phases.set c .idle := by
  cases i with
  | plain f =>
    have h1 := h.snoc (.plain s c cmd f hc)
    obtain ⟨t2, s2, h2, h3, h4⟩ := settle h1 (c := c) (p := .done cmd none (f s.shared).2.2)
      (by simp only [St.setP, get_set hc, if_true]) (by simp)
    refine ⟨_ :: t2, s2, by simpa using h2, ?_, by rw [h4]; simp [St.setP]⟩
    intro l hl
    rcases List.mem_cons.1 hl with e | e
    · rw [e]; simp [Lab.NoCall]
    · exact h3 l e
  | locked loc excl sec =>
    have hf : Free s c loc excl := by
      intro c' p e _ hp hh
      rcases hq c' p hp with rfl | ⟨cmd, i, rfl⟩ <;> cases hh
    have h1 := h.snoc (.acquire s c cmd loc excl sec hc hf)
    obtain ⟨t2, s2, h2, h3, h4⟩ := settle h1 (c := c) (p := .inside cmd loc excl sec)
      (by simp only [St.setP, get_set hc, if_true]) (by simp)
    refine ⟨_ :: t2, s2, by simpa using h2, ?_, by rw [h4]; simp [St.setP]⟩
    intro l hl
    rcases List.mem_cons.1 hl with e | e
    · rw [e]; simp [Lab.NoCall]
    · exact h3 l e

/-- all of the first `k` goroutines become idle -/
theorem serve_all {tr : List Lab} {s : St} (h : Run w n tr s)
    (hq : ∀ (c : ℕ) p, s.phases[c]? = some p → p = .idle ∨ ∃ cmd i, p = .wait cmd i) (k : ℕ) :
    ∃ tr' s', Run w n (tr ++ tr') s' ∧ (∀ l ∈ tr', l.NoCall) ∧
      (∀ (c : ℕ) p, s'.phases[c]? = some p → p = .idle ∨ ∃ cmd i, p = .wait cmd i) ∧
      ∀ (c : ℕ) p, c < k → s'.phases[c]? = some p → p = .idle := by
  induction k with
  | zero => exact ⟨[], s, by simpa using h, by simp, hq, by intro c p hc; omega⟩
  | succ k ih =>
    obtain ⟨t1, s1, h1, h2, h3, h4⟩ := ih
    cases hk : s1.phases[k]? with
    | none =>
      refine ⟨t1, s1, h1, h2, h3, ?_⟩
      intro c p hc hp
      by_cases e : c = k
      · subst e; rw [hk] at hp; cases hp
      · exact h4 c p (by omega) hp
    | some p0 =>
      rcases h3 k p0 hk with rfl | ⟨cmd, i, rfl⟩
      · refine ⟨t1, s1, h1, h2, h3, ?_⟩
        intro c p hc hp
        by_cases e : c = k
        · subst e; rw [hk] at hp; cases hp; rfl
        · exact h4 c p (by omega) hp
      · obtain ⟨t2, s2, h5, h6, h7⟩ := serve h1 h3 hk
        refine ⟨t1 ++ t2, s2, by simpa using h5, ?_, ?_, ?_⟩
        · intro l hl
          rcases List.mem_append.1 hl with e | e
          · exact h2 l e
          · exact h6 l e
        · intro c p hp
          rw [h7, get_set hk] at hp
          split at hp
          · cases hp; exact Or.inl rfl
          · exact h3 c p hp
        · intro c p hc hp
          rw [h7, get_set hk] at hp
          split at hp
          · cases hp; rfl
          · exact h4 c p (by omega) hp

end Tricorder.Locks
