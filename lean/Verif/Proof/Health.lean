import Verif.Spec.Health
import Mathlib.Data.List.Induction
/-!
# The health server: invariant
-/

namespace Tricorder.Health
open Go Spec

def enc : Status → Str
  | none => []
  | some s => s

def sets : Which → Call → Option Status
  | .health => setsHealth
  | .ready => setsReady

def stat (x : Which) (cs : List Call) : Status :=
  match x with
  | .health => latest setsHealth none cs
  | .ready => latest setsReady (some (lit "not ready")) cs

/-- the call has taken effect -/
def past : PC → Prop
  | .unlock _ | .answer _ | .done _ => True
  | _ => False

/-- the call has the mutex -/
def inside : PC → Prop
  | .access | .half | .unlock _ => True
  | _ => False

def Good (L : List (ℕ × Call)) (i : ℕ) (c : Call) : PC → Prop
  | .start => True
  | .lock | .access => c.plan ≠ none
  | .half => ∃ x v, c.plan = some (x, some v)
  | .unlock v => c.plan ≠ none ∧ ∀ x, c.plan = some (x, none) →
      ∃ a b, L = a ++ (i, c) :: b ∧ v = .whole (enc (stat x (a.map Prod.snd)))
  | .answer v => ∃ x, c.plan = some (x, none) ∧
      ∃ a b, L = a ++ (i, c) :: b ∧ v = .whole (enc (stat x (a.map Prod.snd)))
  | .done r => ∃ a b, L = a ++ (i, c) :: b ∧ r = result (a.map Prod.snd) c

structure Inv (tr : List Ev) (s : State) (L : List (ℕ × Call)) : Prop where
  invs : ∀ i c, Ev.inv i c ∈ tr ↔ ∃ pc, s.calls[i]? = some (c, pc)
  rets : ∀ i r, Ev.ret i r ∈ tr → ∃ c, s.calls[i]? = some (c, .done r)
  lin : ∀ i c, (i, c) ∈ L ↔ ∃ pc, s.calls[i]? = some (c, pc) ∧ past pc
  nodup : (L.map Prod.fst).Nodup
  order : ∀ i r j c, [Ev.ret i r, Ev.inv j c].Sublist tr → (j, c) ∈ L → ∃ ci, [(i, ci), (j, c)].Sublist L
  good : ∀ (i : ℕ) (c : Call) (pc : PC), s.calls[i]? = some (c, pc) → Good L i c pc
  excl : ∀ (i j : ℕ) (c c' : Call) (pc pc' : PC), s.calls[i]? = some (c, pc) → s.calls[j]? = some (c', pc') → inside pc → inside pc' → i = j
  lockd : ∀ (i : ℕ) (c : Call) (pc : PC), s.calls[i]? = some (c, pc) → inside pc → s.globals.locked = true
  held : s.globals.locked = true → ∃ (i : ℕ) (c : Call) (pc : PC), s.calls[i]? = some (c, pc) ∧ inside pc
  vars : ∀ x, (∀ (i : ℕ) (c : Call), s.calls[i]? = some (c, .half) → ∀ v, c.plan ≠ some (x, some v)) →
    s.globals.get x = .whole (enc (stat x (L.map Prod.snd)))

theorem latest_snoc (f : Call → Option Status) (st : Status) (cs : List Call) (c : Call) :
    latest f st (cs ++ [c]) = (f c).getD (latest f st cs) := by
  unfold latest
  rw [List.filterMap_append]
  cases h : f c with
  | none => simp [List.filterMap_cons, h]
  | some y => simp [List.filterMap_cons, h]

theorem stat_snoc (x : Which) (cs : List Call) (c : Call) : stat x (cs ++ [c]) = (sets x c).getD (stat x cs) := by
  cases x <;> exact latest_snoc _ _ _ _

theorem sets_of_plan {c : Call} {x : Which} {v : Str} (h : c.plan = some (x, some v)) :
    (∃ st, sets x c = some st ∧ enc st = v) ∧ ∀ y, y ≠ x → sets y c = none := by
  have hw : ∀ y : Which, y = .health ∨ y = .ready := fun y => by cases y <;> simp
  cases c with
  | setHealthy => cases h; exact ⟨⟨none, rfl, rfl⟩, fun y hy => by rcases hw y with rfl | rfl; exact absurd rfl hy; rfl⟩
  | setReady => cases h; exact ⟨⟨none, rfl, rfl⟩, fun y hy => by rcases hw y with rfl | rfl; rfl; exact absurd rfl hy⟩
  | setNotHealthy s =>
    simp only [Call.plan] at h
    split at h
    · cases h
    · rename_i h0
      cases h
      refine ⟨⟨some v, by simp only [sets, setsHealth]; rw [if_neg h0], rfl⟩, fun y hy => ?_⟩
      rcases hw y with rfl | rfl
      · exact absurd rfl hy
      · rfl
  | setNotReady s =>
    simp only [Call.plan] at h
    split at h
    · cases h
    · rename_i h0
      cases h
      refine ⟨⟨some v, by simp only [sets, setsReady]; rw [if_neg h0], rfl⟩, fun y hy => ?_⟩
      rcases hw y with rfl | rfl
      · rfl
      · exact absurd rfl hy
  | healthz => cases h
  | readiness => cases h

theorem sets_of_read {c : Call} {x : Which} (h : c.plan = some (x, none)) (y : Which) : sets y c = none := by
  cases c with
  | setHealthy => cases h
  | setReady => cases h
  | setNotHealthy s => simp only [Call.plan] at h; split at h <;> cases h
  | setNotReady s => simp only [Call.plan] at h; split at h <;> cases h
  | healthz => cases y <;> rfl
  | readiness => cases y <;> rfl

theorem sets_of_panic {c : Call} (h : c.plan = none) : (∀ y, sets y c = none) ∧ ∀ cs, result cs c = .panicked := by
  cases c with
  | setHealthy => cases h
  | setReady => cases h
  | setNotHealthy s =>
    simp only [Call.plan] at h
    split at h
    · rename_i h0
      refine ⟨fun y => ?_, fun cs => ?_⟩
      · cases y
        · simp only [sets, setsHealth]; rw [if_pos h0]
        · rfl
      · simp only [result]; rw [if_pos h0]
    · cases h
  | setNotReady s =>
    simp only [Call.plan] at h
    split at h
    · rename_i h0
      refine ⟨fun y => ?_, fun cs => ?_⟩
      · cases y
        · rfl
        · simp only [sets, setsReady]; rw [if_pos h0]
      · simp only [result]; rw [if_pos h0]
    · cases h
  | healthz => cases h
  | readiness => cases h

theorem result_of_set {c : Call} {x : Which} {v : Str} (h : c.plan = some (x, some v)) (cs : List Call) :
    result cs c = .returned := by
  cases c with
  | setHealthy => rfl
  | setReady => rfl
  | setNotHealthy s =>
    simp only [Call.plan] at h
    split at h
    · cases h
    · rename_i h0; simp only [result]; rw [if_neg h0]
  | setNotReady s =>
    simp only [Call.plan] at h
    split at h
    · cases h
    · rename_i h0; simp only [result]; rw [if_neg h0]
  | healthz => cases h
  | readiness => cases h

theorem sets_ne {x : Which} {c : Call} {s : Str} (h : sets x c = some (some s)) : s ≠ [] := by
  cases x <;> cases c <;> simp only [sets, setsHealth, setsReady] at h <;> try (cases h)
  all_goals
    split at h
    · cases h
    · rename_i h0; cases h; exact fun h1 => h0 (Or.inl h1)

theorem stat_ne (x : Which) (cs : List Call) {s : Str} (h : stat x cs = some s) : s ≠ [] := by
  induction cs using List.reverseRecOn with
  | nil => cases x <;> cases h; decide
  | append_singleton cs c ih =>
    rw [stat_snoc] at h
    cases h1 : sets x c with
    | none => rw [h1] at h; exact ih h
    | some st => rw [h1] at h; cases h; exact sets_ne h1

theorem commonHandler_enc (x : Which) (cs : List Call) : commonHandler (enc (stat x cs)) = page (stat x cs) := by
  cases h : stat x cs with
  | none => rfl
  | some s => exact if_neg (stat_ne x cs h)

theorem result_of_read {c : Call} {x : Which} (h : c.plan = some (x, none)) (cs : List Call) :
    result cs c = page (stat x cs) := by
  cases c with
  | setHealthy => cases h
  | setReady => cases h
  | setNotHealthy s => simp only [Call.plan] at h; split at h <;> cases h
  | setNotReady s => simp only [Call.plan] at h; split at h <;> cases h
  | healthz => cases h; rfl
  | readiness => cases h; rfl

theorem Good.mono {L : List (ℕ × Call)} {i : ℕ} {c : Call} {pc : PC} (h : Good L i c pc) (y : ℕ × Call) :
    Good (L ++ [y]) i c pc := by
  cases pc with
  | start => trivial
  | lock => exact h
  | access => exact h
  | half => exact h
  | unlock v =>
    refine ⟨h.1, fun x hx => ?_⟩
    obtain ⟨a, b, rfl, hv⟩ := h.2 x hx
    exact ⟨a, b ++ [y], by simp, hv⟩
  | answer v =>
    obtain ⟨x, hx, a, b, rfl, hv⟩ := h
    exact ⟨x, hx, a, b ++ [y], by simp, hv⟩
  | done r =>
    obtain ⟨a, b, rfl, hv⟩ := h
    exact ⟨a, b ++ [y], by simp, hv⟩

theorem sub_snoc {a b e : Ev} {tr : List Ev} (h : [a, b].Sublist (tr ++ [e])) :
    [a, b].Sublist tr ∨ (a ∈ tr ∧ b = e) := by
  rcases List.sublist_append_iff.mp h with ⟨l1, l2, h1, h2, h3⟩
  cases l1 with
  | nil =>
    have h4 := h3.length_le
    simp only [List.nil_append] at h1
    rw [← h1] at h4
    simp at h4
  | cons y l1 =>
    simp only [List.cons_append, List.cons.injEq] at h1
    obtain ⟨rfl, h1⟩ := h1
    cases l1 with
    | nil =>
      simp only [List.nil_append] at h1
      rw [← h1] at h3
      right
      refine ⟨h2.subset List.mem_cons_self, ?_⟩
      have := h3.subset List.mem_cons_self
      simpa using this
    | cons z l1 =>
      simp only [List.cons_append, List.cons.injEq] at h1
      obtain ⟨rfl, h1⟩ := h1
      left
      cases l1 with
      | nil => exact h2
      | cons _ _ => cases h1

theorem order_ret {tr : List Ev} {L : List (ℕ × Call)}
    (h : ∀ i r j c, [Ev.ret i r, Ev.inv j c].Sublist tr → (j, c) ∈ L → ∃ ci, [(i, ci), (j, c)].Sublist L) (k : ℕ) (pc : PC) :
    ∀ i r j c, [Ev.ret i r, Ev.inv j c].Sublist (tr ++ retEv k pc) → (j, c) ∈ L → ∃ ci, [(i, ci), (j, c)].Sublist L := by
  intro i r j c h1 h2
  cases pc with
  | done r' =>
    rcases sub_snoc h1 with h3 | ⟨-, h3⟩
    · exact h i r j c h3 h2
    · cases h3
  | _ => simp only [retEv, List.append_nil] at h1; exact h i r j c h1 h2

theorem mem_ret {tr : List Ev} {i : ℕ} {pc : PC} {e : Ev} : e ∈ tr ++ retEv i pc ↔ e ∈ tr ∨ ∃ r, pc = .done r ∧ e = .ret i r := by
  cases pc <;> simp [retEv]

theorem getElem?_upd {l : List (Call × PC)} {i : ℕ} {c : Call} {pc pc' : PC} (h : l[i]? = some (c, pc)) (j : ℕ) (y : Call × PC) :
    (l.set i (c, pc'))[j]? = some y ↔ (j = i ∧ y = (c, pc')) ∨ (j ≠ i ∧ l[j]? = some y) := by
  by_cases hj : j = i
  · subst hj
    rw [List.getElem?_set_self (List.getElem?_eq_some_iff.mp h).1]
    simp [eq_comm]
  · rw [List.getElem?_set_ne (Ne.symm hj)]
    simp [hj]

theorem inv_init : Inv [] .init [] where
  invs := by simp [State.init]
  rets := by simp
  lin := by simp [State.init]
  nodup := by simp
  order := by simp
  good := by simp [State.init]
  excl := by simp [State.init]
  lockd := by simp [State.init]
  held := by simp [State.init, Globals.init]
  vars := by intro x _; cases x <;> rfl

theorem inv_inv {tr : List Ev} {s : State} {L : List (ℕ × Call)} (h : Inv tr s L) (c : Call) :
    Inv (tr ++ [.inv s.calls.length c]) ⟨s.globals, s.calls ++ [(c, .start)]⟩ L := by
  have hget : ∀ (j : ℕ) (y : Call × PC), (s.calls ++ [(c, PC.start)])[j]? = some y ↔
      s.calls[j]? = some y ∨ (j = s.calls.length ∧ y = (c, .start)) := by
    intro j y
    rw [List.getElem?_append]
    split
    · rename_i hj
      have : j ≠ s.calls.length := by omega
      simp [this]
    · rename_i hj
      have h1 : s.calls[j]? = none := List.getElem?_eq_none (by omega)
      rw [h1, List.getElem?_singleton]
      by_cases h2 : j = s.calls.length
      · simp [h2, eq_comm]
      · have h3 : j - s.calls.length ≠ 0 := by omega
        simp [h2, h3]
  have hold : ∀ (j : ℕ) (y : Call × PC), s.calls[j]? = some y → j ≠ s.calls.length := fun j y hj => by
    have := (List.getElem?_eq_some_iff.mp hj).1; omega
  constructor
  · intro i c'
    simp only [List.mem_append, List.mem_singleton, h.invs, hget]
    constructor
    · rintro (⟨pc, h1⟩ | h1)
      · exact ⟨pc, Or.inl h1⟩
      · cases h1; exact ⟨_, Or.inr ⟨rfl, rfl⟩⟩
    · rintro ⟨pc, h1 | ⟨h1, h2⟩⟩
      · exact Or.inl ⟨pc, h1⟩
      · cases h2; subst h1; exact Or.inr rfl
  · intro i r hr
    simp only [List.mem_append, List.mem_singleton] at hr
    rcases hr with hr | hr
    · obtain ⟨c', h1⟩ := h.rets i r hr
      exact ⟨c', (hget _ _).mpr (Or.inl h1)⟩
    · cases hr
  · intro i c'
    rw [h.lin]
    constructor
    · rintro ⟨pc, h1, h2⟩; exact ⟨pc, (hget _ _).mpr (Or.inl h1), h2⟩
    · rintro ⟨pc, h1, h2⟩
      rcases (hget _ _).mp h1 with h1 | ⟨-, h1⟩
      · exact ⟨pc, h1, h2⟩
      · cases h1; exact h2.elim
  · exact h.nodup
  · intro i r j c' h1 h2
    rcases sub_snoc h1 with h3 | ⟨-, h3⟩
    · exact h.order i r j c' h3 h2
    · cases h3
      obtain ⟨pc, h4, -⟩ := (h.lin _ _).mp h2
      exact absurd rfl (hold _ _ h4)
  · intro i c' pc h1
    rcases (hget _ _).mp h1 with h1 | ⟨-, h1⟩
    · exact h.good i c' pc h1
    · cases h1; trivial
  · intro i j c1 c2 pc1 pc2 h1 h2 h3 h4
    rcases (hget _ _).mp h1 with h1 | ⟨-, h1⟩
    · rcases (hget _ _).mp h2 with h2 | ⟨-, h2⟩
      · exact h.excl i j c1 c2 pc1 pc2 h1 h2 h3 h4
      · cases h2; exact h4.elim
    · cases h1; exact h3.elim
  · intro i c1 pc1 h1 h3
    rcases (hget _ _).mp h1 with h1 | ⟨-, h1⟩
    · exact h.lockd i c1 pc1 h1 h3
    · cases h1; exact h3.elim
  · intro hl
    obtain ⟨i, c1, pc1, h1, h2⟩ := h.held hl
    exact ⟨i, c1, pc1, (hget _ _).mpr (Or.inl h1), h2⟩
  · intro x hx
    exact h.vars x fun i c1 h1 => hx i c1 ((hget _ _).mpr (Or.inl h1))

/-- a step of a call; if it takes effect at this step, it is added to the list -/
theorem inv_step {tr : List Ev} {s : State} {L : List (ℕ × Call)} (h : Inv tr s L) {i : ℕ} {c : Call} {pc pc' : PC}
    (hi : s.calls[i]? = some (c, pc)) {g : Globals} {L' : List (ℕ × Call)}
    (hL : (L' = L ∧ (past pc ↔ past pc')) ∨ (L' = L ++ [(i, c)] ∧ ¬ past pc ∧ past pc')) (hnd : ∀ r, pc ≠ .done r)
    (hg : Good L' i c pc') (hin : inside pc' → inside pc ∨ s.globals.locked = false)
    (hlk : inside pc' → g.locked = true) (hlk' : ¬ inside pc' → inside pc → g.locked = false)
    (hlk2 : ¬ inside pc' → ¬ inside pc → g.locked = s.globals.locked)
    (hv : ∀ x, (∀ (j : ℕ) (c1 : Call), j ≠ i → s.calls[j]? = some (c1, .half) → ∀ v, c1.plan ≠ some (x, some v)) →
      (pc' = .half → ∀ v, c.plan ≠ some (x, some v)) → g.get x = .whole (enc (stat x (L'.map Prod.snd)))) :
    Inv (tr ++ retEv i pc') ⟨g, s.calls.set i (c, pc')⟩ L' := by
  have hget := getElem?_upd (pc' := pc') hi
  constructor
  · intro j c'
    rw [mem_ret]
    simp only [h.invs, hget]
    constructor
    · rintro (⟨q, h1⟩ | ⟨r, -, h1⟩)
      · by_cases hj : j = i
        · subst hj
          rw [hi] at h1
          cases h1
          exact ⟨pc', Or.inl ⟨rfl, rfl⟩⟩
        · exact ⟨q, Or.inr ⟨hj, h1⟩⟩
      · cases h1
    · rintro ⟨q, ⟨h1, h2⟩ | ⟨h1, h2⟩⟩
      · cases h2; subst h1; exact Or.inl ⟨pc, hi⟩
      · exact Or.inl ⟨q, h2⟩
  · intro j r hr
    rcases mem_ret.mp hr with hr | ⟨r', h1, h2⟩
    · obtain ⟨c', h1⟩ := h.rets j r hr
      refine ⟨c', (hget _ _).mpr (Or.inr ⟨?_, h1⟩)⟩
      rintro rfl
      rw [hi] at h1
      cases h1
      exact hnd r rfl
    · cases h2
      exact ⟨c, (hget _ _).mpr (Or.inl ⟨rfl, by rw [h1]⟩)⟩
  · intro j c'
    rcases hL with ⟨rfl, hp⟩ | ⟨rfl, hp1, hp2⟩
    · rw [h.lin]
      constructor
      · rintro ⟨q, h1, h2⟩
        by_cases hj : j = i
        · subst hj
          rw [hi] at h1
          cases h1
          exact ⟨pc', (hget _ _).mpr (Or.inl ⟨rfl, rfl⟩), hp.mp h2⟩
        · exact ⟨q, (hget _ _).mpr (Or.inr ⟨hj, h1⟩), h2⟩
      · rintro ⟨q, h1, h2⟩
        rcases (hget _ _).mp h1 with ⟨rfl, h3⟩ | ⟨h3, h4⟩
        · cases h3; exact ⟨pc, hi, hp.mpr h2⟩
        · exact ⟨q, h4, h2⟩
    · rw [List.mem_append, h.lin, List.mem_singleton]
      constructor
      · rintro (⟨q, h1, h2⟩ | h1)
        · refine ⟨q, (hget _ _).mpr (Or.inr ⟨?_, h1⟩), h2⟩
          rintro rfl
          rw [hi] at h1
          cases h1
          exact hp1 h2
        · cases h1
          exact ⟨pc', (hget _ _).mpr (Or.inl ⟨rfl, rfl⟩), hp2⟩
      · rintro ⟨q, h1, h2⟩
        rcases (hget _ _).mp h1 with ⟨rfl, h3⟩ | ⟨h3, h4⟩
        · cases h3; exact Or.inr rfl
        · exact Or.inl ⟨q, h4, h2⟩
  · rcases hL with ⟨rfl, hp⟩ | ⟨rfl, hp1, hp2⟩
    · exact h.nodup
    · rw [List.map_append, List.nodup_append]
      refine ⟨h.nodup, by simp, ?_⟩
      intro a ha b hb
      simp only [List.map_cons, List.map_nil, List.mem_singleton] at hb
      subst hb
      rintro rfl
      obtain ⟨⟨j, c'⟩, h1, h2⟩ := List.mem_map.mp ha
      cases h2
      obtain ⟨q, h3, h4⟩ := (h.lin _ _).mp h1
      rw [hi] at h3
      cases h3
      exact hp1 h4
  · rcases hL with ⟨rfl, hp⟩ | ⟨rfl, hp1, hp2⟩
    · exact order_ret h.order i pc'
    · refine order_ret ?_ i pc'
      intro j r k c' h1 h2
      rcases List.mem_append.mp h2 with h2 | h2
      · obtain ⟨ci, h3⟩ := h.order j r k c' h1 h2
        exact ⟨ci, h3.trans (List.sublist_append_left _ _)⟩
      · cases List.mem_singleton.mp h2
        obtain ⟨cj, h3⟩ := h.rets j r (h1.subset List.mem_cons_self)
        have h4 := (h.lin j cj).mpr ⟨_, h3, trivial⟩
        exact ⟨cj, (List.singleton_sublist.mpr h4).append (List.Sublist.refl [(i, c)])⟩
  · intro j c' q h1
    rcases (hget _ _).mp h1 with ⟨rfl, h3⟩ | ⟨h3, h4⟩
    · cases h3; exact hg
    · rcases hL with ⟨rfl, -⟩ | ⟨rfl, -⟩
      · exact h.good j c' q h4
      · exact (h.good j c' q h4).mono _
  · intro j k c1 c2 q1 q2 h1 h2 h3 h4
    have key : ∀ {j : ℕ} {c1 : Call} {q1 : PC}, j ≠ i → s.calls[j]? = some (c1, q1) → inside q1 → inside pc' → False := by
      intro j c1 q1 hj h1 h3 h4
      rcases hin h4 with h5 | h5
      · exact hj (h.excl _ _ _ _ _ _ h1 hi h3 h5)
      · rw [h.lockd _ _ _ h1 h3] at h5; cases h5
    rcases (hget _ _).mp h1 with ⟨rfl, h5⟩ | ⟨h5, h6⟩
    · cases h5
      rcases (hget _ _).mp h2 with ⟨rfl, h5⟩ | ⟨h5, h6⟩
      · rfl
      · exact (key h5 h6 h4 h3).elim
    · rcases (hget _ _).mp h2 with ⟨rfl, h7⟩ | ⟨h7, h8⟩
      · cases h7; exact (key h5 h6 h3 h4).elim
      · exact h.excl _ _ _ _ _ _ h6 h8 h3 h4
  · intro j c1 q1 h1 h3
    rcases (hget _ _).mp h1 with ⟨rfl, h5⟩ | ⟨h5, h6⟩
    · cases h5; exact hlk h3
    · by_cases h7 : inside pc'
      · exact hlk h7
      · by_cases h8 : inside pc
        · exact absurd (h.excl _ _ _ _ _ _ h6 hi h3 h8) h5
        · show g.locked = true
          rw [hlk2 h7 h8]; exact h.lockd _ _ _ h6 h3
  · intro hl
    by_cases h7 : inside pc'
    · exact ⟨i, c, pc', (hget _ _).mpr (Or.inl ⟨rfl, rfl⟩), h7⟩
    · by_cases h8 : inside pc
      · have := hlk' h7 h8
        rw [show g.locked = true from hl] at this
        cases this
      · obtain ⟨j, c1, q1, h1, h2⟩ := h.held (by rw [← hlk2 h7 h8]; exact hl)
        refine ⟨j, c1, q1, (hget _ _).mpr (Or.inr ⟨?_, h1⟩), h2⟩
        rintro rfl
        rw [hi] at h1
        cases h1
        exact h8 h2
  · intro x hx
    refine hv x (fun j c1 hj h1 => hx j c1 ((hget _ _).mpr (Or.inr ⟨hj, h1⟩))) fun hh v => ?_
    subst hh
    exact hx i c ((hget _ _).mpr (Or.inl ⟨rfl, rfl⟩)) v

theorem get_set_self (g : Globals) (x : Which) (v : Word) : (g.set x v).get x = v := by cases x <;> rfl

theorem get_set_ne (g : Globals) {x y : Which} (h : y ≠ x) (v : Word) : (g.set x v).get y = g.get y := by
  cases x <;> cases y <;> first | rfl | exact absurd rfl h

theorem set_locked (g : Globals) (x : Which) (v : Word) : (g.set x v).locked = g.locked := by cases x <;> rfl

theorem get_locked (g : Globals) (x : Which) (b : Bool) : ({ g with locked := b } : Globals).get x = g.get x := by
  cases x <;> rfl

/-- nobody else is in the middle of an assignment -/
theorem no_half {tr : List Ev} {s : State} {L : List (ℕ × Call)} (h : Inv tr s L) {i : ℕ} {c : Call} {pc : PC}
    (hi : s.calls[i]? = some (c, pc)) (hin : inside pc) {j : ℕ} {c' : Call} (hj : j ≠ i) : s.calls[j]? ≠ some (c', .half) :=
  fun h1 => hj (h.excl _ _ _ _ _ _ h1 hi trivial hin)

theorem vars_keep {tr : List Ev} {s : State} {L : List (ℕ × Call)} (h : Inv tr s L) {i : ℕ} {c : Call} {pc : PC}
    (hi : s.calls[i]? = some (c, pc)) (hpc : pc ≠ .half) (x : Which)
    (hx : ∀ (j : ℕ) (c1 : Call), j ≠ i → s.calls[j]? = some (c1, .half) → ∀ v, c1.plan ≠ some (x, some v)) :
    s.globals.get x = .whole (enc (stat x (L.map Prod.snd))) := by
  refine h.vars x fun j c1 h1 => hx j c1 ?_ h1
  rintro rfl
  rw [hi] at h1
  cases h1
  exact hpc rfl

theorem run_inv {tr : List Ev} {s : State} (hr : Run tr s) : ∃ L, Inv tr s L := by
  induction hr with
  | init => exact ⟨[], inv_init⟩
  | inv c _ ih =>
    obtain ⟨L, h⟩ := ih
    exact ⟨L, inv_inv h c⟩
  | @step tr s g pc' i c pc _ hi hs ih =>
    obtain ⟨L, h⟩ := ih
    have hgood := h.good i c pc hi
    unfold Health.step at hs
    cases hp : c.plan with
    | none =>
      rw [hp] at hs
      cases pc with
      | start =>
        simp only [Option.some.injEq, Prod.mk.injEq] at hs
        obtain ⟨rfl, rfl⟩ := hs
        obtain ⟨h1, h2⟩ := sets_of_panic hp
        refine ⟨L ++ [(i, c)], inv_step h hi (Or.inr ⟨rfl, id, trivial⟩) (by simp) ⟨L, [], rfl, (h2 _).symm⟩
          (fun hh => hh.elim) (fun hh => hh.elim) (fun _ hh => hh.elim) (fun _ _ => rfl) ?_⟩
        intro x hx _
        rw [List.map_append, List.map_cons, List.map_nil, stat_snoc, h1 x]
        exact vars_keep h hi (by simp) x hx
      | _ => simp at hs
    | some xn =>
      obtain ⟨x, new⟩ := xn
      rw [hp] at hs
      cases pc with
      | start =>
        simp only [Option.some.injEq, Prod.mk.injEq] at hs
        obtain ⟨rfl, rfl⟩ := hs
        refine ⟨L, inv_step h hi (Or.inl ⟨rfl, Iff.rfl⟩) (by simp) (by simp [Good, hp])
          (fun hh => hh.elim) (fun hh => hh.elim) (fun _ hh => hh.elim) (fun _ _ => rfl) ?_⟩
        intro y hy _
        exact vars_keep h hi (by simp) y hy
      | lock =>
        simp only at hs
        split at hs
        · cases hs
        · rename_i hl
          simp only [Option.some.injEq, Prod.mk.injEq] at hs
          obtain ⟨rfl, rfl⟩ := hs
          refine ⟨L, inv_step h hi (Or.inl ⟨rfl, Iff.rfl⟩) (by simp) (by simp [Good, hp])
            (fun _ => Or.inr (by simpa using hl)) (fun _ => rfl) (fun hh => absurd trivial hh) (fun hh => absurd trivial hh) ?_⟩
          intro y hy _
          rw [get_locked]
          exact vars_keep h hi (by simp) y hy
      | access =>
        have hl := h.lockd i c _ hi trivial
        cases new with
        | some v =>
          simp only [Option.some.injEq, Prod.mk.injEq] at hs
          obtain ⟨rfl, rfl⟩ := hs
          refine ⟨L, inv_step h hi (Or.inl ⟨rfl, Iff.rfl⟩) (by simp) ⟨x, v, hp⟩
            (fun _ => Or.inl trivial) (fun _ => by rw [set_locked, hl]) (fun hh => absurd trivial hh) (fun hh => absurd trivial hh) ?_⟩
          intro y hy hh
          have hne : y ≠ x := by
            rintro rfl
            exact hh rfl v hp
          rw [get_set_ne _ hne]
          exact vars_keep h hi (by simp) y hy
        | none =>
          simp only [Option.some.injEq, Prod.mk.injEq] at hs
          obtain ⟨rfl, rfl⟩ := hs
          have hst : ∀ y, s.globals.get y = .whole (enc (stat y (L.map Prod.snd))) := fun y =>
            vars_keep h hi (by simp) y fun j c1 hj h1 => absurd h1 (no_half h hi trivial hj)
          refine ⟨L ++ [(i, c)], inv_step h hi (Or.inr ⟨rfl, id, trivial⟩) (by simp) ⟨by simp [hp], ?_⟩
            (fun _ => Or.inl trivial) (fun _ => hl) (fun hh => absurd trivial hh) (fun hh => absurd trivial hh) ?_⟩
          · intro y hy
            rw [hp] at hy
            cases hy
            exact ⟨L, [], rfl, hst x⟩
          · intro y hy _
            rw [List.map_append, List.map_cons, List.map_nil, stat_snoc, sets_of_read hp y]
            exact hst y
      | half =>
        have hl := h.lockd i c _ hi trivial
        cases new with
        | none => cases hs
        | some v =>
          simp only [Option.some.injEq, Prod.mk.injEq] at hs
          obtain ⟨rfl, rfl⟩ := hs
          obtain ⟨⟨st, h1, h2⟩, h3⟩ := sets_of_plan hp
          refine ⟨L ++ [(i, c)], inv_step h hi (Or.inr ⟨rfl, id, trivial⟩) (by simp) ⟨by simp [hp], ?_⟩
            (fun _ => Or.inl trivial) (fun _ => by rw [set_locked, hl]) (fun hh => absurd trivial hh) (fun hh => absurd trivial hh) ?_⟩
          · intro y hy
            rw [hp] at hy
            cases hy
          · intro y hy _
            rw [List.map_append, List.map_cons, List.map_nil, stat_snoc]
            by_cases hyx : y = x
            · subst hyx
              rw [get_set_self, h1]
              show _ = Word.whole (enc st)
              rw [h2]
            · rw [get_set_ne _ hyx, h3 y hyx]
              refine h.vars y fun j c1 hj v' hv' => ?_
              by_cases hji : j = i
              · subst hji
                rw [hi] at hj
                cases hj
                rw [hp] at hv'
                cases hv'
                exact hyx rfl
              · exact no_half h hi trivial hji hj
      | unlock r =>
        cases new with
        | some v =>
          simp only [Option.some.injEq, Prod.mk.injEq] at hs
          obtain ⟨rfl, rfl⟩ := hs
          have hm := (h.lin i c).mpr ⟨_, hi, trivial⟩
          obtain ⟨a, b, hab⟩ := List.append_of_mem hm
          refine ⟨L, inv_step h hi (Or.inl ⟨rfl, Iff.rfl⟩) (by simp) ⟨a, b, hab, (result_of_set hp _).symm⟩
            (fun hh => hh.elim) (fun hh => hh.elim) (fun _ _ => rfl) (fun _ hh => absurd trivial hh) ?_⟩
          intro y hy _
          rw [get_locked]
          exact vars_keep h hi (by simp) y hy
        | none =>
          simp only [Option.some.injEq, Prod.mk.injEq] at hs
          obtain ⟨rfl, rfl⟩ := hs
          refine ⟨L, inv_step h hi (Or.inl ⟨rfl, Iff.rfl⟩) (by simp) ⟨x, hp, hgood.2 x hp⟩
            (fun hh => hh.elim) (fun hh => hh.elim) (fun _ _ => rfl) (fun _ hh => absurd trivial hh) ?_⟩
          intro y hy _
          rw [get_locked]
          exact vars_keep h hi (by simp) y hy
      | answer r =>
        obtain ⟨x', hx', a, b, hab, rfl⟩ := hgood
        rw [hp] at hx'
        cases hx'
        simp only [Option.some.injEq, Prod.mk.injEq] at hs
        obtain ⟨rfl, rfl⟩ := hs
        refine ⟨L, inv_step h hi (Or.inl ⟨rfl, Iff.rfl⟩) (by simp)
          ⟨a, b, hab, by rw [commonHandler_enc, result_of_read hp]⟩
          (fun hh => hh.elim) (fun hh => hh.elim) (fun _ hh => hh.elim) (fun _ _ => rfl) ?_⟩
        intro y hy _
        exact vars_keep h hi (by simp) y hy
      | done r => simp at hs

theorem split_unique {a a' b b' L : List (ℕ × Call)} {i : ℕ} {c c' : Call} (hL : L = a ++ (i, c) :: b)
    (hn : (L.map Prod.fst).Nodup) (h : L = a' ++ (i, c') :: b') : a = a' := by
  induction a generalizing a' L with
  | nil =>
    cases a' with
    | nil => rfl
    | cons y a' =>
      subst hL
      simp only [List.nil_append, List.cons_append, List.cons.injEq] at h
      obtain ⟨rfl, rfl⟩ := h
      simp at hn
  | cons x a ih =>
    cases a' with
    | nil =>
      subst hL
      simp only [List.nil_append, List.cons_append, List.cons.injEq] at h
      obtain ⟨rfl, rfl⟩ := h
      simp at hn
    | cons y a' =>
      subst hL
      simp only [List.cons_append, List.cons.injEq] at h
      obtain ⟨rfl, h⟩ := h
      rw [ih rfl (by simp only [List.cons_append, List.map_cons, List.nodup_cons] at hn; exact hn.2) h]

theorem inv_explains {tr : List Ev} {s : State} {L : List (ℕ × Call)} (h : Inv tr s L) : Explains tr L where
  once := h.nodup
  made := fun x hx => (h.invs _ _).mpr (by obtain ⟨pc, h1, -⟩ := (h.lin _ _).mp hx; exact ⟨pc, h1⟩)
  all := fun i r hr => by
    obtain ⟨c, h1⟩ := h.rets i r hr
    exact ⟨c, (h.lin i c).mpr ⟨_, h1, trivial⟩⟩
  order := h.order
  results := by
    rintro a i c b r rfl hr
    obtain ⟨c', h1⟩ := h.rets i r hr
    obtain ⟨pc, h2, -⟩ := (h.lin i c).mp (by simp)
    rw [h1] at h2
    cases h2
    obtain ⟨a', b', h3, h4⟩ := h.good _ _ _ h1
    have : a = a' := by
      refine split_unique (b := b) (c := c) ?_ h.nodup h3
      simp
    subst this
    exact h4

/-- whoever has the mutex can go on -/
theorem inside_step {tr : List Ev} {s : State} {L : List (ℕ × Call)} (h : Inv tr s L) {i : ℕ} {c : Call} {pc : PC}
    (hi : s.calls[i]? = some (c, pc)) (hin : inside pc) : ∃ y, step c pc s.globals = some y := by
  have hg := h.good i c pc hi
  unfold step
  cases pc with
  | access =>
    cases hp : c.plan with
    | none => exact absurd hp hg
    | some xn => obtain ⟨x, new⟩ := xn; cases new <;> exact ⟨_, rfl⟩
  | half =>
    obtain ⟨x, v, hp⟩ := hg
    rw [hp]
    exact ⟨_, rfl⟩
  | unlock v =>
    cases hp : c.plan with
    | none => exact absurd hp hg.1
    | some xn => obtain ⟨x, new⟩ := xn; cases new <;> exact ⟨_, rfl⟩
  | start => exact hin.elim
  | lock => exact hin.elim
  | answer v => exact hin.elim
  | done r => exact hin.elim

theorem some_step {tr : List Ev} {s : State} {L : List (ℕ × Call)} (h : Inv tr s L) {i : ℕ} {c : Call} {pc : PC}
    (hi : s.calls[i]? = some (c, pc)) (hnd : ∀ r, pc ≠ .done r) :
    ∃ (j : ℕ) (c' : Call) (pc' : PC), s.calls[j]? = some (c', pc') ∧ ∃ y, step c' pc' s.globals = some y := by
  by_cases hin : inside pc
  · exact ⟨i, c, pc, hi, inside_step h hi hin⟩
  have hg := h.good i c pc hi
  cases pc with
  | start =>
    refine ⟨i, c, _, hi, ?_⟩
    unfold step
    cases hp : c.plan with
    | none => exact ⟨_, rfl⟩
    | some xn => exact ⟨_, rfl⟩
  | lock =>
    cases hl : s.globals.locked with
    | true =>
      obtain ⟨j, c', pc', h1, h2⟩ := h.held hl
      exact ⟨j, c', pc', h1, inside_step h h1 h2⟩
    | false =>
      refine ⟨i, c, _, hi, ?_⟩
      unfold step
      cases hp : c.plan with
      | none => exact absurd hp hg
      | some xn => simp [hl]
  | access => exact absurd trivial hin
  | half => exact absurd trivial hin
  | unlock v => exact absurd trivial hin
  | answer v =>
    obtain ⟨x, hx, a, b, -, rfl⟩ := hg
    refine ⟨i, c, _, hi, ?_⟩
    unfold step
    rw [hx]
    exact ⟨_, rfl⟩
  | done r => exact absurd rfl (hnd r)

/-- steps left -/
def rank : PC → ℕ
  | .start => 6
  | .lock => 5
  | .access => 4
  | .half => 3
  | .unlock _ => 2
  | .answer _ => 1
  | .done _ => 0

theorem step_rank {c : Call} {pc pc' : PC} {g g' : Globals} (h : step c pc g = some (g', pc')) : rank pc' < rank pc := by
  unfold step at h
  cases hp : c.plan with
  | none =>
    rw [hp] at h
    cases pc <;> simp at h
    obtain ⟨-, rfl⟩ := h
    decide
  | some xn =>
    obtain ⟨x, new⟩ := xn
    rw [hp] at h
    cases pc with
    | start => simp at h; obtain ⟨-, rfl⟩ := h; decide
    | lock =>
      simp only at h
      split at h
      · cases h
      · simp at h; obtain ⟨-, rfl⟩ := h; decide
    | access => cases new <;> simp at h <;> obtain ⟨-, rfl⟩ := h <;> simp [rank]
    | half =>
      cases new with
      | none => simp at h
      | some v => simp at h; obtain ⟨-, rfl⟩ := h; simp [rank]
    | unlock v => cases new <;> simp at h <;> obtain ⟨-, rfl⟩ := h <;> simp [rank]
    | answer v => cases v <;> simp at h <;> obtain ⟨-, rfl⟩ := h <;> simp [rank]
    | done r => simp at h

def total (cs : List (Call × PC)) : ℕ := (cs.map fun x => rank x.2).sum

theorem total_set {cs : List (Call × PC)} {i : ℕ} {c : Call} {pc pc' : PC} (hi : cs[i]? = some (c, pc))
    (hr : rank pc' < rank pc) : total (cs.set i (c, pc')) < total cs := by
  induction cs generalizing i with
  | nil => simp at hi
  | cons x cs ih =>
    cases i with
    | zero => simp only [List.getElem?_cons_zero, Option.some.injEq] at hi; subst hi; simp [total]; omega
    | succ i =>
      have := ih (i := i) (by simpa using hi)
      simp only [List.set_cons_succ, total, List.map_cons, List.sum_cons] at this ⊢
      omega

theorem can_finish {tr : List Ev} {s : State} (hr : Run tr s) :
    ∃ tr' s', Run (tr ++ tr') s' ∧ s'.calls.map Prod.fst = s.calls.map Prod.fst ∧ ∀ x ∈ s'.calls, ∃ r, x.2 = .done r := by
  induction hn : total s.calls using Nat.strongRecOn generalizing tr s with
  | ind n ih =>
    by_cases hd : ∀ x ∈ s.calls, ∃ r, x.2 = .done r
    · exact ⟨[], s, by simpa using hr, rfl, hd⟩
    · push_neg at hd
      obtain ⟨x, hx, hx2⟩ := hd
      obtain ⟨i, hi, rfl⟩ := List.getElem_of_mem hx
      obtain ⟨L, hI⟩ := run_inv hr
      obtain ⟨j, c, pc, hj, ⟨g, pc'⟩, hs⟩ := some_step hI (i := i) (c := s.calls[i].1) (pc := s.calls[i].2)
        (by rw [List.getElem?_eq_getElem hi]) hx2
      obtain ⟨tr', s', h1, h2, h3⟩ := ih _ (by rw [← hn]; exact total_set hj (step_rank hs)) (Run.step j c pc hr hj hs) rfl
      refine ⟨retEv j pc' ++ tr', s', by rw [← List.append_assoc]; exact h1, ?_, h3⟩
      rw [h2, List.map_set]
      have hlt : j < (s.calls.map Prod.fst).length := by
        rw [List.length_map]; exact (List.getElem?_eq_some_iff.mp hj).1
      have : (s.calls.map Prod.fst)[j] = c := by
        rw [List.getElem_map, (List.getElem?_eq_some_iff.mp hj).2]
      conv_rhs => rw [← List.set_getElem_self hlt]
      rw [this]

/-- run a schedule: start a call, or let a goroutine take a step -/
def sched : List (Call ⊕ ℕ) → List Ev → State → Option (List Ev × State)
  | [], tr, s => some (tr, s)
  | .inl c :: as, tr, s => sched as (tr ++ [.inv s.calls.length c]) ⟨s.globals, s.calls ++ [(c, .start)]⟩
  | .inr i :: as, tr, s => match s.calls[i]? with
    | none => none
    | some (c, pc) => match Health.step c pc s.globals with
      | none => none
      | some (g, pc') => sched as (tr ++ retEv i pc') ⟨g, s.calls.set i (c, pc')⟩

theorem sched_run {as : List (Call ⊕ ℕ)} {tr tr' : List Ev} {s s' : State} (hr : Run tr s)
    (h : sched as tr s = some (tr', s')) : Run tr' s' := by
  induction as generalizing tr s with
  | nil => cases h; exact hr
  | cons a as ih =>
    cases a with
    | inl c => exact ih (.inv c hr) h
    | inr i =>
      simp only [sched] at h
      split at h
      · cases h
      · rename_i c pc hi
        split at h
        · cases h
        · rename_i g pc' hs
          exact ih (.step i c pc hr hi hs) h

theorem latest_cases (f : Call → Option Status) (st : Status) (cs : List Call) :
    (∃ a c b v, cs = a ++ c :: b ∧ f c = some v ∧ (∀ d ∈ b, f d = none) ∧ latest f st cs = v) ∨
      ((∀ d ∈ cs, f d = none) ∧ latest f st cs = st) := by
  induction cs using List.reverseRecOn with
  | nil => right; simp [latest]
  | append_singleton cs c ih =>
    rw [latest_snoc]
    cases h : f c with
    | some v => left; exact ⟨cs, c, [], v, rfl, h, by simp, rfl⟩
    | none =>
      rcases ih with ⟨a, c', b, v, rfl, h1, h2, h3⟩ | ⟨h1, h2⟩
      · left
        refine ⟨a, c', b ++ [c], v, by simp, h1, ?_, h3⟩
        intro d hd
        rcases List.mem_append.mp hd with hd | hd
        · exact h2 d hd
        · rw [List.mem_singleton.mp hd]; exact h
      · right
        refine ⟨?_, h2⟩
        intro d hd
        rcases List.mem_append.mp hd with hd | hd
        · exact h1 d hd
        · rw [List.mem_singleton.mp hd]; exact h

theorem latest_of {f : Call → Option Status} {st v : Status} {a b : List Call} {c : Call} (h1 : f c = some v)
    (h2 : ∀ d ∈ b, f d = none) : latest f st (a ++ c :: b) = v := by
  unfold latest
  have : b.filterMap f = [] := List.filterMap_eq_nil_iff.mpr h2
  simp [List.filterMap_append, List.filterMap_cons, h1, this]

theorem latest_start {f : Call → Option Status} {st : Status} {cs : List Call} (h : ∀ d ∈ cs, f d = none) :
    latest f st cs = st := by
  unfold latest
  rw [List.filterMap_eq_nil_iff.mpr h]; rfl

theorem setsHealth_none {c : Call} : setsHealth c = none ↔ c ≠ .setHealthy ∧ ∀ s, c = .setNotHealthy s → Rejected s := by
  cases c <;> simp [setsHealth, Rejected]
  exact or_iff_not_imp_left.symm

theorem setsReady_none {c : Call} : setsReady c = none ↔ c ≠ .setReady ∧ ∀ s, c = .setNotReady s → Rejected s := by
  cases c <;> simp [setsReady, Rejected]
  exact or_iff_not_imp_left.symm

theorem setsHealth_some {c : Call} {v : Status} : setsHealth c = some v ↔
    (c = .setHealthy ∧ v = none) ∨ ∃ s, c = .setNotHealthy s ∧ ¬ Rejected s ∧ v = some s := by
  cases c <;> simp [setsHealth, Rejected]
  · exact eq_comm
  · exact fun _ _ => eq_comm

theorem setsReady_some {c : Call} {v : Status} : setsReady c = some v ↔
    (c = .setReady ∧ v = none) ∨ ∃ s, c = .setNotReady s ∧ ¬ Rejected s ∧ v = some s := by
  cases c <;> simp [setsReady, Rejected]
  · exact eq_comm
  · exact fun _ _ => eq_comm

theorem page_ok {st : Status} : page st = .page 200 (lit "OK") ↔ st = none := by
  cases st <;> simp [page]

theorem page_bad {st : Status} {s : Str} : page st = .page 503 (s ++ [10]) ↔ st = some s := by
  cases st <;> simp [page]

end Tricorder.Health
