import Verif.Proof.Nested2
/-!
# Groups: if a group depends on itself, everything may block
-/

namespace Tricorder.Group.Nested
open Go

variable {τ : Type} [Inhabited τ] {may : ℕ → ℕ → Prop}

/-- the groups of `S` wait for each other -/
structure Stuck (S : List ℕ) (s : St τ) : Prop where
  calling : ∀ q ∈ S, ∃ g, s.grp.regions[q]? = some g ∧ g.loop = .calling
  waits : ∀ q ∈ S, ∃ (c : ℕ) (cl : Client τ) (r : ℕ), s.owners[c]? = some (some (.upd q)) ∧ s.grp.clients[c]? = some cl ∧ cl.pc = .lockSend r ∧ r ∈ S

/-- for ever -/
theorem stuck_step {S : List ℕ} {s s' : St τ} {es : List (Ev τ)} (h : Stuck S s) (hs : Step may s es s') : Stuck S s' := by
  have own : ∀ (c : ℕ) o, s.owners[c]? = some o → s'.owners[c]? = some o := by
    intro c o ho
    cases hs with
    | opens => rw [List.getElem?_append_left (List.getElem?_eq_some_iff.1 ho).1]; exact ho
    | base => exact ho
  have calling : ∀ q ∈ S, ∃ g g', s.grp.regions[q]? = some g ∧ g.loop = .calling ∧ s'.grp.regions[q]? = some g' ∧ g' = g ∧
      ∀ e ∈ es, isTraffic q e = false := by
    intro q hq
    obtain ⟨g, h1, h2⟩ := h.calling q hq
    obtain ⟨g', h3, -, h4⟩ := hs.grp.region q g h1
    simp only [h2, reduceCtorEq, false_and, exists_false, true_and, false_or, or_false] at h4
    rcases h4 with ⟨rfl, h5⟩ | ⟨t, h4, h5⟩
    · exact ⟨_, _, h1, h2, h3, rfl, fun e he => (h5 e he).2⟩
    · obtain ⟨c, cl, r, h6, h7, h8, -⟩ := h.waits q hq
      cases hs with
      | opens => cases h5
      | base es g hb hlen hend =>
        have : Closed cl := hend q _ t (h5 ▸ List.mem_singleton.2 rfl) c cl h6 h7
        simp [Closed, h8] at this
  refine ⟨fun q hq => ?_, fun q hq => ?_⟩
  · obtain ⟨g, g', -, h2, h3, rfl, -⟩ := calling q hq
    exact ⟨_, h3, h2⟩
  · obtain ⟨c, cl, r, h1, h2, h3, h4⟩ := h.waits q hq
    refine ⟨c, cl, r, own c _ h1, ?_, h3, h4⟩
    obtain ⟨cl', h5, h6⟩ := hs.grp.client c cl h2
    rcases h6 with rfl | ⟨hp, -⟩ | ⟨r', hp, -, he⟩ | ⟨r', t, hp, -⟩ | ⟨r', t, hp, -⟩ | ⟨r', f, hp, -⟩ | ⟨r', hp, -⟩ | ⟨hp, -⟩ | ⟨hp, -⟩
    · exact h5
    all_goals rw [h3] at hp
    · cases hp
    · cases hp
      obtain ⟨-, -, -, -, -, -, h7⟩ := calling r h4
      have := h7 (.accept c r 1) (he ▸ List.mem_singleton.2 rfl)
      simp [isTraffic] at this
    all_goals first | cases hp | simp [isOpen] at hp

theorem stuck_run {S : List ℕ} {s s' : St τ} {es : List (Ev τ)} (h : Stuck S s) (hs : Run may s es s') : Stuck S s' := by
  induction hs with
  | nil => exact h
  | snoc _ h2 ih => exact stuck_step ih h2

/-- the groups on a path -/
theorem path_list {a b : ℕ} (h : Relation.TransGen may a b) : ∃ S : List ℕ, a ∈ S ∧ ∀ x ∈ S, (∃ y ∈ S, may x y) ∨ may x b := by
  induction h using Relation.TransGen.head_induction_on with
  | @single a h => exact ⟨[a], by simp, by simpa using .inr h⟩
  | @head a c h _ ih =>
    obtain ⟨S, h1, h2⟩ := ih
    refine ⟨a :: S, by simp, fun x hx => ?_⟩
    rcases List.mem_cons.1 hx with rfl | hx
    · exact .inl ⟨c, by simp [h1], h⟩
    · rcases h2 x hx with ⟨y, h3, h4⟩ | h3
      · exact .inl ⟨y, by simp [h3], h4⟩
      · exact .inr h3

theorem cycle_list {q : ℕ} (h : Relation.TransGen may q q) : ∃ S : List ℕ, q ∈ S ∧ ∀ x ∈ S, ∃ y ∈ S, may x y := by
  obtain ⟨S, h1, h2⟩ := path_list h
  refine ⟨S, h1, fun x hx => ?_⟩
  rcases h2 x hx with h | h
  · exact h
  · exact ⟨q, h1, h⟩

/-! ### Getting there -/

/-- groups that have not been used, except those of `L`, whose update functions run; nothing opened by an update function -/
structure Ready (n : ℕ) (L : List ℕ) (s : St τ) : Prop where
  len : s.grp.regions.length = n
  same : s.owners.length = s.grp.clients.length
  owners : ∀ o ∈ s.owners, o = none
  calling : ∀ q ∈ L, ∃ g, s.grp.regions[q]? = some g ∧ g.loop = .calling
  fresh : ∀ q g, q ∉ L → s.grp.regions[q]? = some g → g.loop = .select ∧ g.lockCount = 0

omit [Inhabited τ] in
theorem within_none {s : St τ} (h : ∀ o ∈ s.owners, o = none) {c q : ℕ} (hw : Within s c q) : False := by
  cases hw with
  | upd h1 => cases h _ (List.mem_of_getElem? h1)
  | fn h1 _ => cases h _ (List.mem_of_getElem? h1)

omit [Inhabited τ] in
theorem free_none {s : St τ} (h : ∀ o ∈ s.owners, o = none) (o : Owner) : s.Free o := by
  intro c cl h1
  cases h _ (List.mem_of_getElem? h1)

/-- without owners every step is possible -/
theorem step_none {s : St τ} {es : List (Ev τ)} {g : State τ} (ho : ∀ o ∈ s.owners, o = none) (h : Group.Step s.grp es g)
    (hl : g.clients.length = s.grp.clients.length) : Step may s es ⟨g, s.owners⟩ :=
  .base s es g h hl (fun _ _ _ _ => free_none ho _) (fun _ _ _ _ hf => absurd (free_none ho _) hf)
    fun _ _ _ _ _ hw => (within_none ho hw).elim

theorem ready_groups (n : ℕ) : ∃ tr, ∃ s : St τ, Run may (init τ) tr s ∧ Ready n [] s := by
  induction n with
  | zero => exact ⟨[], _, .nil, rfl, rfl, by simp [init], by simp, by simp [init, Group.init]⟩
  | succ n ih =>
    obtain ⟨tr, s, h1, h2⟩ := ih
    refine ⟨_, _, .snoc h1 (step_none h2.owners (.newGroup s.grp 0) rfl), by simp [h2.len], h2.same, h2.owners, by simp, ?_⟩
    intro q g hq hg
    rcases lt_or_ge q s.grp.regions.length with hlt | hge
    · rw [List.getElem?_append_left hlt] at hg
      exact h2.fresh q g hq hg
    · have hm := List.mem_of_getElem? hg
      rw [List.getElem?_append_right hge] at hg
      obtain ⟨h3, h4⟩ := List.getElem?_eq_some_iff.1 hg
      have : q - s.grp.regions.length = 0 := by simp only [List.length_singleton] at h3; omega
      simp only [this, List.getElem_cons_zero] at h4
      subst h4
      exact ⟨rfl, rfl⟩

/-- the update function of one more group is called -/
theorem ready_call {n : ℕ} {L : List ℕ} {s : St τ} (h : Ready n L s) {q : ℕ} (hq : q < n) (hL : q ∉ L) :
    ∃ tr s', Run may s tr s' ∧ Ready n (q :: L) s' := by
  have hlt : q < s.grp.regions.length := by rw [h.len]; exact hq
  obtain ⟨g, hg⟩ : ∃ g, s.grp.regions[q]? = some g := ⟨_, List.getElem?_eq_getElem hlt⟩
  obtain ⟨hsel, hcnt⟩ := h.fresh q g hL hg
  let c := s.grp.clients.length
  let s1 : St τ := ⟨{ s.grp with clients := s.grp.clients ++ [⟨[], .user⟩] }, s.owners ++ [none]⟩
  have o1 : ∀ o ∈ s1.owners, o = none := by
    intro o ho
    rcases List.mem_append.1 ho with ho | ho
    · exact h.owners o ho
    · exact List.mem_singleton.1 ho
  have r1 : Step may s [.opened c] s1 := .opens s none trivial
  have hc1 : s1.grp.clients[c]? = some ⟨[], .user⟩ := by simp [s1, c]
  let g2 : State τ := s1.grp.setC c ⟨[], .lockSend q⟩
  have r2 : Step may s1 [] ⟨g2, s1.owners⟩ := step_none o1 (.visitNew s1.grp c _ q hc1 rfl hlt rfl) (by simp [g2, State.setC])
  have hc2 : g2.clients[c]? = some ⟨[], .lockSend q⟩ := by simp [g2, s1, State.setC, c]
  have hg2 : g2.regions[q]? = some g := hg
  let g3 : State τ := (g2.setC c ⟨[], .lockRecv q⟩).setR q { g with loop := .handle 1 }
  have r3 : Step may ⟨g2, s1.owners⟩ [.accept c q 1] ⟨g3, s1.owners⟩ :=
    step_none (s := ⟨g2, s1.owners⟩) o1 (.send g2 c _ ⟨[], .lockRecv q⟩ q g 1 hc2 hg2 hsel (by simp [Client.send])) (by simp [g3, State.setC, State.setR])
  have hg3 : g3.regions[q]? = some { g with loop := .handle 1 } := by
    simp [g3, g2, s1, State.setC, State.setR, hlt]
  let g4 : State τ := g3.setR q (({ g with loop := .handle 1 } : Region τ).handleLockUnlock 1)
  have r4 : Step may ⟨g3, s1.owners⟩ _ ⟨g4, s1.owners⟩ := step_none (s := ⟨g3, s1.owners⟩) o1 (.handle g3 q _ 1 hg3 rfl) rfl
  refine ⟨_, ⟨g4, s1.owners⟩, .snoc (.snoc (.snoc (.snoc .nil r1) r2) r3) r4, ?_, ?_, o1, ?_, ?_⟩
  · simp [g4, g3, g2, s1, State.setR, State.setC, h.len]
  · simp [g4, g3, g2, s1, State.setR, State.setC, h.same]
  · intro q' hq'
    rcases List.mem_cons.1 hq' with rfl | hq'
    · refine ⟨({ g with loop := .handle 1 } : Region τ).handleLockUnlock 1, ?_, ?_⟩
      · simp [g4, g3, g2, s1, State.setC, State.setR, hlt]
      · simp [Region.handleLockUnlock, hcnt]
    · obtain ⟨g', h1, h2⟩ := h.calling q' hq'
      have hne : q ≠ q' := fun e => hL (e ▸ hq')
      exact ⟨g', by simpa [g4, g3, g2, s1, State.setC, State.setR, List.getElem?_set_ne hne] using h1, h2⟩
  · intro q' g' hq' hg'
    simp only [List.mem_cons, not_or] at hq'
    have hne : q ≠ q' := fun e => hq'.1 e.symm
    exact h.fresh q' g' hq'.2 (by simpa [g4, g3, g2, s1, State.setC, State.setR, List.getElem?_set_ne hne] using hg')

theorem ready_calls {n : ℕ} (L : List ℕ) (hL : ∀ q ∈ L, q < n) : ∃ tr, ∃ s : St τ, Run may (init τ) tr s ∧ ∃ L', (∀ q, q ∈ L' ↔ q ∈ L) ∧ Ready n L' s := by
  induction L with
  | nil =>
    obtain ⟨tr, s, h1, h2⟩ := ready_groups (τ := τ) (may := may) n
    exact ⟨tr, s, h1, [], fun _ => Iff.rfl, h2⟩
  | cons q L ih =>
    obtain ⟨tr, s, h1, L', h2, h3⟩ := ih fun q hq => hL q (by simp [hq])
    by_cases hq : q ∈ L'
    · exact ⟨tr, s, h1, L', fun x => by rw [h2, List.mem_cons]; constructor; exact .inr; rintro (rfl | h); exact (h2 _).1 hq; exact h, h3⟩
    · obtain ⟨tr', s', h4, h5⟩ := ready_call (may := may) h3 (hL q (by simp)) hq
      exact ⟨_, s', h1.trans h4, q :: L', fun x => by simp [h2], h5⟩

/-- what the update functions have begun so far: those of `L` wait for groups of `S` -/
structure Almost (S L : List ℕ) (s : St τ) : Prop where
  same : s.owners.length = s.grp.clients.length
  calling : ∀ q ∈ S, ∃ g, s.grp.regions[q]? = some g ∧ g.loop = .calling
  waits : ∀ q ∈ L, ∃ (c : ℕ) (cl : Client τ) (r : ℕ), s.owners[c]? = some (some (.upd q)) ∧ s.grp.clients[c]? = some cl ∧ cl.pc = .lockSend r ∧ r ∈ S
  nofn : ∀ c, some (.fn c) ∉ s.owners

theorem almost_more {S L : List ℕ} {s : St τ} (h : Almost S L s) {q r : ℕ} (hq : q ∈ S) (hr : r ∈ S) (hm : may q r) :
    ∃ tr s', Run may s tr s' ∧ Almost S (q :: L) s' := by
  let c := s.grp.clients.length
  let s1 : St τ := ⟨{ s.grp with clients := s.grp.clients ++ [⟨[], .user⟩] }, s.owners ++ [some (.upd q)]⟩
  have r1 : Step may s [.opened c] s1 := .opens s (some (.upd q)) (h.calling q hq)
  have hc1 : s1.grp.clients[c]? = some ⟨[], .user⟩ := by simp [s1, c]
  have ho1 : s1.owners[c]? = some (some (.upd q)) := by simp only [s1, c, ← h.same]; simp
  have nofn1 : ∀ c, some (.fn c) ∉ s1.owners := by
    intro c hc
    rcases List.mem_append.1 hc with hc | hc
    · exact h.nofn c hc
    · cases List.mem_singleton.1 hc
  have hlt : r < s.grp.regions.length := by
    obtain ⟨g, h1, -⟩ := h.calling r hr
    exact (List.getElem?_eq_some_iff.1 h1).1
  let g2 : State τ := s1.grp.setC c ⟨[], .lockSend r⟩
  have hb : Group.Step s1.grp [] g2 := .visitNew s1.grp c _ r hc1 rfl hlt rfl
  have r2 : Step may s1 [] ⟨g2, s1.owners⟩ := by
    refine .base s1 [] g2 hb (by simp [g2, State.setC]) (by simp) (fun c' cl' _ _ hf => absurd ?_ hf) ?_
    · intro c2 cl2 h1
      exact absurd (List.mem_of_getElem? h1) (nofn1 _)
    · intro c' q' cl cl' r' hw h1 h2 h3 h4
      by_cases hcc : c = c'
      · subst hcc
        have h5 : g2.clients[c]? = some ⟨[], .lockSend r⟩ := by simp [g2, s1, State.setC, c]
        rw [h5] at h3
        cases h3
        have hr' : r = r' := by simpa using h4
        subst hr'
        cases hw with
        | upd h6 =>
          rw [ho1] at h6
          cases h6
          exact hm
        | fn h6 _ => exact absurd (List.mem_of_getElem? h6) (nofn1 _)
      · simp only [g2, State.setC, List.getElem?_set_ne hcc] at h3
        rw [h1] at h3
        cases h3
        rw [h2] at h4
        simp at h4
  refine ⟨_, ⟨g2, s1.owners⟩, .snoc (.snoc .nil r1) r2, by simp [g2, s1, State.setC, h.same], h.calling, fun q' hq' => ?_, nofn1⟩
  rcases List.mem_cons.1 hq' with rfl | hq'
  · exact ⟨c, ⟨[], .lockSend r⟩, r, ho1, by simp [g2, s1, State.setC, c], rfl, hr⟩
  · obtain ⟨c', cl', r', h1, h2, h3, h4⟩ := h.waits q' hq'
    have hl1 := (List.getElem?_eq_some_iff.1 h1).1
    have hl2 := (List.getElem?_eq_some_iff.1 h2).1
    have hne : c ≠ c' := by simp only [c]; omega
    refine ⟨c', cl', r', ?_, ?_, h3, h4⟩
    · simp only [s1]; rw [List.getElem?_append_left hl1]; exact h1
    · simp only [g2, s1, State.setC, List.getElem?_set_ne hne]
      rw [List.getElem?_append_left hl2]; exact h2

theorem almost_all {S : List ℕ} (hS : ∀ x ∈ S, ∃ y ∈ S, may x y) {s : St τ} (h : Almost S [] s) (L : List ℕ) (hL : ∀ q ∈ L, q ∈ S) :
    ∃ tr s', Run may s tr s' ∧ Almost S L s' := by
  induction L with
  | nil => exact ⟨_, s, .nil, h⟩
  | cons q L ih =>
    obtain ⟨tr, s1, h1, h2⟩ := ih fun q hq => hL q (by simp [hq])
    have hq := hL q (by simp)
    obtain ⟨r, hr, hm⟩ := hS q hq
    obtain ⟨tr', s', h3, h4⟩ := almost_more h2 hq hr hm
    exact ⟨_, s', h1.trans h3, h4⟩

/-- a group that depends on itself: it can block for ever -/
theorem stuck_reachable {q : ℕ} (h : Relation.TransGen may q q) : ∃ S, q ∈ S ∧ ∃ tr, ∃ s : St τ, Run may (init τ) tr s ∧ Stuck S s := by
  obtain ⟨S, hq, hS⟩ := cycle_list h
  obtain ⟨tr, s, h1, L', h2, h3⟩ := ready_calls (τ := τ) (may := may) (n := S.sum + 1) S fun q hq => by
    have := List.le_sum_of_mem hq
    omega
  have ha : Almost S [] s := ⟨h3.same, fun q hq => h3.calling q ((h2 q).2 hq), by simp, fun c hc => by cases h3.owners _ hc⟩
  obtain ⟨tr', s', h4, h5⟩ := almost_all hS ha S fun _ h => h
  exact ⟨S, hq, _, s', h1.trans h4, h5.calling, h5.waits⟩

end Tricorder.Group.Nested
