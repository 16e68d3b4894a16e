import Verif.Proof.Whole2
/-!
# The whole library: who shares an update with whom
-/

namespace Tricorder.Group
open Go

variable {τ : Type} [Inhabited τ] {tr : List (Ev τ)} {s s' : State τ}

/-- the group is free, or about to be, or being updated -/
def Free (g : Region τ) : Prop := g.lockCount = 0 ∨ g.loop = .calling ∨ ∃ n, g.loop = .handle n ∧ g.lockCount + n = 0

theorem Step.free (hi : Inv tr s) (hs : Step s es s') {r : ℕ} (hno : ∀ f t, .updEnd r f t ∉ es)
    (hf : ∀ g, s.regions[r]? = some g → Free g) (hc : ∀ (c : ℕ) cl t, s.clients[c]? = some cl → ¬ seen cl r t) :
    (∀ g, s'.regions[r]? = some g → Free g) ∧ ∀ (c : ℕ) cl t, s'.clients[c]? = some cl → ¬ seen cl r t := by
  have hi' := inv_step hi hs
  have hreg : ∀ g, s'.regions[r]? = some g → Free g := by
    intro g' hg'
    cases hg : s.regions[r]? with
    | none =>
      cases hs with
      | newGroup f =>
        have hmem := hg'
        rw [List.getElem?_append_right (List.getElem?_eq_none_iff.mp hg)] at hmem
        have := List.mem_of_getElem? hmem
        rw [List.mem_singleton] at this
        subst this
        exact .inl rfl
      | _ =>
        exfalso
        have h1 := List.getElem?_eq_none_iff.mp hg
        have h2 := (List.getElem?_eq_some_iff.mp hg').1
        try simp only [State.setC, State.setR, List.length_set] at h2
        omega
    | some g =>
      obtain ⟨g1, k1, -, k2⟩ := hs.region r g hg
      rw [hg'] at k1
      cases k1
      have h0 := hf g hg
      have hal := hi'.i3.alive r g' hg'
      have loop : ∀ {x : Loop τ}, g.loop = x → x ≠ .calling → (∀ n, x ≠ .handle n) → g.lockCount = 0 := by
        rintro x rfl h1 h2
        rcases h0 with h | h | ⟨n, h, -⟩
        · exact h
        · exact absurd h h1
        · exact absurd h (h2 n)
      rcases k2 with ⟨rfl, k⟩ | ⟨c, n, k, rfl, rfl⟩ | ⟨n, k, rfl, rfl⟩ | ⟨t', k, rfl, rfl⟩ | ⟨c, t', k, rfl, rfl⟩ |
          ⟨c, f, k, rfl, rfl⟩ | ⟨f, k, rfl, rfl⟩ | ⟨c, k, rfl, rfl⟩
      · exact h0
      · exact .inl (loop k (by simp) (by simp))
      · unfold Region.handleLockUnlock at hal ⊢
        simp only at hal ⊢
        split
        · rename_i hneg
          rw [if_pos hneg] at hal
          exact absurd rfl hal.2
        · split
          · exact .inr (.inl rfl)
          · rename_i h1 h2
            left
            show g.lockCount + n = 0
            rcases h0 with h | h | ⟨m, h, h'⟩
            · omega
            · rw [k] at h; cases h
            · rw [k] at h; cases h; exact h'
      · exact absurd (List.mem_singleton_self _) (hno _ _)
      · exact .inl (loop k (by simp) (by simp))
      · exact .inl (loop k (by simp) (by simp))
      · exact .inl (loop k (by simp) (by simp))
      · exact .inl (loop k (by simp) (by simp))
  refine ⟨hreg, fun c cl' t hcl' hse => ?_⟩
  have hno' : .closeBegin c ∉ es ∨ .closeBegin c ∈ es := (em _).symm
  cases hcl : s.clients[c]? with
  | none =>
    cases hs with
    | openSession =>
      rw [List.getElem?_append_right (List.getElem?_eq_none_iff.mp hcl)] at hcl'
      have := List.mem_of_getElem? hcl'
      rw [List.mem_singleton] at this
      subst this
      obtain ⟨-, h | h⟩ := hse <;> cases h
    | _ =>
      have h1 := List.getElem?_eq_none_iff.mp hcl
      have h2 := (List.getElem?_eq_some_iff.mp hcl').1
      try simp only [State.setC, State.setR, List.length_set] at h2
      omega
  | some cl =>
    have h0 := hc c cl t hcl
    obtain ⟨cl1, k1, k2⟩ := hs.client c cl hcl
    rw [hcl'] at k1
    cases k1
    rcases k2 with rfl | ⟨hp, he, h⟩ | ⟨r', hp, rfl, -⟩ | ⟨r', t', hp, rfl, he⟩ | ⟨r', t', hp, rfl, -⟩ | ⟨r', f, hp, rfl, -⟩ |
      ⟨r', hp, rfl, -⟩ | ⟨hp, rfl, he⟩ | ⟨h, h', -⟩
    · exact h0 hse
    · refine h0 ⟨by simp [hp, isOpen], .inl ?_⟩
      rcases hse.2 with h1 | h1
      · rwa [he] at h1
      · rcases h with ⟨x, h, -⟩ | ⟨x, f, h⟩ <;> rw [h] at h1 <;> cases h1
    · refine h0 ⟨by simp [hp, isOpen], .inl ?_⟩
      rcases hse.2 with h1 | h1
      · exact h1
      · cases h1
    · rcases hse.2 with h1 | h1
      · exact h0 ⟨by simp [hp, isOpen], .inl h1⟩
      · cases h1
        subst he
        obtain ⟨cl2, g, e1, e2, e3, e4⟩ := hs.told
        have hpos := accepted_pos hi (c := c) (r := r) (by rw [hi.i3.hold c cl r hcl]; simp [holding, hp])
        have hcount := hi.i3.count r g e2
        simp only [pendingInc, e3] at hcount
        rcases hf g e2 with h | h | ⟨n, h, -⟩
        · omega
        · rw [e3] at h; cases h
        · rw [e3] at h; cases h
    · rcases hse.2 with h1 | h1
      · rcases List.mem_cons.mp h1 with h1 | h1
        · cases h1
          exact h0 ⟨by simp [hp, isOpen], .inr hp⟩
        · exact h0 ⟨by simp [hp, isOpen], .inl h1⟩
      · cases h1
    · refine h0 ⟨by simp [hp, isOpen], .inl ?_⟩
      rcases hse.2 with h1 | h1
      · exact h1
      · cases h1
    · refine h0 ⟨by simp [hp, isOpen], .inl ?_⟩
      rcases hse.2 with h1 | h1
      · exact h1
      · cases h1
    · have := hse.1; simp [isOpen] at this
    · have := hse.1
      simp_all

/-- who has got a group that nobody held at some time before, has got an update after that time -/
theorem fresh (hi : Inv tr s) {r : ℕ} (hfree : ∀ c, holds c r tr = 0) {es : List (Ev τ)} (h : Run s es s') {c : ℕ} {cl : Client τ}
    {t : τ} (hc : s'.clients[c]? = some cl) (hse : seen cl r t) : ∃ f t', .updEnd r f t' ∈ es := by
  by_contra hno
  simp only [not_exists] at hno
  have key : (∀ g, s'.regions[r]? = some g → Free g) ∧ ∀ (c : ℕ) cl t, s'.clients[c]? = some cl → ¬ seen cl r t := by
    clear hc hse
    induction h with
    | nil =>
      refine ⟨fun g hg => ?_, fun c cl t hc hse => ?_⟩
      · have h1 := hi.i3.count r g hg
        have h0 : accepted r tr = 0 := by
          rw [hi.i3.total r]
          refine List.sum_eq_zero fun x hx => ?_
          obtain ⟨cl, hcl, rfl⟩ := List.mem_map.mp hx
          obtain ⟨c, hc⟩ := List.mem_iff_getElem?.1 hcl
          rw [← hi.i3.hold c cl r hc, hfree c]
        rw [h0] at h1
        unfold pendingInc at h1
        split at h1
        · exact .inr (.inr ⟨_, ‹_›, h1⟩)
        · exact .inl (by omega)
      · have := seen_holding hse
        rw [← hi.i3.hold c cl r hc, hfree c] at this
        omega
    | snoc hr hs ih =>
      obtain ⟨h1, h2⟩ := ih fun f t hm => hno f t (List.mem_append_left _ hm)
      exact hs.free (inv_run hi hr) (fun f t hm => hno f t (List.mem_append_right _ hm)) h1 h2
  exact key.2 c cl t hc hse

end Tricorder.Group

namespace Tricorder.Whole
open Go Spec

variable {A : Type} {w : World} {tr : List (Item A)} {s s' : St A} {it : Item A} {c : ℕ}

theorem Run.snoc_inv (h : Run w (tr ++ [it]) s) : ∃ s0, Run w tr s0 ∧ Step w s0 it s := by
  generalize e : tr ++ [it] = l at h
  cases h with
  | nil => simp at e
  | snoc hr hs =>
    obtain ⟨rfl, h2⟩ := List.append_inj' e rfl
    cases h2
    exact ⟨_, hr, hs⟩

theorem Run.split {a b : List (Item A)} (h : Run w (a ++ b) s) :
    ∃ s0, Run w a s0 ∧ Group.Run s0.grp (b.map Item.evs).flatten s.grp := by
  induction b using List.reverseRecOn generalizing s with
  | nil => exact ⟨s, by simpa using h, .nil⟩
  | append_singleton b x ih =>
    rw [← List.append_assoc] at h
    obtain ⟨s1, h1, h2⟩ := h.snoc_inv
    obtain ⟨s0, h3, h4⟩ := ih h1
    refine ⟨s0, h3, ?_⟩
    simpa using h4.trans h2.group

/-- goroutine `c` holds `r` as `cl`, which was updated at `t` -/
def Holds (s : St A) (c r cl : ℕ) (t : Time) : Prop :=
  ∃ p, s.procs[c]? = some p ∧ (r, cl) ∈ p.held ∧ Linked s.grp (r, t) (r, cl)

theorem mem_clients {p : Proc A} {r cl : ℕ} (h : (r, cl) ∈ p.held) : cl ∈ p.clients := by
  have : cl ∈ p.held.map Prod.snd := List.mem_map.mpr ⟨_, h, rfl⟩
  unfold Proc.clients
  split
  · exact List.mem_cons_of_mem _ this
  · exact this

theorem Step.holds (hr : Run w tr s) (hs : Step w s it s') {r cl : ℕ} {t : Time} (h : Holds s c r cl t)
    (hno : it.lab ≠ .gives c r cl) : Holds s' c r cl t ∧ Quiet r [it] := by
  obtain ⟨p, hp, hm, hl⟩ := h
  have ho := hr.own_inv
  have hno' : ∀ r', it.lab ≠ .gives c r' cl := by
    intro r' e
    cases hs with
    | gives c' r1 cl1 client held k h1 h2 h3 h4 =>
      cases e
      rw [h1] at hp
      cases hp
      have hmem : (r', cl) ∈ held := by
        obtain ⟨l1, l2, e, -⟩ := List.lookup_eq_some_iff.mp h2
        rw [e]; simp
      have hnd : (held.map Prod.snd).Nodup := ho.nodup h1
      have := List.inj_on_of_nodup_map hnd hm hmem rfl
      cases this
      exact hno rfl
    | _ => cases e
  have hl' := hs.linked ho hp (x := (r, t)) (y := (r, cl)) (mem_clients hm) hno' hl
  refine ⟨?_, hs.quiet hr hl hl'⟩
  have go : ∀ {c' : ℕ} {q q' : Proc A}, s.procs[c']? = some q → ((r, cl) ∈ q.held → (r, cl) ∈ q'.held) →
      ∃ p', (s.procs.set c' q')[c]? = some p' ∧ (r, cl) ∈ p'.held := by
    intro c' q q' h1 h2
    by_cases hc : c' = c
    · subst hc
      rw [hp] at h1
      cases h1
      exact ⟨_, getElem?_set_same hp, h2 hm⟩
    · exact ⟨p, (getElem?_set_other hc).trans hp, hm⟩
  suffices H : ∃ p', s'.procs[c]? = some p' ∧ (r, cl) ∈ p'.held by
    obtain ⟨p', h1, h2⟩ := H
    exact ⟨p', h1, h2, hl'⟩
  cases hs with
  | spawn q => exact ⟨p, by rw [List.getElem?_append_left (List.getElem?_eq_some_iff.mp hp).1]; exact hp, hm⟩
  | own c' held cmd k h1 h2 h3 => exact go h1 id
  | newGroup c' held k h1 => exact go h1 id
  | upd r G cmd h1 h2 h3 => exact ⟨p, hp, hm⟩
  | asks c' r held k h1 h2 => exact go h1 id
  | took c' r cl t held k h1 h2 => exact go h1 (List.mem_cons_of_mem _)
  | gives c' r cl client held k h1 h2 h3 h4 => exact go h1 id
  | gave c' r' cl' client held k h1 h2 h3 =>
    refine go h1 fun h => (List.mem_erase_of_ne ?_).mpr h
    rintro e
    cases e
    have := hl.2
    dsimp only at this
    rw [h2] at this
    cases this
    cases h3
  | loop es G h1 h2 h3 => exact ⟨p, hp, hm⟩

/-- from `took` to `gives` a goroutine holds the group, and it is not updated -/
theorem Run.held {a b : List (Item A)} {x : Item A} {r cl : ℕ} {t : Time} (h : Run w (a ++ x :: b) s) (hx : x.lab = .took c r cl t)
    (hno : ∀ y ∈ b, y.lab ≠ .gives c r cl) : Holds s c r cl t ∧ Quiet r b := by
  induction b using List.reverseRecOn generalizing s with
  | nil =>
    obtain ⟨s0, h0, hs⟩ := h.snoc_inv
    refine ⟨?_, fun _ h => nomatch h⟩
    cases hs with
    | took c' r' cl' t' held k h1 h2 =>
      cases hx
      exact ⟨_, getElem?_set_same h1, List.mem_cons_self, rfl, h2⟩
    | _ => cases hx
  | append_singleton b y ih =>
    rw [← List.cons_append, ← List.append_assoc] at h
    obtain ⟨s0, h0, hs⟩ := h.snoc_inv
    obtain ⟨h1, h2⟩ := ih h0 fun y hy => hno y (List.mem_append_left _ hy)
    obtain ⟨h3, h4⟩ := hs.holds h0 h1 (hno y (List.mem_append_right _ (List.mem_singleton_self _)))
    refine ⟨h3, fun z hz => ?_⟩
    rcases List.mem_append.mp hz with hz | hz
    · exact h2 z hz
    · exact h4 z hz

/-- who takes a group which somebody else holds, takes the same update -/
theorem Run.shared {a b : List (Item A)} {x y : Item A} {c' r cl cl' : ℕ} {t t' : Time} (h : Run w (a ++ x :: b ++ [y]) s)
    (hx : x.lab = .took c r cl t) (hy : y.lab = .took c' r cl' t') (hno : ∀ z ∈ b, z.lab ≠ .gives c r cl) :
    t' = t ∧ Quiet r b := by
  obtain ⟨s0, h0, hs⟩ := h.snoc_inv
  obtain ⟨⟨p, -, -, -, hl⟩, hq⟩ := h0.held hx hno
  refine ⟨?_, hq⟩
  have h1 := (h0.inv.i4 _ _ _ _ hl (seen_user (r, t))).1
  cases hs with
  | took c1 r1 cl1 t1 held k k1 k2 =>
    cases hy
    have h2 := (h0.inv.i4 _ _ _ _ k2 (seen_user (r, t'))).1
    exact Option.some.inj (h2.symm.trans h1)
  | _ => cases hy

/-- who takes a group which nobody held at some time before, takes an update made since -/
theorem Run.fresh {a b : List (Item A)} {y : Item A} {r cl : ℕ} {t : Time} (h : Run w (a ++ b ++ [y]) s)
    (hfree : ∀ cl', Group.holds cl' r (evsOf a) = 0) (hy : y.lab = .took c r cl t) :
    ∃ b1 u b2, b = b1 ++ u :: b2 ∧ Updated r t u ∧ Quiet r b2 := by
  obtain ⟨s1, h1, hs⟩ := h.snoc_inv
  cases hs with
  | took c1 r1 cl1 t1 held k k1 k2 =>
    cases hy
    obtain ⟨f1, f2⟩ := h1.inv.i4 _ _ _ _ k2 (seen_user (r, t))
    obtain ⟨a1, u, b2, e, f3, f4⟩ := h1.settled f1 f2
    obtain ⟨s0, h0, hg⟩ := h1.split
    obtain ⟨f, t', hm⟩ := Group.fresh h0.inv hfree hg k2 (seen_user (r, t))
    obtain ⟨es, hes, hm⟩ := List.mem_flatten.mp hm
    obtain ⟨it, hit, rfl⟩ := List.mem_map.mp hes
    rcases List.append_eq_append_iff.mp e with ⟨l, e1, e2⟩ | ⟨l, e1, e2⟩
    · exact ⟨l, u, b2, e2, f3, f4⟩
    · match l, e2 with
      | [], e2 => exact ⟨[], u, b2, e2.symm, f3, f4⟩
      | v :: l, e2 =>
        cases e2
        have := (f4 it (List.mem_append_right _ hit)).2 _ hm
        simp [Group.isUpdate] at this
  | _ => cases hy

end Tricorder.Whole
