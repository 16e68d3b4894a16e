import Verif.Proof.Whole4
import Verif.Spec.Call
/-!
# Calls of update functions: lemmas
-/

namespace Tricorder.Whole
open Go Spec

variable {A : Type} {w : World} {tr : List (Item A)} {s s' : St A}

/-! ### Each call has a begin -/

/-- the update function is running, since the step `x` -/
def Since (r : ℕ) (tr : List (Item A)) : Prop :=
  ∃ a x l, tr = a ++ x :: l ∧ (∃ f, Group.Ev.updBegin r f ∈ x.evs) ∧ ∀ it ∈ l, ∀ e ∈ it.evs, Group.isUpdate r e = false

theorem Since.snoc {r : ℕ} (h : Since r tr) {it : Item A} (hi : ∀ e ∈ it.evs, Group.isUpdate r e = false) :
    Since r (tr ++ [it]) := by
  obtain ⟨a, x, l, rfl, h1, h2⟩ := h
  refine ⟨a, x, l ++ [it], by simp, h1, fun y hy => ?_⟩
  rcases List.mem_append.mp hy with hy | hy
  · exact h2 y hy
  · rw [List.mem_singleton.mp hy]; exact hi

/-- a step of the groups: the update function goes on running, or begins to run -/
theorem calling_step {g g' : Group.State Time} {es : List (Group.Ev Time)} (h : Group.Step g es g') {r : ℕ}
    {reg : Group.Region Time} (hr : g'.regions[r]? = some reg) (hc : reg.loop = .calling) :
    (∃ f, Group.Ev.updBegin r f ∈ es) ∨
      (∃ reg0, g.regions[r]? = some reg0 ∧ reg0.loop = .calling) ∧ ∀ e ∈ es, Group.isUpdate r e = false := by
  have set : ∀ {r' : ℕ} {g0 g1 : Group.Region Time}, g.regions[r']? = some g0 → (g.regions.set r' g1)[r]? = some reg →
      r' = r ∧ g1 = reg ∨ r' ≠ r ∧ g.regions[r]? = some reg := by
    intro r' g0 g1 h0 h1
    by_cases e : r' = r
    · subst e
      have := (List.getElem?_eq_some_iff.mp h0).1
      rw [List.getElem?_set_self this] at h1
      exact .inl ⟨rfl, Option.some.inj h1⟩
    · rw [List.getElem?_set_ne e] at h1
      exact .inr ⟨e, h1⟩
  cases h with
  | newGroup f =>
    simp only at hr
    rcases List.getElem?_eq_some_iff.mp hr with ⟨hl, he⟩
    rw [List.getElem_append] at he
    split at he
    · rename_i hlt
      exact .inr ⟨⟨reg, by rw [List.getElem?_eq_getElem hlt, he], hc⟩, by simp [Group.isUpdate]⟩
    · simp at he
      rw [← he] at hc
      cases hc
  | send c cl cl' r' g0 n h1 h2 h3 h4 =>
    rcases set h2 hr with ⟨rfl, rfl⟩ | ⟨e, h⟩
    · cases hc
    · exact .inr ⟨⟨reg, h, hc⟩, by simp [Group.isUpdate]⟩
  | handle r' g0 n h1 h2 =>
    rcases set h1 hr with ⟨rfl, rfl⟩ | ⟨e, h⟩
    · left
      unfold Group.Region.handleEvents
      rw [hc]
      exact ⟨g0.updateFunc, by simp⟩
    · refine .inr ⟨⟨reg, h, hc⟩, ?_⟩
      unfold Group.Region.handleEvents
      split <;> simp [Group.isUpdate, e]
  | updated r' g0 t h1 h2 =>
    rcases set h1 hr with ⟨rfl, rfl⟩ | ⟨e, h⟩
    · cases hc
    · exact .inr ⟨⟨reg, h, hc⟩, by simp [Group.isUpdate, e]⟩
  | receive c cl cl' r' g0 t h1 h2 h3 h4 =>
    rcases set h2 hr with ⟨rfl, rfl⟩ | ⟨e, h⟩
    · cases hc
    · exact .inr ⟨⟨reg, h, hc⟩, by simp [Group.isUpdate]⟩
  | fnSend c cl r' f g0 h1 h2 h3 h4 =>
    rcases set h3 hr with ⟨rfl, rfl⟩ | ⟨e, h⟩
    · cases hc
    · exact .inr ⟨⟨reg, h, hc⟩, by simp [Group.isUpdate]⟩
  | fnHandle r' f g0 h1 h2 =>
    rcases set h1 hr with ⟨rfl, rfl⟩ | ⟨e, h⟩
    · cases hc
    · exact .inr ⟨⟨reg, h, hc⟩, by simp⟩
  | fnReceive c cl r' g0 h1 h2 h3 h4 =>
    rcases set h3 hr with ⟨rfl, rfl⟩ | ⟨e, h⟩
    · cases hc
    · exact .inr ⟨⟨reg, h, hc⟩, by simp [Group.isUpdate]⟩
  | _ => exact .inr ⟨⟨reg, hr, hc⟩, by simp [Group.isUpdate]⟩

theorem Run.since (h : Run w tr s) {r : ℕ} {reg : Group.Region Time} (hr : s.grp.regions[r]? = some reg)
    (hc : reg.loop = .calling) : Since r tr := by
  induction h generalizing reg with
  | nil =>
    simp only [start] at hr
    cases r with
    | zero => cases hr; cases hc
    | succ r => simp at hr
  | @snoc tr s it s' hrun hs ih =>
    have fin : ∀ {es}, it.evs = es → ((∃ f, Group.Ev.updBegin r f ∈ es) ∨
      (∃ reg0, s.grp.regions[r]? = some reg0 ∧ reg0.loop = .calling) ∧ ∀ e ∈ es, Group.isUpdate r e = false) → Since r (tr ++ [it]) := by
      rintro es rfl (h | ⟨⟨reg0, h1, h2⟩, h3⟩)
      · exact ⟨tr, it, [], rfl, h, by simp⟩
      · exact (ih h1 h2).snoc h3
    cases hs with
    | newGroup c held k h1 => exact fin rfl (calling_step (.newGroup _ _) hr hc)
    | loop es g h1 h2 h3 => exact fin rfl (calling_step h1 hr hc)
    | asks c r' held k h1 h2 => exact fin rfl (.inr ⟨⟨reg, hr, hc⟩, by simp [Group.isUpdate]⟩)
    | gives c r' cl client held k h1 h2 h3 h4 => exact fin rfl (.inr ⟨⟨reg, hr, hc⟩, by simp [Group.isUpdate]⟩)
    | _ => exact fin rfl (.inr ⟨⟨reg, hr, hc⟩, by simp⟩)

/-- every return of an update function belongs to a call -/
theorem Run.isCall {a b : List (Item A)} {u : Item A} {r : ℕ} {t : Time} (h : Run w (a ++ u :: b) s) (hu : Updated r t u) :
    ∃ a' x l, a = a' ++ x :: l ∧ IsCall r t (a ++ u :: b) a' x l u b := by
  obtain ⟨s0, h0, hp⟩ := h.path
  obtain ⟨f, hf⟩ := hu
  have key : ∃ reg, s0.grp.regions[r]? = some reg ∧ reg.loop = .calling := by
    cases hp with
    | cons hs _ =>
      have core : ∀ {es g}, Group.Step s0.grp es g → u.evs = es → ∃ reg, s0.grp.regions[r]? = some reg ∧ reg.loop = .calling := by
        intro es g hst he
        rw [he] at hf
        cases hst with
        | updated r' g0 t' h1 h2 =>
          simp at hf
          obtain ⟨rfl, -, -⟩ := hf
          exact ⟨g0, h1, h2⟩
        | handle r' g0 n h1 h2 =>
          unfold Group.Region.handleEvents at hf
          split at hf <;> simp at hf
        | _ => simp at hf
      cases hs with
      | loop es g h1 h2 h3 => exact core h1 rfl
      | _ => simp at hf
  obtain ⟨reg, h1, h2⟩ := key
  obtain ⟨a', x, l, rfl, h3, h4⟩ := h0.since h1 h2
  exact ⟨a', x, l, rfl, by simp, h3, ⟨f, hf⟩, h4⟩

/-! ### Executing a program that only uses some variables -/

def Agree (X : ℕ → Prop) (σ τ : State) : Prop := ∀ i, X i → σ.vars[i]? = τ.vars[i]?

theorem Agree.write {X : ℕ → Prop} {w w' : World} {σ τ : State} (h : Agree X σ τ) {i : ℕ} {d : Dyn} (hi : X i) :
    Agree X (exec w (.writeVar i d) σ).1 (exec w' (.writeVar i d) τ).1 := by
  intro j hj
  have hi := h i hi
  have hj := h j hj
  simp only [exec]
  rw [← hi]
  cases hd : σ.vars[i]? with
  | none => exact hj
  | some d0 =>
    simp only
    split
    · by_cases e : i = j
      · subst e
        have h1 := (List.getElem?_eq_some_iff.mp hd).1
        have h2 := (List.getElem?_eq_some_iff.mp (hi ▸ hd)).1
        simp [h1, h2]
      · simp [List.getElem?_set_ne e, hj]
    · exact hj

theorem UsesVars.agree {X : ℕ → Prop} {w w' : World} {p : Prog Unit} (hp : UsesVars X p) :
    ∀ {σ τ : State}, Agree X σ τ → Agree X (p.run w σ).1 (p.run w' τ).1 := by
  induction p with
  | ret a => exact fun h => h
  | op cmd k ih =>
    intro σ τ h
    obtain ⟨⟨i, hi, rfl⟩ | ⟨i, d, hi, rfl⟩, hk⟩ := hp
    · show Agree X ((k (σ.vars[i]?)).run w σ).1 ((k (τ.vars[i]?)).run w' τ).1
      rw [h i hi]
      exact ih _ (hk _) h
    · exact ih () (hk _) (h.write hi)

/-- a program that an update function executes, as if it were executed in one step -/
theorem Does.agree {X : ℕ → Prop} {r : ℕ} {p : Prog Unit} {l : List (Item A)} (h : Does w r p l) :
    ∀ {s s' : St A} {τ : State}, Path w s l s' → UsesVars X p → (∀ i, X i → OnlyUpdate w r (.var i) l) → Agree X s.mem τ →
      Agree X s'.mem (p.run w τ).1 := by
  induction h with
  | ret => intro s s' τ hp _ _ ha; cases hp; exact ha
  | @own it cmd k l hlab _ ih =>
    intro s s' τ hp hu ho ha
    cases hp with
    | @cons _ _ s1 _ _ hs hp =>
      have hm : it.pre = s.mem ∧ s1.mem = (exec w cmd s.mem).1 := by
        cases hs <;> cases hlab
        exact ⟨rfl, rfl⟩
      have ho' : ∀ i, X i → OnlyUpdate w r (.var i) l := fun i hi y hy => ho i hi y (List.mem_cons_of_mem _ hy)
      rw [hm.1] at ih
      obtain ⟨⟨i, hi, rfl⟩ | ⟨i, d, hi, rfl⟩, hk⟩ := hu
      · have e : (exec w (.readVar i) s.mem).2 = (exec w (.readVar i) τ).2 := ha i hi
        have := ih (τ := τ) hp (hk _) ho' (by rw [hm.2]; exact ha)
        rw [e] at this
        exact this
      · exact ih hp (hk _) ho' (by rw [hm.2]; exact ha.write hi)
  | @skip it p l hne _ ih =>
    intro s s' τ hp hu ho ha
    cases hp with
    | @cons _ _ s1 _ _ hs hp =>
      refine ih hp hu (fun i hi y hy => ho i hi y (List.mem_cons_of_mem _ hy)) fun i hi => ?_
      have := ho i hi it (by simp) hne
      rw [hs.mem.1, hs.mem.2] at this
      exact this.trans (ha i hi)

theorem Path.last {a b : List (Item A)} {x : Item A} (h : Run w (a ++ x :: b) s) : ∃ s0, s0.mem = x.post ∧ Path w s0 b s := by
  obtain ⟨s0, -, hp⟩ := h.path
  cases hp with
  | cons hs hp => exact ⟨_, hs.mem.2.symm, hp⟩

theorem Path.split {a b : List (Item A)} (h : Path w s (a ++ b) s') : ∃ s1, Path w s a s1 ∧ Path w s1 b s' := by
  induction a generalizing s with
  | nil => exact ⟨s, .nil _, h⟩
  | cons x a ih =>
    cases h with
    | cons hs hp =>
      obtain ⟨s1, h1, h2⟩ := ih hp
      exact ⟨s1, .cons hs h1, h2⟩

/-- from one update to one call -/
theorem OneUpdate.oneCall {c r : ℕ} {V : List (MetricView × Metric)} (hr : Run w tr s) (h : OneUpdate w c tr r V) :
    OneCall w tr r V := by
  obtain ⟨a, u, b, t, rfl, hu, h⟩ := h
  obtain ⟨a', x, l, rfl, hcall⟩ := hr.isCall hu
  refine ⟨a', x, l, u, b, t, hcall, fun v hv hs hreg => ?_⟩
  obtain ⟨h1, sc, d, b1, rd, b2, h2, h3, -, -, -, -, h4, h5⟩ := h v hv hs hreg
  refine ⟨h1, fun p X hd hX ho i hi hsrc => ⟨d, ?_, h4⟩⟩
  rw [h2] at hsrc
  cases hsrc
  have hpost : current w u.post (.var i) = some d := h5 fun y hy => ho i hi y (by rw [h3]; simp [hy])
  have hsp := hcall.split
  rw [hsp] at hr
  obtain ⟨s0, e0, hp⟩ := Path.last hr
  obtain ⟨s1, hp1, hp2⟩ := hp.split
  have hag := hd.agree (τ := x.post) hp1 hX (fun i hi y hy => ho i hi y (by simp [hy])) (by rw [e0]; exact fun _ _ => rfl)
  have hag := hag i hi
  rw [← hag]
  cases hp2 with
  | cons hs _ =>
    have hm := hs.mem
    have hue : u.post = u.pre := by
      have hne : u.evs ≠ [] := by
        obtain ⟨f, hf⟩ := hu
        intro e
        rw [e] at hf
        cases hf
      obtain ⟨f, hf⟩ := hu
      cases hs <;> first | rfl | exact absurd rfl hne | simp at hf
    rw [← hm.1, ← hue]
    exact hpost

end Tricorder.Whole
