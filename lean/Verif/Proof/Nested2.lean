import Verif.Proof.Nested
import Verif.Proof.Group5
import Mathlib.Order.WellFounded
import Mathlib.Data.Fintype.Card
import Mathlib.Data.Fintype.EquivFin
/-!
# Groups: when update functions read metrics, nothing blocks if no group depends on itself
-/

namespace Tricorder.Group.Nested
open Go

variable {τ : Type} [Inhabited τ] {may : ℕ → ℕ → Prop}

/-- a step is one of the groups' -/
theorem Step.grp {s s' : St τ} {es : List (Ev τ)} (h : Step may s es s') : Group.Step s.grp es s'.grp := by
  cases h with
  | opens o h => exact .openSession _
  | base es g h => exact h

theorem Run.grp {s s' : St τ} {es : List (Ev τ)} (h : Run may s es s') : Group.Run s.grp es s'.grp := by
  induction h with
  | nil => exact .nil
  | snoc _ h ih => exact .snoc ih h.grp

/-- what holds in every state -/
structure Good (may : ℕ → ℕ → Prop) (s : St τ) : Prop where
  len : s.owners.length = s.grp.clients.length
  upd : ∀ (c q : ℕ) cl, s.owners[c]? = some (some (.upd q)) → s.grp.clients[c]? = some cl → ¬ Closed cl →
    ∃ g, s.grp.regions[q]? = some g ∧ g.loop = .calling
  fn : ∀ (c c0 : ℕ), s.owners[c]? = some (some (.fn c0)) → c0 < c ∧ ∀ cl, s.grp.clients[c]? = some cl → ¬ Closed cl →
    ∃ cl0, s.grp.clients[c0]? = some cl0 ∧ cl0.pc = .user
  uses : ∀ (c q : ℕ) cl r, Within s c q → s.grp.clients[c]? = some cl → Uses cl r → may q r

omit [Inhabited τ] in
theorem Within.lt {s : St τ} {c q : ℕ} (h : Within s c q) : c < s.owners.length := by
  cases h with
  | upd h => exact (List.getElem?_eq_some_iff.1 h).1
  | fn h _ => exact (List.getElem?_eq_some_iff.1 h).1

omit [Inhabited τ] in
theorem Within.of_owners {s s' : St τ} {c q : ℕ} (h : Within s c q) (e : s'.owners = s.owners) : Within s' c q := by
  induction h with
  | upd h => exact .upd (e ▸ h)
  | fn h _ ih => exact .fn (e ▸ h) ih

omit [Inhabited τ] in
theorem good_init : Good may (init τ) := by
  constructor <;> simp [init, Group.init]

omit [Inhabited τ] in
/-- requests opened before keep where they belong -/
theorem Within.of_append {s : St τ} (hg : Good may s) {gs : State τ} {o : Option Owner} {c q : ℕ}
    (h : Within (⟨gs, s.owners ++ [o]⟩ : St τ) c q) (hc : c < s.owners.length) : Within s c q := by
  induction h with
  | upd h => exact .upd (by simpa [List.getElem?_append_left hc] using h)
  | @fn c c0 q h _ ih =>
    have h' : s.owners[c]? = some (some (.fn c0)) := by simpa [List.getElem?_append_left hc] using h
    exact .fn h' (ih ((hg.fn _ _ h').1.trans hc))

theorem good_step {s s' : St τ} {es : List (Ev τ)} (hg : Good may s) (h : Step may s es s') : Good may s' := by
  cases h with
  | opens o ho =>
    have split : ∀ (c : ℕ) cl, (s.grp.clients ++ [(⟨[], .user⟩ : Client τ)])[c]? = some cl →
        s.grp.clients[c]? = some cl ∧ c < s.owners.length ∨ c = s.owners.length ∧ cl = ⟨[], .user⟩ := by
      intro c cl h
      rw [hg.len]
      rcases lt_or_ge c s.grp.clients.length with hlt | hge
      · rw [List.getElem?_append_left hlt] at h
        exact .inl ⟨h, hlt⟩
      · rw [List.getElem?_append_right hge] at h
        obtain ⟨h1, h2⟩ := List.getElem?_eq_some_iff.1 h
        simp only [List.length_singleton] at h1
        refine .inr ⟨by omega, ?_⟩
        have : c - s.grp.clients.length = 0 := by omega
        simp only [this, List.getElem_cons_zero] at h2
        exact h2.symm
    have own : ∀ (c : ℕ) x, (s.owners ++ [o])[c]? = some x → s.owners[c]? = some x ∨ c = s.owners.length ∧ x = o := by
      intro c x h
      rcases lt_or_ge c s.owners.length with hlt | hge
      · exact .inl (by rwa [List.getElem?_append_left hlt] at h)
      · rw [List.getElem?_append_right hge] at h
        obtain ⟨h1, h2⟩ := List.getElem?_eq_some_iff.1 h
        simp only [List.length_singleton] at h1
        have : c - s.owners.length = 0 := by omega
        simp only [this, List.getElem_cons_zero] at h2
        exact .inr ⟨by omega, h2.symm⟩
    have old : ∀ (c : ℕ) cl, s.grp.clients[c]? = some cl → (s.grp.clients ++ [(⟨[], .user⟩ : Client τ)])[c]? = some cl := fun c cl h => by
      rwa [List.getElem?_append_left (List.getElem?_eq_some_iff.1 h).1]
    refine ⟨by simp [hg.len], fun c q cl h1 h2 h3 => ?_, fun c c0 h1 => ?_, fun c q cl r h1 h2 h3 => ?_⟩
    · rcases own c _ h1 with h1 | ⟨rfl, rfl⟩
      · rcases split c cl h2 with ⟨h2, -⟩ | ⟨rfl, rfl⟩
        · exact hg.upd c q cl h1 h2 h3
        · exact absurd (List.getElem?_eq_some_iff.1 h1).1 (lt_irrefl _)
      · exact ho
    · rcases own c _ h1 with h1 | ⟨rfl, rfl⟩
      · obtain ⟨h4, h5⟩ := hg.fn c c0 h1
        refine ⟨h4, fun cl h2 h3 => ?_⟩
        rcases split c cl h2 with ⟨h2, -⟩ | ⟨rfl, rfl⟩
        · obtain ⟨cl0, h6, h7⟩ := h5 cl h2 h3
          exact ⟨cl0, old _ _ h6, h7⟩
        · exact absurd (List.getElem?_eq_some_iff.1 h1).1 (lt_irrefl _)
      · obtain ⟨⟨cl0, h6, h7⟩, -⟩ := ho
        exact ⟨by rw [hg.len]; exact (List.getElem?_eq_some_iff.1 h6).1, fun _ _ _ => ⟨cl0, old _ _ h6, h7⟩⟩
    · rcases split c cl h2 with ⟨h2, hlt⟩ | ⟨rfl, rfl⟩
      · exact hg.uses c q cl r (h1.of_append hg hlt) h2 h3
      · simp [Uses] at h3
  | base es g hs hlen hend huser hmay =>
    have before : ∀ (c : ℕ) cl', g.clients[c]? = some cl' → ¬ Closed cl' → ∃ cl, s.grp.clients[c]? = some cl ∧ ¬ Closed cl := by
      intro c cl' h1 h2
      have hlt : c < s.grp.clients.length := by rw [← hlen]; exact (List.getElem?_eq_some_iff.1 h1).1
      refine ⟨_, List.getElem?_eq_getElem hlt, fun h => h2 ?_⟩
      obtain ⟨cl'', h3, h4⟩ := hs.stays_done (List.getElem?_eq_getElem hlt) h
      rw [h1] at h3
      cases h3
      exact h4
    refine ⟨by simpa [hlen] using hg.len, fun c q cl' h1 h2 h3 => ?_, fun c c0 h1 => ⟨(hg.fn c c0 h1).1, fun cl' h2 h3 => ?_⟩,
      fun c q cl' r h1 h2 h3 => ?_⟩
    · obtain ⟨cl, h4, h5⟩ := before c cl' h2 h3
      obtain ⟨gq, h6, h7⟩ := hg.upd c q cl h1 h4 h5
      obtain ⟨gq', h8, -, h9⟩ := hs.region q gq h6
      simp only [h7, reduceCtorEq, false_and, exists_false, true_and, false_or, or_false] at h9
      rcases h9 with ⟨rfl, -⟩ | ⟨t, -, rfl⟩
      · exact ⟨_, h8, h7⟩
      · exact absurd (hend q _ t (List.mem_singleton.2 rfl) c cl h1 h4) h5
    · obtain ⟨cl, h4, h5⟩ := before c cl' h2 h3
      obtain ⟨cl0, h6, h7⟩ := (hg.fn c c0 h1).2 cl h4 h5
      exact ⟨cl0, (huser c0 cl0 h6 h7 fun hf => h5 (hf c cl h1 h4)).1, h7⟩
    · have hw : Within s c q := h1.of_owners rfl
      have hlt : c < s.grp.clients.length := by rw [← hlen]; exact (List.getElem?_eq_some_iff.1 h2).1
      rcases hs.uses (List.getElem?_eq_getElem hlt) h2 h3 with h4 | ⟨h4, h5⟩
      · exact hg.uses c q _ r hw (List.getElem?_eq_getElem hlt) h4
      · exact hmay c q _ cl' r hw (List.getElem?_eq_getElem hlt) h4 h2 h5

theorem good_run {s0 s : St τ} {tr : List (Ev τ)} (hg : Good may s0) (h : Run may s0 tr s) : Good may s := by
  induction h with
  | nil => exact hg
  | snoc _ h ih => exact good_step ih h

/-- a step that begins nothing, of somebody who does not wait for a function, is possible -/
theorem step_of_calm {s : St τ} {who : Option ℕ} {es : List (Ev τ)} {g : State τ} (hs : Group.Step s.grp es g) (hc : Calm who s.grp es g)
    (hw : ∀ c, who = some c → s.Free (.fn c)) (he : ∀ q f t, .updEnd q f t ∈ es → s.Free (.upd q)) : Step may s es ⟨g, s.owners⟩ :=
  .base s es g hs hc.len he (fun c cl h1 h2 h3 => hc.user c cl h1 h2 fun h => h3 (hw c h))
    fun c _ cl cl' r _ h1 h2 h3 h4 => absurd h4 (hc.begins c cl cl' h1 h3 h2 r)

/-- of finitely many numbers with a property, one is the largest -/
theorem exists_max {P : ℕ → Prop} {n : ℕ} (hb : ∀ c, P c → c < n) (h : ∃ c, P c) : ∃ c, P c ∧ ∀ c', P c' → c' ≤ c := by
  classical
  obtain ⟨c, hc⟩ := h
  have := Nat.findGreatest_spec (P := P) (le_of_lt (hb c hc)) hc
  exact ⟨_, this, fun c' hc' => Nat.le_findGreatest (le_of_lt (hb c' hc')) hc'⟩

omit [Inhabited τ] in
/-- the last request of a kind closed under "opened by a function of" has no function running -/
theorem free_last {s : St τ} (hg : Good may s) {P : ℕ → Prop} {c : ℕ} (hmax : ∀ c', P c' → c' ≤ c)
    (hP : ∀ c' cl, s.owners[c']? = some (some (.fn c)) → s.grp.clients[c']? = some cl → ¬ Closed cl → P c') : s.Free (.fn c) := by
  intro c' cl h1 h2
  by_contra h3
  have := hmax c' (hP c' cl h1 h2 h3)
  have := (hg.fn c' c h1).1
  omega

theorem closed_of_isDone {cl : Client τ} (h : ¬ Closed cl) : isDone cl = false := by
  unfold Closed at h
  unfold isDone
  split <;> simp_all

/-- as long as not everything is done, something can go on -/
theorem progress (ha : Acyclic may) {tr : List (Ev τ)} {s : St τ} (hi : Inv tr s.grp) (hg : Good may s) (hn : ¬ Settled s) :
    ∃ es s', Step may s es s' ∧ total s'.grp < total s.grp ∧ s'.grp.clients.length = s.grp.clients.length := by
  have fin : ∀ {who es} {g : State τ}, Group.Step s.grp es g ∧ total g < total s.grp ∧ Calm who s.grp es g ∧
      (∀ c, who = some c → s.Free (.fn c)) ∧ (∀ q f t, .updEnd q f t ∈ es → s.Free (.upd q)) →
      ∃ es s', Step may s es s' ∧ total s'.grp < total s.grp ∧ s'.grp.clients.length = s.grp.clients.length := by
    rintro who es g ⟨h1, h2, h3, h4, h5⟩
    exact ⟨es, _, step_of_calm h1 h3 h4 h5, h2, h3.len⟩
  by_cases hbusy : ∃ (r : ℕ) (g : Region τ), s.grp.regions[r]? = some g ∧ g.loop ≠ .select ∧ g.loop ≠ .calling
  · obtain ⟨r, g, h1, h2, h3⟩ := hbusy
    obtain ⟨es, s', h4, h5, h6, h7⟩ := loop_step hi r g h1 h2
    exact fin ⟨h4, h5, h6, by simp, fun q f t h => absurd (h7 q f t h).2 h3⟩
  push Not at hbusy
  by_cases hcall : ∃ (r : ℕ) (g : Region τ), s.grp.regions[r]? = some g ∧ g.loop = .calling
  · obtain ⟨q, hq, hmin⟩ : ∃ q, (∃ g, s.grp.regions[q]? = some g ∧ g.loop = .calling) ∧
        ∀ r, may q r → ¬ ∃ g, s.grp.regions[r]? = some g ∧ g.loop = .calling := by
      let R : Fin s.grp.regions.length → Fin s.grp.regions.length → Prop := fun a b => Relation.TransGen may b.1 a.1
      haveI : IsTrans _ R := ⟨fun a b c h1 h2 => h2.trans h1⟩
      haveI : Std.Irrefl R := ⟨fun a => ha a.1⟩
      have wf : WellFounded R := Finite.wellFounded_of_trans_of_irrefl R
      obtain ⟨r, g, h1, h2⟩ := hcall
      have hlt := (List.getElem?_eq_some_iff.1 h1).1
      obtain ⟨m, hm, hmm⟩ := wf.has_min {x | ∃ g, s.grp.regions[x.1]? = some g ∧ g.loop = .calling} ⟨⟨r, hlt⟩, g, h1, h2⟩
      refine ⟨m.1, hm, fun r' hr' hc => ?_⟩
      have hlt' : r' < s.grp.regions.length := by
        obtain ⟨g', h3, -⟩ := hc
        exact (List.getElem?_eq_some_iff.1 h3).1
      exact hmm ⟨r', hlt'⟩ hc (.single hr')
    by_cases hfree : s.Free (.upd q)
    · obtain ⟨g, h1, h2⟩ := hq
      obtain ⟨es, s', h4, h5, h6, h7⟩ := loop_step hi q g h1 (by simp [h2])
      exact fin ⟨h4, h5, h6, by simp, fun q' f t h => by rw [(h7 q' f t h).1]; exact hfree⟩
    · let P : ℕ → Prop := fun c => Within s c q ∧ ∃ cl, s.grp.clients[c]? = some cl ∧ ¬ Closed cl
      have hex : ∃ c, P c := by
        unfold St.Free at hfree
        push Not at hfree
        obtain ⟨c, cl, h1, h2, h3⟩ := hfree
        exact ⟨c, .upd h1, cl, h2, h3⟩
      obtain ⟨c, ⟨hw, cl, hc, hnc⟩, hmax⟩ := exists_max (n := s.owners.length) (fun c h => h.1.lt) hex
      obtain ⟨es, s', h4, h5, h6, h7⟩ := client_step hi c cl hc (fun r g hu hr => by
        by_contra hne
        exact hmin r (hg.uses c q cl r hw hc hu) ⟨g, hr, hbusy r g hr hne⟩) (closed_of_isDone hnc)
      refine fin ⟨h4, h5, h6, ?_, fun q f t h => absurd h (h7 q f t)⟩
      rintro _ ⟨⟩
      exact free_last hg hmax fun c' cl' h1 h2 h3 => ⟨.fn h1 hw, cl', h2, h3⟩
  · push Not at hcall
    have hsel : ∀ (r : ℕ) (g : Region τ), s.grp.regions[r]? = some g → g.loop = .select := fun r g h => by
      by_contra hne
      exact hcall r g h (hbusy r g h hne)
    let P : ℕ → Prop := fun c => ∃ cl, s.grp.clients[c]? = some cl ∧ ¬ Closed cl
    have hex : ∃ c, P c := by
      by_contra hne
      refine hn ⟨fun cl hm => ?_, fun g hm => ?_⟩
      · obtain ⟨c, hc⟩ := List.getElem?_of_mem hm
        by_contra hcl
        exact hne ⟨c, cl, hc, hcl⟩
      · obtain ⟨r, hr⟩ := List.getElem?_of_mem hm
        exact hsel r g hr
    obtain ⟨c, ⟨cl, hc, hnc⟩, hmax⟩ := exists_max (n := s.grp.clients.length)
      (fun c h => by obtain ⟨cl, h, -⟩ := h; exact (List.getElem?_eq_some_iff.1 h).1) hex
    obtain ⟨es, s', h4, h5, h6, h7⟩ := client_step hi c cl hc (fun r g _ hr => hsel r g hr) (closed_of_isDone hnc)
    refine fin ⟨h4, h5, h6, ?_, fun q f t h => absurd h (h7 q f t)⟩
    rintro _ ⟨⟩
    exact free_last hg hmax fun c' cl' h1 h2 h3 => ⟨cl', h2, h3⟩

theorem Run.cons {s0 s s' : St τ} {es tr : List (Ev τ)} (h : Step may s0 es s) (hr : Run may s tr s') : Run may s0 (es ++ tr) s' := by
  induction hr with
  | nil => simpa using Run.snoc .nil h
  | snoc _ h2 ih => rw [← List.append_assoc]; exact .snoc ih h2

theorem Run.trans {s0 s s' : St τ} {tr tr' : List (Ev τ)} (h : Run may s0 tr s) (hr : Run may s tr' s') : Run may s0 (tr ++ tr') s' := by
  induction hr with
  | nil => simpa using h
  | snoc _ h2 ih => rw [← List.append_assoc]; exact .snoc ih h2

theorem finish (ha : Acyclic may) {tr : List (Ev τ)} {s : St τ} (hi : Inv tr s.grp) (hg : Good may s) :
    ∃ tr' s', Run may s tr' s' ∧ s'.grp.clients.length = s.grp.clients.length ∧ Settled s' := by
  generalize hn : total s.grp = n
  induction n using Nat.strong_induction_on generalizing tr s with
  | _ n ih =>
    by_cases hs : Settled s
    · exact ⟨[], s, .nil, rfl, hs⟩
    · obtain ⟨es, s1, h1, h2, h3⟩ := progress ha hi hg hs
      obtain ⟨tr', s', h4, h5, h6⟩ := ih _ (hn ▸ h2) (inv_step hi h1.grp) (good_step hg h1) rfl
      exact ⟨_, s', .cons h1 h4, by omega, h6⟩

theorem neverStuck_of_acyclic (ha : Acyclic may) : NeverStuck τ may := fun _ _ h =>
  finish ha (inv_of_run h.grp) (good_run good_init h)

end Tricorder.Group.Nested
