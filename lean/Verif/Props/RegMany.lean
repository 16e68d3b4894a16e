import Verif.Proof.RegMany
import Verif.Props.Ex
import Verif.Props.Path
/-!
# C82: many registrations
-/

namespace Tricorder
open Go Spec Tree

variable {w : World} {s : State}

private theorem comps_eq {path : Str} {c : List Str} (h : Components path c) : newPathSpec path = c :=
  (C01_components_unique h).symm

private theorem fit_iff {rs : List Reg} : FitTogether rs ↔ FitTogether' rs := by
  constructor
  · intro h
    refine ⟨fun r hr h0 => h.paths r hr (h0 ▸ C01_components _), h.apart.imp fun {a b} hab => ?_, h.units⟩
    exact Or.inr (hab _ _ (C01_components _) (C01_components _))
  · intro h
    refine ⟨fun r hr h0 => h.paths r hr (comps_eq h0), ?_, h.units⟩
    refine (h.apart.imp_of_mem fun {a b} ha hb hab => ?_)
    intro p c hp hc
    rw [← comps_eq hp, ← comps_eq hc]
    rcases hab with h0 | h0
    · exact absurd h0 (h.paths a ha)
    · exact h0

private theorem state_iff {d : ℕ} {rs : List Reg} (hf : ∀ r ∈ rs, ∀ g b, r.spec ≠ .flag g b) :
    FitState w s d rs ↔ FitState' w s d rs := by
  constructor
  · intro h
    exact ⟨fun r hr => h.clear r hr _ (C01_components _), h.values, hf⟩
  · intro h
    exact ⟨fun r hr c hc => comps_eq hc ▸ h.clear r hr, h.values⟩

/-- **C82** Registering any number of metrics below a directory succeeds for all of them exactly if they fit together
and fit the state. -/
theorem C82_all_iff (hs : Reachable w s) {d : ℕ} (hd : d < s.tree.dirs.length) {rs : List Reg}
    (hf : ∀ r ∈ rs, ∀ g b, r.spec ≠ .flag g b) :
    (∀ x ∈ ((registerMany w.fnTy d rs).run w s).2, x = .ok (.ok ())) ↔ FitTogether rs ∧ FitState w s d rs := by
  rw [fit_iff, state_iff hf]
  constructor
  · exact many_back hs hd hf
  · rintro ⟨h1, h2⟩ x hx
    rw [(many_run hs hd h1 h2).1] at hx
    obtain ⟨_, _, rfl⟩ := List.mem_map.mp hx
    rfl

/-- **C82** Then all of them are there, each with its description, unit, group and value; what was there is still there
and unchanged; below the directory there are no other new metrics; apart from the tree, only the units of the
distributions changed. -/
theorem C82_effect (hs : Reachable w s) {d : ℕ} (hd : d < s.tree.dirs.length) {rs : List Reg}
    (hf : ∀ r ∈ rs, ∀ g b, r.spec ≠ .flag g b) (h1 : FitTogether rs) (h2 : FitState w s d rs) :
    let s' := ((registerMany w.fnTy d rs).run w s).1
    (∀ r ∈ rs, ∀ c, Components r.path c →
      ∃ v, MetricAt s' d c r.description v ∧ StandsFor v r.spec (some r.group) r.unit) ∧
    (∀ d0 q n, Reaches s.tree d0 q n → Reaches s'.tree d0 q n) ∧
    (∀ (m : ℕ) mo, s.tree.metrics[m]? = some mo → s'.tree.metrics[m]? = some mo) ∧
    (∀ q m, Reaches s'.tree d q (.metric m) →
      Reaches s.tree d q (.metric m) ∨ ∃ r ∈ rs, Components r.path q) ∧
    s' = { s with tree := s'.tree, dists := s'.dists } ∧ s'.dists.length = s.dists.length ∧
    ∀ (i : ℕ) D, s.dists[i]? = some D → ∃ D', s'.dists[i]? = some D' ∧ UnitsSet rs i D D' := by
  intro s'
  obtain ⟨-, r2, r3, r4, r5, r6, r7, r8⟩ := many_run hs hd (fit_iff.mp h1) ((state_iff hf).mp h2)
  refine ⟨fun r hr c hc => ?_, r4, fun m mo h => r3.metrics m mo h, fun q m h => ?_, r6, ?_, fun i D hD => ?_⟩
  · obtain ⟨v, -, a, b⟩ := r8 r hr
    rw [comps_eq hc] at b
    exact ⟨v, b, a⟩
  · rcases r5 q m h with h | ⟨x, hx, h⟩
    · exact Or.inl h
    · exact Or.inr ⟨x, hx, h ▸ C01_components _⟩
  · have h1 := r7 s.dists.length
    have h2 := r7 s'.dists.length
    rw [List.getElem?_eq_none (Nat.le_refl _), Option.map_none, List.getElem?_eq_none_iff] at h1
    change s'.dists[s'.dists.length]? = _ at h2
    rw [List.getElem?_eq_none (Nat.le_refl _), eq_comm, Option.map_eq_none_iff, List.getElem?_eq_none_iff] at h2
    exact Nat.le_antisymm h1 h2
  · refine ⟨unitsSet rs i D, by rw [r7 i, hD]; rfl, ?_, ?_⟩
    · intro r hr hi
      unfold unitsSet
      cases hfi : rs.find? fun r => decide (r.spec = .dist (some i)) with
      | none =>
        have := List.find?_eq_none.mp hfi r hr
        simp [hi] at this
      | some x =>
        have hx := List.mem_of_find?_eq_some hfi
        have hxi := List.find?_some hfi
        simp only [decide_eq_true_eq] at hxi
        simp only
        rw [h1.units r hr x hx i hi hxi]
    · intro hno
      unfold unitsSet
      cases hfi : rs.find? fun r => decide (r.spec = .dist (some i)) with
      | none => rfl
      | some x =>
        have hx := List.mem_of_find?_eq_some hfi
        have hxi := List.find?_some hfi
        simp only [decide_eq_true_eq] at hxi
        exact absurd hxi (hno x hx)

private theorem reaches_metric_some {t : Tree MValue} (ht : IsTree t) {d p m} (h : Reaches t d p (.metric m)) :
    ∃ mo, t.metrics[m]? = some mo := by
  have hp : p ≠ [] := by rintro rfl; cases h
  rw [← List.dropLast_append_getLast hp] at h
  obtain ⟨a, a1, a2⟩ := reaches_snoc_iff.mp h
  obtain ⟨e, en, c1, c2, c3⟩ := (reaches_one_iff ht).mp a2
  obtain ⟨-, mo, m1, m2⟩ := entry_metric ht c2 c3
  exact ⟨mo, m1⟩

private theorem fit_perm {rs rs' : List Reg} (hp : rs.Perm rs') (h : FitTogether' rs) : FitTogether' rs' := by
  refine ⟨fun r hr => h.paths r (hp.mem_iff.mpr hr), ?_, fun a ha b hb => h.units a (hp.mem_iff.mpr ha) b (hp.mem_iff.mpr hb)⟩
  have h1 : rs.Pairwise fun a b => ¬ newPathSpec a.path <+: newPathSpec b.path ∧ ¬ newPathSpec b.path <+: newPathSpec a.path :=
    h.apart.imp_of_mem fun {a b} ha hb hab => by
      rcases hab with h0 | h0
      · exact absurd h0 (h.paths a ha)
      · exact h0
  have := (hp.pairwise_iff (fun hab => ⟨hab.2, hab.1⟩)).mp h1
  exact this.imp fun h => Or.inr h

/-- **C82** The order of the registrations does not matter: in any other order they succeed as well, with the same
metrics at the same paths and the same distributions afterwards. -/
theorem C82_order (hs : Reachable w s) {d : ℕ} (hd : d < s.tree.dirs.length) {rs rs' : List Reg} (hp : rs.Perm rs')
    (hf : ∀ r ∈ rs, ∀ g b, r.spec ≠ .flag g b)
    (hok : ∀ x ∈ ((registerMany w.fnTy d rs).run w s).2, x = .ok (.ok ())) :
    let s1 := ((registerMany w.fnTy d rs).run w s).1
    let s2 := ((registerMany w.fnTy d rs').run w s).1
    (∀ x ∈ ((registerMany w.fnTy d rs').run w s).2, x = .ok (.ok ())) ∧
    (∀ c desc v, MetricAt s1 d c desc v ↔ MetricAt s2 d c desc v) ∧
    s2 = { s1 with tree := s2.tree } := by
  intro s1 s2
  obtain ⟨h1, h2⟩ := many_back hs hd hf hok
  have h1' := fit_perm hp h1
  have h2' : FitState' w s d rs' := ⟨fun r hr => h2.clear r (hp.mem_iff.mpr hr), fun r hr => h2.values r (hp.mem_iff.mpr hr),
    fun r hr => h2.flags r (hp.mem_iff.mpr hr)⟩
  obtain ⟨a1, a2, a3, a4, a5, a6, a7, a8⟩ := many_run hs hd h1 h2
  obtain ⟨b1, b2, b3, b4, b5, b6, b7, b8⟩ := many_run hs hd h1' h2'
  have ht := reachable_isTree hs
  -- one direction, for both
  have key : ∀ (ra rb : List Reg) (σ τ : State), (∀ x, x ∈ ra → x ∈ rb) → Reachable w σ → Ext s.tree σ.tree →
      (∀ d0 q n, Reaches s.tree d0 q n → Reaches σ.tree d0 q n) →
      (∀ q m, Reaches σ.tree d q (.metric m) → Reaches s.tree d q (.metric m) ∨ ∃ x ∈ ra, q = newPathSpec x.path) →
      (∀ x ∈ ra, ∃ v, valOf w.fnTy s.vars x.spec (some x.group) x.unit = some v ∧
        StandsFor v x.spec (some x.group) x.unit ∧ MetricAt σ d (newPathSpec x.path) x.description v) →
      Ext s.tree τ.tree → (∀ d0 q n, Reaches s.tree d0 q n → Reaches τ.tree d0 q n) →
      (∀ x ∈ rb, ∃ v, valOf w.fnTy s.vars x.spec (some x.group) x.unit = some v ∧
        StandsFor v x.spec (some x.group) x.unit ∧ MetricAt τ d (newPathSpec x.path) x.description v) →
      ∀ c desc v, MetricAt σ d c desc v → MetricAt τ d c desc v := by
    rintro ra rb σ τ hab c2 c3 c4 c5 c8 d3 d4 d8 c desc v ⟨m, mo, e1, e2, e3, e4⟩
    rcases c5 c m e1 with h | ⟨x, hx, rfl⟩
    · refine ⟨m, mo, d4 _ _ _ h, ?_, e3, e4⟩
      obtain ⟨mo', hm⟩ := reaches_metric_some ht h
      have := c3.metrics _ _ hm
      rw [e2] at this
      cases this
      exact d3.metrics _ _ hm
    · obtain ⟨v1, f1, -, m1, mo1, g1, g2, g3, g4⟩ := c8 x hx
      obtain ⟨v2, f2, -, g⟩ := d8 x (hab x hx)
      have : Node.metric m = Node.metric m1 := reaches_unique (reachable_isTree c2) e1 g1
      cases this
      rw [e2] at g2
      cases g2
      rw [f1] at f2
      cases f2
      rw [← g3, e3, ← g4, e4] at g
      exact g
  refine ⟨?_, fun c desc v => ⟨?_, ?_⟩, ?_⟩
  · intro x hx
    rw [b1] at hx
    obtain ⟨_, _, rfl⟩ := List.mem_map.mp hx
    rfl
  · exact key rs rs' s1 s2 (fun x => hp.mem_iff.mp) a2 a3 a4 a5 a8 b3 b4 b8 c desc v
  · exact key rs' rs s2 s1 (fun x => hp.mem_iff.mpr) b2 b3 b4 b5 b8 a3 a4 a8 c desc v
  · have hd : s2.dists = s1.dists := by
      apply List.ext_getElem?
      intro i
      show ((registerMany w.fnTy d rs').run w s).1.dists[i]? = ((registerMany w.fnTy d rs).run w s).1.dists[i]?
      rw [a7 i, b7 i]
      congr 1
      funext D
      unfold unitsSet
      cases hfi : rs.find? fun r => decide (r.spec = .dist (some i)) with
      | none =>
        have : rs'.find? (fun r => decide (r.spec = .dist (some i))) = none := by
          rw [List.find?_eq_none] at hfi ⊢
          exact fun x hx => hfi x (hp.mem_iff.mpr hx)
        rw [this]
      | some x =>
        have hx := List.mem_of_find?_eq_some hfi
        have hxi := List.find?_some hfi
        cases hfj : rs'.find? fun r => decide (r.spec = .dist (some i)) with
        | none =>
          have := List.find?_eq_none.mp hfj x (hp.mem_iff.mp hx)
          exact absurd hxi this
        | some y =>
          have hy := List.mem_of_find?_eq_some hfj
          have hyi := List.find?_some hfj
          simp only [decide_eq_true_eq] at hxi hyi
          simp only
          rw [h1.units x hx y (hp.mem_iff.mpr hy) i hxi hyi]
    have e1 : s1 = { s with tree := s1.tree, dists := s1.dists } := a6
    have e2 : s2 = { s with tree := s2.tree, dists := s2.dists } := b6
    rw [hd] at e2
    rw [e2, e1]

/-! ### examples -/

/-- a distribution at two paths, a callback, a variable, a list -/
def exRegs : List Reg :=
  [⟨[120, 47, 100], .dist (some 0), 0, .second, nD⟩, ⟨[120, 47, 102], .func 1 1, 2, .celsius, nF⟩, ⟨[121], .dist (some 0), 1, .second, nA⟩,
   ⟨[97, 47, 122], .ptr 0, 0, .none, nM⟩, ⟨[119], .list (some 0), 0, .none, nL⟩]

theorem exRegs_noFlag : ∀ r ∈ exRegs, ∀ g b, r.spec ≠ .flag g b := by
  intro r hr g b
  simp only [exRegs, List.mem_cons, List.not_mem_nil, or_false] at hr
  rcases hr with rfl | rfl | rfl | rfl | rfl <;> exact nofun

/-- they fit -/
theorem exRegs_fit : FitTogether exRegs ∧ FitState exW exS 0 exRegs := by
  refine (C82_all_iff exS_reachable (by decide +kernel) exRegs_noFlag).mp ?_
  decide +kernel

/-- the hypotheses, and another order -/
example : Reachable exW exS ∧ 0 < exS.tree.dirs.length ∧ (∀ r ∈ exRegs, ∀ g b, r.spec ≠ .flag g b) ∧
    exRegs.Perm exRegs.reverse ∧ (∀ x ∈ ((registerMany exW.fnTy 0 exRegs).run exW exS).2, x = .ok (.ok ())) :=
  ⟨exS_reachable, by decide +kernel, exRegs_noFlag, (List.reverse_perm _).symm, by decide +kernel⟩

/-- registrations that do not fit together: one path inside the other, in either order one of them fails; which one
depends on the order -/
example :
    let a : Reg := ⟨[120], .ptr 0, 0, .none, nM⟩
    let b : Reg := ⟨[120, 47, 121], .ptr 0, 0, .none, nM⟩
    ((registerMany exW.fnTy 0 [a, b]).run exW exS).2 = [.ok (.ok ()), .ok (.error .pathInUse)] ∧
    ((registerMany exW.fnTy 0 [b, a]).run exW exS).2 = [.ok (.ok ()), .ok (.error .pathInUse)] := by
  decide +kernel

end Tricorder
