import Verif.Proof.Joint2
import Verif.Proof.Lists
import Verif.Proof.Http
import Verif.Props.Path
/-!
# Several goroutines that register at the same time: what is there when, and who put it there
-/

namespace Tricorder
open Go Spec Tree

variable {w : World} {ι : Type} [DecidableEq ι]

/-- an own step of the call `c` at `p` -/
def CallStep (c : RegCall) (p : List Str) (e : Ev) : Prop :=
  e.cmd.isTree = false ∨
  (∃ d' name u, e.cmd = .createDir d' name ∧ Reaches e.pre.tree c.dir u (.dir d') ∧ u ++ [name] <+: p ∧
    (c.isMetric → u ++ [name] ≠ p)) ∨
  c.isMetric ∧ ∃ d' name de v, e.cmd = .storeMetric d' name de v ∧ Reaches e.pre.tree c.dir p.dropLast (.dir d') ∧
    p = p.dropLast ++ [name]

/-- the result of the call `c` at `p`, and how it came about -/
def CallResult (w : World) (c : RegCall) (p : List Str) (s' : State) (h : List Ev) (r : Out (Except RegErr Unit)) : Prop :=
  ((r = .ok (.ok ()) ∧ (¬ c.isMetric → ∃ d', Reaches s'.tree c.dir p (.dir d')) ∧
      (c.isMetric → ∃ e ∈ h, e.own = true ∧ ∃ d' name de v m, e.cmd = .storeMetric d' name de v ∧
        Reaches e.pre.tree c.dir p.dropLast (.dir d') ∧ p = p.dropLast ++ [name] ∧ c.Makes de v ∧
        (e.pre.tree.storeMetric d' name de v).2 = .ok m)) ∨
   ((∀ e ∈ h, e.own = true → ∀ d' name de v m, e.cmd = .storeMetric d' name de v →
        (e.pre.tree.storeMetric d' name de v).2 ≠ .ok m) ∧
    (r = .ok (.error .pathInUse) ∧ ((∃ u m, u <+: p ∧ Reaches s'.tree c.dir u (.metric m)) ∨
        c.isMetric ∧ ∃ n, Reaches s'.tree c.dir p n) ∨
      r ≠ .ok (.ok ()) ∧ r ≠ .ok (.error .pathInUse) ∧ ∃ σ ∈ statesOf h s', ¬ c.ValueFine w σ)))

theorem regCall_run {c : RegCall} {p : List Str} (hp : p = newPathSpec c.path) {s s' : State} {h : List Ev} {r}
    (hs : Reachable w s) (hd : c.dir < s.tree.dirs.length) (hr : RunI w (c.prog w) s h s' r) (hg : Growing w h) :
    (∀ e ∈ h, e.own = true → CallStep c p e) ∧
    CallResult w c p s' h r := by
  have hgood : ∀ x ∈ p, GoodName x := fun x hx => newPathSpec_comp (hp ▸ hx)
  cases c with
  | directory d path =>
    obtain ⟨a, hr2, rfl⟩ := RunI_map hr
    have hr' : RunI w (registerDirectory d p) s h s' a := hp ▸ hr2
    obtain ⟨h1, h2⟩ := registerDirectory_runI hgood hs hd hr' hg
    refine ⟨fun e he ho => ?_, ?_⟩
    · obtain ⟨d', name, u, e1, e2, e3⟩ := h1 e he ho
      exact Or.inr (Or.inl ⟨d', name, u, e1, e2, e3, fun h => h.elim⟩)
    · rcases h2 with ⟨d', rfl, h⟩ | ⟨rfl, h⟩
      · exact Or.inl ⟨rfl, fun _ => ⟨d', h⟩, fun h => h.elim⟩
      · refine Or.inr ⟨fun e he ho d' name de v m hc => ?_, Or.inl ⟨rfl, Or.inl h⟩⟩
        obtain ⟨_, _, _, e1, _⟩ := h1 e he ho
        rw [hc] at e1
        cases e1
  | metric d path spec group unit desc =>
    have hr' : RunI w (registerMetric w.fnTy d p spec group unit desc) s h s' r := hp ▸ hr
    obtain ⟨h1, h2⟩ := registerMetric_runI hgood hs hd hr' hg
    refine ⟨fun e he ho => ?_, ?_⟩
    · rcases h1 e he ho with ⟨d', name, u, e1, e2, e3⟩ | h | ⟨d', name, v, e1, e2, e3, e4⟩
      · refine Or.inr (Or.inl ⟨d', name, u, e1, e2, e3.trans (List.dropLast_prefix p), fun _ hh => ?_⟩)
        have := e3.length_le
        rw [hh, List.length_dropLast] at this
        have : p ≠ [] := by rw [← hh]; simp
        have := List.length_pos_of_ne_nil this
        omega
      · exact Or.inl h
      · exact Or.inr (Or.inr ⟨trivial, d', name, _, v, e1, e2, e3⟩)
    · rcases h2 with ⟨rfl, e, he, ho, d', name, v, m, e1, e2, e3, e4, e5⟩ | ⟨h3, h4⟩
      · exact Or.inl ⟨rfl, fun h => absurd trivial h, fun _ => ⟨e, he, ho, d', name, _, v, m, e1, e2, e3, ⟨rfl, e4⟩, e5⟩⟩
      · refine Or.inr ⟨h3, ?_⟩
        rcases h4 with ⟨h5, h6 | h6 | h6⟩ | h5
        · exact Or.inl ⟨h5, Or.inr ⟨trivial, .dir d, by rw [h6]; exact .here d⟩⟩
        · exact Or.inl ⟨h5, Or.inl h6⟩
        · exact Or.inl ⟨h5, Or.inr ⟨trivial, h6⟩⟩
        · exact Or.inr h5

theorem createDir_paths {s : State} (ht : IsTree s.tree) {d : ℕ} (hd : d < s.tree.dirs.length) {name : Str} {q n}
    (h : Reaches (exec w (.createDir d name) s).1.tree 0 q n) :
    Reaches s.tree 0 q n ∨ ∃ q' x, Reaches s.tree 0 q' (.dir d) ∧ q = q' ++ [name] ∧ n = .dir x := by
  change Reaches (s.tree.createDir d name).1 0 q n at h
  cases hg : s.tree.getEntry d name with
  | none =>
    rw [createDir_new hg] at h
    rcases (reaches_link ht hd (Or.inl ⟨rfl, rfl, rfl, rfl⟩) ht.rootIn).mp h with h | ⟨q', h1, h2, h3⟩
    · exact Or.inl h
    · cases n with
      | dir x => exact Or.inr ⟨q', x, h1, h2, rfl⟩
      | metric m => cases h3
  | some e =>
    obtain ⟨en, he, _⟩ := ht.child _ _ _ (getEntry_some hg)
    cases hdd : en.dir with
    | none => rw [createDir_err hg he hdd] at h; exact Or.inl h
    | some x => rw [createDir_old hg he hdd] at h; exact Or.inl h

theorem storeMetric_paths {s : State} (ht : IsTree s.tree) {d : ℕ} (hd : d < s.tree.dirs.length) {name desc : Str}
    {v : MValue} {q n} (h : Reaches (exec w (.storeMetric d name desc v) s).1.tree 0 q n) :
    Reaches s.tree 0 q n ∨ ∃ q' m, Reaches s.tree 0 q' (.dir d) ∧ q = q' ++ [name] ∧ n = .metric m ∧
      (s.tree.storeMetric d name desc v).2 = .ok m := by
  change Reaches (s.tree.storeMetric d name desc v).1 0 q n at h
  cases hg : s.tree.getEntry d name with
  | none =>
    rw [storeMetric_new hg] at h ⊢
    rcases (reaches_link ht hd (Or.inr ⟨rfl, rfl, rfl, _, rfl, rfl⟩) ht.rootIn).mp h with h | ⟨q', h1, h2, h3⟩
    · exact Or.inl h
    · cases n with
      | dir x => cases h3
      | metric m => cases h3; exact Or.inr ⟨q', _, h1, h2, rfl, rfl⟩
  | some e => rw [storeMetric_old hg] at h; exact Or.inl h

variable {cs : ι → RegCall} {s s' : State} {H : List (JEv ι)} {rs : ι → Out (Except RegErr Unit)} {ab : ι → List Str}

theorem Spec.JRun.base (hr : JRun w cs s H s' rs ab) (i : ι) :
    ∃ a, Reaches s.tree 0 a (.dir (cs i).dir) ∧ ab i = a ++ newPathSpec (cs i).path := by
  obtain ⟨a, b, h1, h2, h3⟩ := hr.at_ i
  exact ⟨a, h1, by rw [h3, C01_components_unique h2]⟩

theorem Spec.JRun.dir_lt (hr : JRun w cs s H s' rs ab) (i : ι) : (cs i).dir < s.tree.dirs.length := by
  obtain ⟨a, h, _⟩ := hr.base i
  exact reaches_lt (reachable_isTree hr.reach) h (reachable_isTree hr.reach).rootIn

theorem Spec.JRun.run (hr : JRun w cs s H s' rs ab) :
    (∀ i, RunI w ((cs i).prog w) s (H.map (JEv.own i)) s' (rs i)) ∧
    ∀ e ∈ H, Reachable w e.pre ∧ e.cmd.Ok e.pre ∧ (e.who ≠ none → Adds e.cmd) :=
  joint_run hr.joint hr.reach (fun i => regCall_safe _ (hr.dir_lt i)) fun i => regCall_adds _

theorem Spec.JRun.tree (hr : JRun w cs s H s' rs ab) {e : JEv ι} (he : e ∈ H) : IsTree e.pre.tree :=
  reachable_isTree (hr.run.2 e he).1

theorem Spec.JRun.grows (hr : JRun w cs s H s' rs ab) {e : JEv ι} (he : e ∈ H) : GrowStep w e.cmd e.pre := by
  obtain ⟨h1, h2, h3⟩ := hr.run.2 e he
  cases hw : e.who with
  | none => intro d q n hx; rw [hr.others e he hw]; exact hx
  | some i =>
    have h3 := h3 (by rw [hw]; simp)
    obtain ⟨who, cmd, pre⟩ := e
    have hne : cmd.isTree = false → GrowStep w cmd pre := fun hn d q n hx => by rw [exec_tree_of_not hn]; exact hx
    cases cmd with
    | createDir d name => exact createDir_grow (reachable_isTree h1) h2.1 name
    | storeMetric d name desc v => exact storeMetric_grow (reachable_isTree h1) h2.1 name desc v
    | removeEntry => exact h3.elim
    | unregisterDir => exact h3.elim
    | _ => exact hne rfl

theorem Spec.JRun.growing (hr : JRun w cs s H s' rs ab) (i : ι) : Growing w (H.map (JEv.own i)) := by
  intro e he
  obtain ⟨e', he', rfl⟩ := List.mem_map.mp he
  exact hr.grows he'

theorem Spec.JRun.final (hr : JRun w cs s H s' rs ab) (i : ι) : Reachable w s' := by
  refine (RunI_reachable (hr.run.1 i) hr.reach fun e he _ => ?_).2
  obtain ⟨e', he', rfl⟩ := List.mem_map.mp he
  exact (hr.run.2 e' he').2.1

theorem Spec.JRun.call (hr : JRun w cs s H s' rs ab) (i : ι) :
    (∀ e ∈ H.map (JEv.own i), e.own = true → CallStep (cs i) (newPathSpec (cs i).path) e) ∧
    CallResult w (cs i) (newPathSpec (cs i).path) s' (H.map (JEv.own i)) (rs i) :=
  regCall_run rfl hr.reach (hr.dir_lt i) (hr.run.1 i) (hr.growing i)

/-- the steps of goroutine `i` -/
theorem Spec.JRun.steps (hr : JRun w cs s H s' rs ab) {e : JEv ι} (he : e ∈ H) {i : ι} (hi : e.who = some i) :
    CallStep (cs i) (newPathSpec (cs i).path) (JEv.own i e) :=
  (hr.call i).1 _ (List.mem_map_of_mem he) (by simp [JEv.own, hi])

/-- what was there at the beginning is there all the time -/
theorem Spec.JRun.stays (hr : JRun w cs s H s' rs ab) (i : ι) {d q n} (hx : Reaches s.tree d q n) :
    (∀ e ∈ H, Reaches e.pre.tree d q n) ∧ Reaches s'.tree d q n :=
  ⟨fun e he => grow_mem (hr.run.1 i) (hr.growing i) (List.mem_map_of_mem (f := JEv.own i) he) hx,
    grow_run (hr.run.1 i) (hr.growing i) hx⟩

/-- whatever is there at the end was there at the beginning or comes from one of the calls -/
theorem Spec.JRun.account (hr : JRun w cs s H s' rs ab) {q n} (hx : Reaches s'.tree 0 q n) :
    Reaches s.tree 0 q n ∨ ∃ j, (∃ m, n = .metric m ∧ (cs j).isMetric ∧ rs j = .ok (.ok ()) ∧ q = ab j) ∨
      (∃ d, n = .dir d ∧ q <+: ab j ∧ ((cs j).isMetric → q ≠ ab j)) := by
  refine joint_acc (New := fun q n => ∃ j, (∃ m, n = .metric m ∧ (cs j).isMetric ∧ rs j = .ok (.ok ()) ∧ q = ab j) ∨
      (∃ d, n = .dir d ∧ q <+: ab j ∧ ((cs j).isMetric → q ≠ ab j))) hr.joint ?_ q n hx
  intro e he q n hx
  cases hw : e.who with
  | none => rw [hr.others e he hw] at hx; exact Or.inl hx
  | some j =>
    obtain ⟨a, ha, hab⟩ := hr.base j
    have ha := (hr.stays j ha).1 e he
    have ht := hr.tree he
    have hok := (hr.run.2 e he).2.1
    have hst := hr.steps he hw
    have hcall := (hr.call j).2
    have hmem : JEv.own j e ∈ H.map (JEv.own j) := List.mem_map_of_mem he
    have hown : (JEv.own j e).own = true := by simp [JEv.own, hw]
    obtain ⟨who, cmd, pre⟩ := e
    rcases hst with h | ⟨d', name, u, e1, e2, e3, e4⟩ | ⟨hm, d', name, de, v, e1, e2, e3⟩
    · change Reaches (exec w cmd pre).1.tree 0 q n at hx
      rw [exec_tree_of_not (show cmd.isTree = false from h)] at hx
      exact Or.inl hx
    · change cmd = _ at e1
      subst e1
      rcases createDir_paths ht hok.1 hx with h | ⟨q', x, h1, h2, h3⟩
      · exact Or.inl h
      · have := reaches_path_unique ht h1 (reaches_trans ha e2) ht.rootIn
        subst this
        refine Or.inr ⟨j, Or.inr ⟨x, h3, ?_, fun hm hq => e4 hm ?_⟩⟩
        · rw [h2, hab, List.append_assoc]
          exact (List.prefix_append_right_inj a).mpr e3
        · rw [h2, hab, List.append_assoc] at hq
          exact List.append_cancel_left hq
    · change cmd = _ at e1
      subst e1
      rcases storeMetric_paths ht hok.1 hx with h | ⟨q', m, h1, h2, h3, h4⟩
      · exact Or.inl h
      · have := reaches_path_unique ht h1 (reaches_trans ha e2) ht.rootIn
        subst this
        refine Or.inr ⟨j, Or.inl ⟨m, h3, hm, ?_, ?_⟩⟩
        · rcases hcall with h | h
          · exact h.1
          · exact absurd h4 (h.1 _ hmem hown d' name de v m rfl)
        · rw [h2, hab, List.append_assoc, ← e3]

/-- a successful registration of a metric: the step that stored it -/
theorem Spec.JRun.stored (hr : JRun w cs s H s' rs ab) {i : ι} (hm : (cs i).isMetric) (hi : rs i = .ok (.ok ())) :
    ∃ H1 e H2 m de v en, H = H1 ++ e :: H2 ∧ e.who = some i ∧ (∀ n, ¬ Reaches e.pre.tree 0 (ab i) n) ∧
      Reaches (exec w e.cmd e.pre).1.tree 0 (ab i) (.metric m) ∧
      (exec w e.cmd e.pre).1.tree.metrics[m]? = some ⟨de, v, en⟩ ∧ (cs i).Makes de v := by
  rcases (hr.call i).2 with ⟨_, _, h⟩ | ⟨_, h | h⟩
  · obtain ⟨e', he', ho, d', name, de, v, m, e1, e2, e3, e4, e5⟩ := h hm
    obtain ⟨e, he, rfl⟩ := List.mem_map.mp he'
    obtain ⟨a, ha, hab⟩ := hr.base i
    have ha' := (hr.stays i ha).1 e he
    have ht := hr.tree he
    have hok := (hr.run.2 e he).2.1
    obtain ⟨H1, H2, hH⟩ := List.append_of_mem he
    have hw : e.who = some i := by simpa [JEv.own] using ho
    have hgrow := hr.grows he
    obtain ⟨who, cmd, pre⟩ := e
    change cmd = _ at e1
    subst e1
    have hpath : ab i = (a ++ (newPathSpec (cs i).path).dropLast) ++ [name] := by
      rw [hab, List.append_assoc, ← e3]
    have hto := reaches_trans ha' e2
    rcases storeMetric_says (w := w) (desc := de) (v := v) (name := name) ht hok.1 with ⟨m', s1, s2, s3, mo, s4, s5, s6⟩ | ⟨s1, _⟩
    · refine ⟨H1, _, H2, m', de, v, mo.enclosing, hH, hw, fun n hn => ?_, ?_, ?_, e4⟩
      · rw [hpath] at hn
        obtain ⟨d2, k1, k2⟩ := reaches_snoc_iff.mp hn
        cases reaches_unique ht k1 hto
        exact s2 n k2
      · rw [hpath]
        exact reaches_snoc_iff.mpr ⟨d', hgrow _ _ _ hto, s3⟩
      · rw [s4, ← s5, ← s6]
    · change (pre.tree.storeMetric d' name de v).2 = _ at s1
      have e5 : (pre.tree.storeMetric d' name de v).2 = .ok m := e5
      rw [s1] at e5
      cases e5
  · rw [hi] at h; cases h.1
  · exact absurd hi h.1

/-- what is there after a step is there at all later ones and at the end -/
theorem Spec.JRun.after (hr : JRun w cs s H s' rs ab) (i : ι) {H1 H2 : List (JEv ι)} {e : JEv ι} (hH : H = H1 ++ e :: H2) :
    (∀ d q n, Reaches (exec w e.cmd e.pre).1.tree d q n → (∀ e' ∈ H2, Reaches e'.pre.tree d q n) ∧ Reaches s'.tree d q n) ∧
    ∀ (m : ℕ) mo, (exec w e.cmd e.pre).1.tree.metrics[m]? = some mo → s'.tree.metrics[m]? = some mo := by
  have hH' : H.map (JEv.own i) = H1.map (JEv.own i) ++ JEv.own i e :: H2.map (JEv.own i) := by rw [hH]; simp
  obtain ⟨p', h⟩ := RunI_after (hr.run.1 i) hH'
  have hg : Growing w (H2.map (JEv.own i)) := by
    have := hr.growing i
    rw [hH'] at this
    exact (Growing.cons.mp (Growing.append.mp this).2).2
  exact ⟨fun d q n hx => ⟨fun e' he' => grow_mem h hg (List.mem_map_of_mem (f := JEv.own i) he') hx, grow_run h hg hx⟩,
    fun m mo => (RunI_ext h).2.metrics m mo⟩

end Tricorder
