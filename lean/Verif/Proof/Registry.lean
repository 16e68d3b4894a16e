import Verif.Proof.Change
import Verif.Proof.Sys
/-!
# The registration programs, run alone
-/

namespace Tricorder
open Go Spec Tree

variable {w : World} {s : State}

namespace Tree

variable {V : Type} {t : Tree V}

/-- the entry under a name -/
def entryAt (t : Tree V) (d : ℕ) (name : Str) : Option (ℕ × Entry) :=
  match t.getEntry d name with
  | none => none
  | some e => (t.entries[e]?).map fun en => (e, en)

/-- what a path denotes, computed -/
def resolve (t : Tree V) (d : ℕ) : List Str → Option Node
  | [] => some (.dir d)
  | name :: p => match t.entryAt d name with
    | none => none
    | some (_, en) => match en.dir with
      | some d' => resolve t d' p
      | none => if p = [] then en.metric.map .metric else none

theorem entryAt_some (ht : IsTree t) {d name e en} :
    t.entryAt d name = some (e, en) ↔ Child t d name e ∧ t.entries[e]? = some en := by
  unfold entryAt
  cases h : t.getEntry d name with
  | none =>
    simp only [reduceCtorEq, false_iff]
    rintro ⟨h1, _⟩
    exact getEntry_none_iff.mp h e h1
  | some e' =>
    have hc := getEntry_some h
    obtain ⟨en', h1, _⟩ := ht.child _ _ _ hc
    simp only [h1, Option.map_some, Option.some.injEq, Prod.mk.injEq]
    constructor
    · rintro ⟨rfl, rfl⟩; exact ⟨hc, h1⟩
    · rintro ⟨h2, h3⟩
      cases child_unique ht hc h2
      rw [h1] at h3
      cases h3
      exact ⟨rfl, rfl⟩

theorem entryAt_none (ht : IsTree t) {d name} :
    t.entryAt d name = none ↔ ∀ e, ¬ Child t d name e := by
  constructor
  · intro h e hc
    obtain ⟨en, h1, _⟩ := ht.child _ _ _ hc
    rw [(entryAt_some ht).mpr ⟨hc, h1⟩] at h
    cases h
  · intro h
    unfold entryAt
    rw [getEntry_none_iff.mpr h]

theorem resolve_iff (ht : IsTree t) {d p n} : t.resolve d p = some n ↔ Reaches t d p n := by
  induction p generalizing d with
  | nil =>
    rw [reaches_nil_iff]
    simp only [resolve, Option.some.injEq]
    exact eq_comm
  | cons name p ih =>
    unfold resolve
    cases h : t.entryAt d name with
    | none =>
      have := (entryAt_none ht).mp h
      simp only [reduceCtorEq, false_iff]
      intro hr
      cases hr with
      | metric hc _ _ => exact this _ hc
      | dir hc _ _ _ => exact this _ hc
    | some x =>
      obtain ⟨e, en⟩ := x
      obtain ⟨hc, he⟩ := (entryAt_some ht).mp h
      simp only
      cases hd : en.dir with
      | some d' =>
        simp only
        rw [ih]
        constructor
        · exact fun hr => .dir hc he hd hr
        · intro hr
          cases hr with
          | metric hc' he' hm =>
            cases child_unique ht hc hc'
            rw [he] at he'; cases he'
            rw [(entry_dir ht he hd).1] at hm; cases hm
          | dir hc' he' hd' hr =>
            cases child_unique ht hc hc'
            rw [he] at he'; cases he'
            rw [hd] at hd'; cases hd'
            exact hr
      | none =>
        simp only
        constructor
        · intro hh
          split at hh
          · rename_i hp
            subst hp
            cases hm : en.metric with
            | none => rw [hm] at hh; simp at hh
            | some m =>
              rw [hm] at hh
              simp only [Option.map_some, Option.some.injEq] at hh
              subst hh
              exact .metric hc he hm
          · cases hh
        · intro hr
          cases hr with
          | metric hc' he' hm =>
            cases child_unique ht hc hc'
            rw [he] at he'; cases he'
            simp [hm]
          | dir hc' he' hd' hr =>
            cases child_unique ht hc hc'
            rw [he] at he'; cases he'
            rw [hd] at hd'; cases hd'

theorem resolve_none (ht : IsTree t) {d p} : t.resolve d p = none ↔ ∀ n, ¬ Reaches t d p n := by
  constructor
  · intro h n hr
    rw [(resolve_iff ht).mpr hr] at h
    cases h
  · intro h
    cases hr : t.resolve d p with
    | none => rfl
    | some n => exact absurd ((resolve_iff ht).mp hr) (h n)

end Tree

theorem exec_getEntry (d : ℕ) (name : Str) (s : State) :
    exec w (.getEntry d name) s = (s, s.tree.entryAt d name) := rfl

/-- an entry that is not a directory is a metric -/
theorem entry_no_dir {V : Type} {t : Tree V} (ht : IsTree t) {e : ℕ} {en} (he : t.entries[e]? = some en)
    (hd : en.dir = none) : ∃ m, en.metric = some m := by
  rcases ht.entry e en he with ⟨m, mo, h1, _⟩ | ⟨d', _, h2, _⟩
  · exact ⟨m, h1⟩
  · rw [hd] at h2; cases h2

theorem getDirectory_run (ht : IsTree s.tree) (d : ℕ) (p : List Str) :
    (getDirectory d p).run w s = (s, match s.tree.resolve d p with
      | some (.dir d') => some d'
      | _ => none) := by
  induction p generalizing d with
  | nil => rfl
  | cons name p ih =>
    simp only [getDirectory, Prog.run, exec_getEntry, resolve]
    cases h : s.tree.entryAt d name with
    | none => rfl
    | some x =>
      obtain ⟨e, en⟩ := x
      simp only
      cases hd : en.dir with
      | some d' => simp only; exact ih d'
      | none =>
        simp only [Prog.run]
        by_cases hp : p = []
        · simp only [if_pos hp]
          cases en.metric <;> rfl
        · simp only [if_neg hp]

/-- the result of `GetDirectory` -/
inductive DirResult (t : Tree MValue) (d : ℕ) (p : List Str) : Except RegErr ℕ → Prop where
  | found {d'} : Reaches t d p (.dir d') → DirResult t d p (.ok d')
  /-- the first component that is not a directory is missing -/
  | missing {a name b d'} : p = a ++ name :: b → Reaches t d a (.dir d') →
      (∀ n, ¬ Reaches t d (a ++ [name]) n) → DirResult t d p (.error .notFound)
  /-- the first component that is not a directory is a metric -/
  | inUse {a name b d' m} : p = a ++ name :: b → Reaches t d a (.dir d') →
      Reaches t d (a ++ [name]) (.metric m) → DirResult t d p (.error .pathInUse)

theorem getDirectoryAndError_run (ht : IsTree s.tree) (d : ℕ) (p : List Str) :
    ((getDirectoryAndError d p).run w s).1 = s ∧
      DirResult s.tree d p ((getDirectoryAndError d p).run w s).2 := by
  induction p generalizing d with
  | nil => exact ⟨rfl, .found (.here d)⟩
  | cons name p ih =>
    simp only [getDirectoryAndError, Prog.run, exec_getEntry]
    cases h : s.tree.entryAt d name with
    | none =>
      refine ⟨rfl, .missing (a := []) (name := name) (b := p) rfl (.here d) ?_⟩
      intro n hr
      rw [List.nil_append] at hr
      obtain ⟨e, en, hc, _⟩ := (reaches_one_iff ht).mp hr
      exact (entryAt_none ht).mp h e hc
    | some x =>
      obtain ⟨e, en⟩ := x
      obtain ⟨hc, he⟩ := (entryAt_some ht).mp h
      simp only
      cases hd : en.dir with
      | some d' =>
        simp only
        obtain ⟨h1, h2⟩ := ih d'
        refine ⟨h1, ?_⟩
        generalize ((getDirectoryAndError d' p).run w s).2 = r at h2 ⊢
        cases h2 with
        | found hr => exact .found (.dir hc he hd hr)
        | missing a b c =>
          refine .missing (a := name :: _) (by rw [a]; rfl) (.dir hc he hd b) ?_
          intro n hr
          refine c n ?_
          have : Reaches s.tree d [name] (.dir d') := .dir hc he hd (.here d')
          exact reaches_suffix ht (p := [name]) hr this
        | inUse a b c => exact .inUse (a := name :: _) (by rw [a]; rfl) (.dir hc he hd b) (.dir hc he hd c)
      | none =>
        obtain ⟨m, hm⟩ := entry_no_dir ht he hd
        exact ⟨rfl, .inUse (a := []) (name := name) (b := p) rfl (.here d) (.metric hc he hm)⟩

theorem DirResult_unique {t : Tree MValue} (ht : IsTree t) {d p r1 r2} (h1 : DirResult t d p r1)
    (h2 : DirResult t d p r2) : r1 = r2 := by
  have key : ∀ {a name b a' name' b' : _} {d1 d2 : ℕ}, a ++ name :: b = a' ++ name' :: b' →
      Reaches t d a (.dir d1) → Reaches t d a' (.dir d2) →
      (∀ d3, ¬ Reaches t d (a ++ [name]) (.dir d3)) → (∀ d3, ¬ Reaches t d (a' ++ [name']) (.dir d3)) →
      a ++ [name] = a' ++ [name'] := by
    intro a name b a' name' b' d1 d2 he hr1 hr2 hn1 hn2
    rcases lt_trichotomy a.length a'.length with hl | hl | hl
    · exfalso
      have : (a ++ [name]) <+: a' := by
        apply List.prefix_of_prefix_length_le (l₃ := a ++ name :: b)
        · exact ⟨b, by simp⟩
        · rw [he]; exact ⟨name' :: b', rfl⟩
        · simp; omega
      obtain ⟨r, hr⟩ := this
      subst hr
      by_cases hrr : r = []
      · subst hrr; rw [List.append_nil] at hr2; exact hn1 _ hr2
      · obtain ⟨d', h3, _⟩ := reaches_split hr2 hrr
        exact hn1 _ h3
    · obtain ⟨x, y⟩ := List.append_inj he hl
      simp at y
      rw [x, y.1]
    · exfalso
      have : (a' ++ [name']) <+: a := by
        apply List.prefix_of_prefix_length_le (l₃ := a' ++ name' :: b')
        · exact ⟨b', by simp⟩
        · rw [← he]; exact ⟨name :: b, rfl⟩
        · simp; omega
      obtain ⟨r, hr⟩ := this
      subst hr
      by_cases hrr : r = []
      · subst hrr; rw [List.append_nil] at hr1; exact hn2 _ hr1
      · obtain ⟨d', h3, _⟩ := reaches_split hr1 hrr
        exact hn2 _ h3
  have notd : ∀ {a : List Str} {name : Str} {b : List Str} {d1 : ℕ}, Reaches t d (a ++ name :: b) (.dir d1) →
      ∃ d3, Reaches t d (a ++ [name]) (.dir d3) := by
    intro a name b d1 hr
    rw [show a ++ name :: b = (a ++ [name]) ++ b by simp] at hr
    by_cases hb : b = []
    · subst hb; rw [List.append_nil] at hr; exact ⟨_, hr⟩
    · obtain ⟨d', h3, _⟩ := reaches_split hr hb
      exact ⟨_, h3⟩
  have md : ∀ {q m d3}, Reaches t d q (.metric m) → ¬ Reaches t d q (.dir d3) := by
    intro q m d3 ha hb
    cases reaches_unique ht ha hb
  cases h1 with
  | found ha =>
    cases h2 with
    | found hb => cases reaches_unique ht ha hb; rfl
    | missing e x y =>
      subst e
      obtain ⟨d3, h⟩ := notd ha
      exact absurd h (y _)
    | inUse e x y =>
      subst e
      obtain ⟨d3, h⟩ := notd ha
      exact absurd h (md y)
  | missing e x y =>
    cases h2 with
    | found hb =>
      subst e
      obtain ⟨d3, h⟩ := notd hb
      exact absurd h (y _)
    | missing e' x' y' => rfl
    | inUse e' x' y' =>
      have := key (e.symm.trans e') x x' (fun _ => y _) (fun _ => md y')
      rw [this] at y
      exact absurd y' (y _)
  | inUse e x y =>
    cases h2 with
    | found hb =>
      subst e
      obtain ⟨d3, h⟩ := notd hb
      exact absurd h (md y)
    | missing e' x' y' =>
      have := key (e.symm.trans e') x x' (fun _ => md y) (fun _ => y' _)
      rw [this] at y
      exact absurd y (y' _)
    | inUse e' x' y' => rfl

theorem pathDir_base {p : List Str} (h : p ≠ []) :
    pathDir p = some p.dropLast ∧ pathBase p = some (p.getLast h) := by
  have hl : p.length ≠ 0 := by simpa using h
  constructor
  · rw [pathDir, if_neg hl, List.dropLast_eq_take]
  · rw [pathBase, if_neg hl, List.getLast_eq_getElem, List.getElem?_eq_getElem]

/-- looking up -/
theorem getDirectoryOrMetric_run (ht : IsTree s.tree) (d : ℕ) (p : List Str) :
    (getDirectoryOrMetric d p).run w s = (s, match s.tree.resolve d p with
      | some (.dir d') => (some d', none)
      | some (.metric m) => (none, some m)
      | none => (none, none)) := by
  by_cases hp : p = []
  · subst hp; rfl
  · obtain ⟨h1, h2⟩ := pathDir_base hp
    unfold getDirectoryOrMetric
    simp only [h1, h2]
    rw [run_bind, getDirectory_run ht]
    simp only
    cases hr : s.tree.resolve d p.dropLast with
    | none =>
      simp only [Prog.run]
      have : s.tree.resolve d p = none := by
        rw [resolve_none ht] at hr ⊢
        intro n hn
        rw [← List.dropLast_append_getLast hp] at hn
        obtain ⟨d', h3, _⟩ := reaches_snoc_iff.mp hn
        exact hr _ h3
      rw [this]
    | some x =>
      rw [resolve_iff ht] at hr
      cases x with
      | metric m =>
        simp only [Prog.run]
        have : s.tree.resolve d p = none := by
          rw [resolve_none ht]
          intro n hn
          rw [← List.dropLast_append_getLast hp] at hn
          obtain ⟨d', h3, _⟩ := reaches_snoc_iff.mp hn
          cases reaches_unique ht hr h3
        rw [this]
      | dir d' =>
        simp only [Prog.run, exec_getEntry]
        cases he : s.tree.entryAt d' (p.getLast hp) with
        | none =>
          simp only [Prog.run]
          have : s.tree.resolve d p = none := by
            rw [resolve_none ht]
            intro n hn
            rw [← List.dropLast_append_getLast hp] at hn
            have := reaches_suffix ht hn hr
            obtain ⟨e, en, hc, _⟩ := (reaches_one_iff ht).mp this
            exact (entryAt_none ht).mp he e hc
          rw [this]
        | some x =>
          obtain ⟨e, en⟩ := x
          obtain ⟨hc, hen⟩ := (entryAt_some ht).mp he
          simp only [Prog.run]
          cases hd : en.dir with
          | some d2 =>
            have : s.tree.resolve d p = some (.dir d2) := by
              rw [resolve_iff ht, ← List.dropLast_append_getLast hp]
              exact reaches_trans hr (.dir hc hen hd (.here d2))
            rw [this, (entry_dir ht hen hd).1]
          | none =>
            obtain ⟨m, hm⟩ := entry_no_dir ht hen hd
            have : s.tree.resolve d p = some (.metric m) := by
              rw [resolve_iff ht, ← List.dropLast_append_getLast hp]
              exact reaches_trans hr (.metric hc hen hm)
            rw [this, hm]

/-- `RegisterDirectory` run alone -/
theorem registerDirectory_run (ht : IsTree s.tree) {d : ℕ} (hd : d < s.tree.dirs.length)
    {p : List Str} (hp : ∀ x ∈ p, GoodName x) :
    let r := (registerDirectory d p).run w s
    r.1 = { s with tree := r.1.tree } ∧ IsTree r.1.tree ∧ Ext s.tree r.1.tree ∧
    (∀ d0 q n, Reaches s.tree d0 q n → Reaches r.1.tree d0 q n) ∧
    (∀ (m : ℕ) mo, r.1.tree.metrics[m]? = some mo → s.tree.metrics[m]? = some mo) ∧
    ((∃ u m, u <+: p ∧ Reaches s.tree d u (.metric m) ∧ r.2 = .error .pathInUse ∧
        r.1.tree = s.tree) ∨
     (∃ d', r.2 = .ok d' ∧ Reaches r.1.tree d p (.dir d') ∧
      (∀ d0 q n, d0 < s.tree.dirs.length → Reaches r.1.tree d0 q n → Reaches s.tree d0 q n ∨
        ∃ u, u ≠ [] ∧ u <+: p ∧ Reaches r.1.tree d u n ∧ ∀ n', ¬ Reaches s.tree d u n'))) := by
  induction p generalizing d s with
  | nil =>
    refine ⟨rfl, ht, Ext.refl _, fun _ _ _ h => h, fun _ _ h => h, Or.inr ⟨d, rfl, .here d, ?_⟩⟩
    intro d0 q n _ h
    exact Or.inl h
  | cons name p ih =>
    have hg := hp name List.mem_cons_self
    have hp' : ∀ x ∈ p, GoodName x := fun x hx => hp x (List.mem_cons_of_mem _ hx)
    simp only [registerDirectory, Prog.run, exec]
    cases h : s.tree.getEntry d name with
    | none =>
      have hnew : NewEntry s.tree ⟨name, none, some s.tree.dirs.length, s.tree.enclosing d⟩
          [⟨some s.tree.entries.length, []⟩] [] := Or.inl ⟨rfl, rfl, rfl, rfl⟩
      have ht1 := isTree_createDir ht hd hg
      rw [createDir_new h] at ht1 ⊢
      simp only at ht1 ⊢
      obtain ⟨i1, i2, i3, i4, i5, i6⟩ := ih (s := { s with tree := (s.tree.link d
        ⟨name, none, some s.tree.dirs.length, s.tree.enclosing d⟩
        [⟨some s.tree.entries.length, []⟩] []) }) (d := s.tree.dirs.length) ht1
        (by simp only [link_length]; simp) hp'
      simp only at i1 i2 i3 i4 i5 i6
      refine ⟨i1, i2, (ext_link _ _ _ _ _).trans i3,
        fun d0 q n hr => i4 _ _ _ (link_mono ht hd _ _ _ hr), ?_, ?_⟩
      · intro m mo hm
        have := i5 m mo hm
        rw [link_metrics, List.append_nil] at this
        exact this
      · rcases i6 with ⟨u, m, h1, h2, _⟩ | ⟨d', h1, h2, h3⟩
        · cases (link_new_empty hd hnew rfl h2).2
        · have hstep : Reaches (s.tree.link d
              ⟨name, none, some s.tree.dirs.length, s.tree.enclosing d⟩
              [⟨some s.tree.entries.length, []⟩] []) d [name] (.dir s.tree.dirs.length) :=
            (reaches_link ht hd hnew hd).mpr (Or.inr ⟨[], .here d, rfl, rfl⟩)
          have hno : ∀ q n, ¬ Reaches s.tree d (name :: q) n := by
            intro q n hr
            cases hr with
            | metric hc _ _ => exact getEntry_none_iff.mp h _ hc
            | dir hc _ _ _ => exact getEntry_none_iff.mp h _ hc
          refine Or.inr ⟨d', h1, reaches_trans (i4 _ _ _ hstep) h2, ?_⟩
          intro d0 q n h0 hr
          rcases h3 d0 q n (by rw [link_length]; omega) hr with hx | ⟨u, hu0, hu1, hu2, hu3⟩
          · rcases (reaches_link ht hd hnew h0).mp hx with hy | ⟨q', hq1, hq2, hq3⟩
            · exact Or.inl hy
            · refine Or.inr ⟨[name], by simp, ⟨p, rfl⟩, ?_, hno []⟩
              cases n with
              | metric m => cases hq3
              | dir x => cases hq3; exact i4 _ _ _ hstep
          · refine Or.inr ⟨name :: u, by simp, ?_, reaches_trans (i4 _ _ _ hstep) hu2, hno u⟩
            obtain ⟨z, hz⟩ := hu1
            exact ⟨z, by rw [← hz]; rfl⟩
    | some e =>
      have hc := getEntry_some h
      obtain ⟨en, he, _⟩ := ht.child _ _ _ hc
      cases hdd : en.dir with
      | none =>
        rw [createDir_err h he hdd]
        obtain ⟨m, hm⟩ := entry_no_dir ht he hdd
        refine ⟨rfl, ht, Ext.refl _, fun _ _ _ h => h, fun _ _ h => h, Or.inl ⟨[name], m, ⟨p, rfl⟩, .metric hc he hm, rfl, rfl⟩⟩
      | some d' =>
        rw [createDir_old h he hdd]
        have hstep : Reaches s.tree d [name] (.dir d') := .dir hc he hdd (.here d')
        obtain ⟨i1, i2, i3, i4, i5, i6⟩ := ih (s := s) (d := d') ht (entry_dir ht he hdd).2.2.1 hp'
        refine ⟨i1, i2, i3, i4, i5, ?_⟩
        rcases i6 with ⟨u, m, ⟨z, hz⟩, h2, h3, h4⟩ | ⟨d2, h1, h2, h3⟩
        · exact Or.inl ⟨name :: u, m, ⟨z, by rw [← hz]; rfl⟩, .dir hc he hdd h2, h3, h4⟩
        · refine Or.inr ⟨d2, h1, reaches_trans (i4 _ _ _ hstep) h2, ?_⟩
          intro d0 q n h0 hr
          rcases h3 d0 q n h0 hr with hx | ⟨u, hu0, ⟨z, hz⟩, hu2, hu3⟩
          · exact Or.inl hx
          · refine Or.inr ⟨name :: u, by simp, ⟨z, by rw [← hz]; rfl⟩, reaches_trans (i4 _ _ _ hstep) hu2, ?_⟩
            intro n' hn'
            exact hu3 n' (reaches_suffix ht (p := [name]) hn' hstep)

end Tricorder
