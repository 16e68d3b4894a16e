import Verif.Proof.Tree
/-!
# Paths in the tree
-/

namespace Tricorder
open Go Spec

variable {V : Type} {t : Tree V}

namespace Tree

theorem child_unique (ht : IsTree t) {d name e1 e2} (h1 : Child t d name e1)
    (h2 : Child t d name e2) : e1 = e2 := by
  have a := (getEntry_iff ht).mpr h1
  have b := (getEntry_iff ht).mpr h2
  rw [a] at b
  exact Option.some.inj b

theorem child_entry (ht : IsTree t) {d name e en} (h : Child t d name e)
    (he : t.entries[e]? = some en) : en.name = name ∧ en.parent = t.enclosing d := by
  obtain ⟨en', h1, h2, h3⟩ := ht.child d name e h
  rw [he] at h1
  cases h1
  exact ⟨h2, h3⟩

theorem child_lt (ht : IsTree t) {d name e} (h : Child t d name e) : d < t.dirs.length := by
  by_contra hd
  unfold Child at h
  rw [contents_invalid t hd] at h
  exact absurd h List.not_mem_nil

theorem entry_dir (ht : IsTree t) {e : ℕ} {en d} (he : t.entries[e]? = some en)
    (hd : en.dir = some d) : en.metric = none ∧ 0 < d ∧ d < t.dirs.length ∧ t.enclosing d = some e := by
  rcases ht.entry e en he with ⟨m, mo, _, h2, _, _⟩ | ⟨d', h1, h2, h3, h4, h5⟩
  · rw [hd] at h2; exact absurd h2 (by simp)
  · rw [hd] at h2; cases h2; exact ⟨h1, h3, h4, h5⟩

theorem entry_metric (ht : IsTree t) {e : ℕ} {en m} (he : t.entries[e]? = some en)
    (hm : en.metric = some m) : en.dir = none ∧ ∃ mo, t.metrics[m]? = some mo ∧ mo.enclosing = e := by
  rcases ht.entry e en he with ⟨m', mo, h1, h2, h3, h4⟩ | ⟨d', h1, _⟩
  · rw [hm] at h1; cases h1; exact ⟨h2, mo, h3, h4⟩
  · rw [hm] at h1; exact absurd h1 (by simp)

/-- a path denotes at most one object -/
theorem reaches_unique (ht : IsTree t) {d p n1 n2} (h1 : Reaches t d p n1) (h2 : Reaches t d p n2) :
    n1 = n2 := by
  induction h1 with
  | here d =>
    cases h2; rfl
  | metric hc he hm =>
    cases h2 with
    | metric hc' he' hm' =>
      cases child_unique ht hc hc'
      rw [he] at he'; cases he'
      rw [hm] at hm'; cases hm'; rfl
    | dir hc' he' hd' _ =>
      cases child_unique ht hc hc'
      rw [he] at he'; cases he'
      rw [(entry_dir ht he hd').1] at hm; cases hm
  | dir hc he hd _ ih =>
    cases h2 with
    | metric hc' he' hm' =>
      cases child_unique ht hc hc'
      rw [he] at he'; cases he'
      rw [(entry_dir ht he hd).1] at hm'; cases hm'
    | dir hc' he' hd' hr =>
      cases child_unique ht hc hc'
      rw [he] at he'; cases he'
      rw [hd] at hd'; cases hd'
      exact ih hr

theorem reaches_trans {d p d' q n} (h1 : Reaches t d p (.dir d')) (h2 : Reaches t d' q n) :
    Reaches t d (p ++ q) n := by
  generalize hn : Node.dir d' = x at h1
  induction h1 with
  | here d => cases hn; exact h2
  | metric => cases hn
  | dir hc he hd _ ih => exact .dir hc he hd (ih hn)

theorem reaches_split {d p q n} (h : Reaches t d (p ++ q) n) (hq : q ≠ []) :
    ∃ d', Reaches t d p (.dir d') ∧ Reaches t d' q n := by
  induction p generalizing d with
  | nil => exact ⟨d, .here d, h⟩
  | cons x p ih =>
    generalize hp : (x :: p) ++ q = r at h
    cases h with
    | here => simp at hp
    | metric hc he hm =>
      simp at hp
      exact absurd hp.2.2 hq
    | dir hc he hd hr =>
      simp at hp
      obtain ⟨rfl, rfl⟩ := hp
      obtain ⟨d', h1, h2⟩ := ih hr
      exact ⟨d', .dir hc he hd h1, h2⟩

/-- prefixes of a path that denotes something denote something -/
theorem reaches_prefix {d p q n} (h : Reaches t d (p ++ q) n) : ∃ n', Reaches t d p n' := by
  by_cases hq : q = []
  · subst hq; rw [List.append_nil] at h; exact ⟨n, h⟩
  · obtain ⟨d', h1, _⟩ := reaches_split h hq
    exact ⟨_, h1⟩

theorem reaches_suffix (ht : IsTree t) {d p q d' n} (h : Reaches t d (p ++ q) n)
    (hp : Reaches t d p (.dir d')) : Reaches t d' q n := by
  by_cases hq : q = []
  · subst hq
    rw [List.append_nil] at h
    cases reaches_unique ht h hp
    exact .here d'
  · obtain ⟨d2, h1, h2⟩ := reaches_split h hq
    cases reaches_unique ht h1 hp
    exact h2

theorem reaches_metric_prefix (ht : IsTree t) {d p q m n} (h : Reaches t d (p ++ q) n)
    (hp : Reaches t d p (.metric m)) : q = [] := by
  by_contra hq
  obtain ⟨d', h1, _⟩ := reaches_split h hq
  cases reaches_unique ht h1 hp

/-- one step: what an entry under a name holds -/
theorem reaches_one_iff (ht : IsTree t) {d name n} :
    Reaches t d [name] n ↔ ∃ e en, Child t d name e ∧ t.entries[e]? = some en ∧ Holds en n := by
  constructor
  · intro h
    cases h with
    | metric hc he hm => exact ⟨_, _, hc, he, hm⟩
    | dir hc he hd hr =>
      cases hr with
      | here => exact ⟨_, _, hc, he, hd⟩
  · rintro ⟨e, en, hc, he, hh⟩
    cases n with
    | dir d' => exact .dir hc he hh (.here d')
    | metric m => exact .metric hc he hh

theorem reaches_cons_iff {d name p n} (hp : p ≠ []) :
    Reaches t d (name :: p) n ↔ ∃ d', Reaches t d [name] (.dir d') ∧ Reaches t d' p n := by
  constructor
  · intro h
    exact reaches_split (p := [name]) h hp
  · rintro ⟨d', h1, h2⟩
    exact reaches_trans h1 h2

theorem reaches_nil_iff {d n} : Reaches t d [] n ↔ n = .dir d := by
  constructor
  · intro h; cases h; rfl
  · rintro rfl; exact .here d

theorem reaches_snoc_iff {d p name n} :
    Reaches t d (p ++ [name]) n ↔ ∃ d', Reaches t d p (.dir d') ∧ Reaches t d' [name] n := by
  constructor
  · intro h
    exact reaches_split h (by simp)
  · rintro ⟨d', h1, h2⟩
    exact reaches_trans h1 h2

theorem reaches_lt (ht : IsTree t) {d p d'} (h : Reaches t d p (.dir d')) (hd : d < t.dirs.length) :
    d' < t.dirs.length := by
  generalize hn : Node.dir d' = x at h
  induction h with
  | here d => cases hn; exact hd
  | metric => cases hn
  | dir hc he hdd _ ih => exact ih (entry_dir ht he hdd).2.2.1 hn

theorem reaches_good (ht : IsTree t) {d p n} (h : Reaches t d p n) : ∀ x ∈ p, GoodName x := by
  induction h with
  | here => simp
  | metric hc he hm =>
    intro x hx
    rw [List.mem_singleton] at hx
    subst hx
    rw [← (child_entry ht hc he).1]
    exact ht.names _ _ he
  | dir hc he hd _ ih =>
    intro x hx
    rcases List.mem_cons.mp hx with hh | hh
    · subst hh
      rw [← (child_entry ht hc he).1]
      exact ht.names _ _ he
    · exact ih x hh

theorem root_iff (ht : IsTree t) {d} (hd : d < t.dirs.length) : t.enclosing d = none ↔ d = 0 := by
  constructor
  · intro h
    by_contra h0
    obtain ⟨e, en, h1, _⟩ := ht.dirs d (by omega) hd
    rw [h] at h1
    cases h1
  · rintro rfl
    exact ht.root

theorem enclosing_inj (ht : IsTree t) {d1 d2} (h1 : d1 < t.dirs.length) (h2 : d2 < t.dirs.length)
    (h : t.enclosing d1 = t.enclosing d2) : d1 = d2 := by
  by_cases h0 : d1 = 0
  · subst h0
    rw [ht.root] at h
    exact ((root_iff ht h2).mp h.symm).symm
  · obtain ⟨e, en, a, b, c⟩ := ht.dirs d1 (by omega) h1
    have h0' : d2 ≠ 0 := by
      rintro rfl
      rw [ht.root, a] at h; cases h
    obtain ⟨e', en', a', b', c'⟩ := ht.dirs d2 (by omega) h2
    rw [a, a'] at h
    cases h
    rw [b] at b'; cases b'
    rw [c] at c'; cases c'; rfl

/-! ### walking up -/

theorem pathUp_succ {stop fuel cur x} (h : t.pathUp stop fuel cur = some x) :
    t.pathUp stop (fuel + 1) cur = some x := by
  induction fuel generalizing cur x with
  | zero => simp [pathUp] at h
  | succ n ih =>
    unfold pathUp at h
    unfold pathUp
    split at h
    · rename_i hh; rw [if_pos hh]; exact h
    · rename_i hh
      rw [if_neg hh]
      cases cur with
      | none => exact h
      | some e =>
        simp only at h ⊢
        cases he : t.entries[e]? with
        | none => rw [he] at h; simp at h
        | some en =>
          rw [he] at h
          simp only at h ⊢
          cases hp : t.pathUp stop n en.parent with
          | none => rw [hp] at h; simp at h
          | some y =>
            rw [hp] at h
            rw [ih hp]
            exact h

theorem pathUp_mono {stop f g cur x} (h : t.pathUp stop f cur = some x) (hfg : f ≤ g) :
    t.pathUp stop g cur = some x := by
  induction hfg with
  | refl => exact h
  | step _ ih => exact pathUp_succ ih

theorem pathUp_det {stop f g cur x y} (h1 : t.pathUp stop f cur = some x)
    (h2 : t.pathUp stop g cur = some y) : x = y := by
  have a := pathUp_mono h1 (Nat.le_max_left f g)
  have b := pathUp_mono h2 (Nat.le_max_right f g)
  rw [a] at b
  exact Option.some.inj b

/-- every walk up ends -/
theorem pathUp_total (ht : IsTree t) (stop : Option ℕ) {e : ℕ} {en} (he : t.entries[e]? = some en) :
    ∃ x, t.pathUp stop (e + 2) (some e) = some x := by
  induction e using Nat.strongRecOn generalizing en with
  | _ e ih =>
    rw [pathUp]
    split
    · exact ⟨_, rfl⟩
    · simp only [he]
      cases hp : en.parent with
      | none =>
        refine ⟨([en.name], none), ?_⟩
        rw [pathUp]
        simp
      | some p =>
        obtain ⟨hlt, pe, pd, h1, h2⟩ := ht.parent e en p he hp
        obtain ⟨x, hx⟩ := ih p hlt h1
        rw [pathUp_mono hx (show p + 2 ≤ e + 1 by omega)]
        exact ⟨_, rfl⟩

theorem pathUp_full (ht : IsTree t) (stop : Option ℕ) {cur : Option ℕ}
    (hc : ∀ e, cur = some e → ∃ en, t.entries[e]? = some en) :
    ∃ x, t.pathUp stop (t.entries.length + 1) cur = some x := by
  cases cur with
  | none => exact ⟨([], none), by rw [pathUp]; simp⟩
  | some e =>
    obtain ⟨en, he⟩ := hc e rfl
    obtain ⟨x, hx⟩ := pathUp_total ht stop he
    exact ⟨x, pathUp_mono hx (by have := entry_lt he; omega)⟩

theorem pathUp_step {fuel : ℕ} {e : ℕ} {en names c} (he : t.entries[e]? = some en)
    (h : t.pathUp none fuel en.parent = some (names, c)) :
    t.pathUp none (fuel + 1) (some e) = some (en.name :: names, c) := by
  rw [pathUp, if_neg (by simp)]
  simp only [he, h]

/-- the names on the way up are those of the way down, reversed -/
theorem pathUp_reaches (ht : IsTree t) {d p d'} (h : Reaches t d p (.dir d')) {fuel names c}
    (hn : t.pathUp none fuel (t.enclosing d) = some (names, c)) :
    t.pathUp none (fuel + p.length) (t.enclosing d') = some (p.reverse ++ names, c) := by
  generalize hx : Node.dir d' = x at h
  induction h generalizing fuel names with
  | here d => cases hx; exact hn
  | metric => cases hx
  | dir hc he hd _ ih =>
    obtain ⟨h1, h2⟩ := child_entry ht hc he
    have := ih (fuel := fuel + 1) (by
      rw [(entry_dir ht he hd).2.2.2]
      exact pathUp_step he (by rw [h2]; exact hn)) hx
    rw [List.length_cons, show ∀ a b : ℕ, a + (b + 1) = a + 1 + b from by omega, this]
    simp [h1]

theorem pathUp_root (ht : IsTree t) : t.pathUp none 1 (t.enclosing 0) = some ([], none) := by
  rw [ht.root, pathUp]; simp

theorem absPath_dir (ht : IsTree t) {p d} (h : Reaches t 0 p (.dir d)) :
    t.pathFrom (t.enclosing d) 0 = some p := by
  have h1 := pathUp_reaches ht h (pathUp_root ht)
  have hlt := reaches_lt ht h ht.rootIn
  obtain ⟨x, hx⟩ := pathUp_full ht none (cur := t.enclosing d) (by
    intro e he
    have h0 : d ≠ 0 := by rintro rfl; rw [ht.root] at he; cases he
    obtain ⟨e', en, a, b, _⟩ := ht.dirs d (by omega) hlt
    rw [he] at a; cases a; exact ⟨en, b⟩)
  have := pathUp_det h1 hx
  subst this
  unfold pathFrom
  rw [ht.root, hx]
  simp

theorem absPath_metric (ht : IsTree t) {p m} (h : Reaches t 0 p (.metric m)) :
    ∃ mo, t.metrics[m]? = some mo ∧ t.pathFrom (some mo.enclosing) 0 = some p := by
  have hp : p ≠ [] := by rintro rfl; cases h
  rw [← List.dropLast_append_getLast hp] at h
  obtain ⟨d, h1, h2⟩ := reaches_snoc_iff.mp h
  obtain ⟨e, en, hc, he, hh⟩ := (reaches_one_iff ht).mp h2
  obtain ⟨-, mo, hm, hme⟩ := entry_metric ht he hh
  refine ⟨mo, hm, ?_⟩
  subst hme
  have hup := pathUp_reaches ht h1 (pathUp_root ht)
  obtain ⟨a, b⟩ := child_entry ht hc he
  have hs := pathUp_step he (by rw [b]; exact hup)
  obtain ⟨x, hx⟩ := pathUp_full ht none (cur := some mo.enclosing) (by
    intro e he'; cases he'; exact ⟨en, he⟩)
  have := pathUp_det hs hx
  subst this
  unfold pathFrom
  rw [ht.root, hx]
  simp [a, List.dropLast_append_getLast hp]

/-- a directory is reached from another by at most one path -/
theorem reaches_path_unique (ht : IsTree t) {d p q d'} (h1 : Reaches t d p (.dir d'))
    (h2 : Reaches t d q (.dir d')) (hd : d < t.dirs.length) : p = q := by
  obtain ⟨x, hx⟩ := pathUp_full ht none (cur := t.enclosing d) (by
    intro e he
    have h0 : d ≠ 0 := by rintro rfl; rw [ht.root] at he; cases he
    obtain ⟨e', en, a, b, _⟩ := ht.dirs d (by omega) hd
    rw [he] at a; cases a; exact ⟨en, b⟩)
  obtain ⟨names, c⟩ := x
  have a := pathUp_reaches ht h1 hx
  have b := pathUp_reaches ht h2 hx
  have := pathUp_det a b
  simp only [Prod.mk.injEq] at this
  have h := List.append_cancel_right this.1
  exact List.reverse_injective h

/-- no directory is below itself -/
theorem reaches_self (ht : IsTree t) {d p} (h : Reaches t d p (.dir d)) (hd : d < t.dirs.length) :
    p = [] := reaches_path_unique ht h (.here d) hd

end Tree

end Tricorder
