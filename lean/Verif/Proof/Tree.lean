import Verif.Spec.Tree
import Verif.Proof.Path
import Mathlib.Data.List.Nodup
/-!
# The tree operations preserve the tree invariant
-/

namespace Tricorder
open Go Spec

variable {V : Type}

namespace Tree

theorem setContents_entries (t : Tree V) (d c) : (t.setContents d c).entries = t.entries := rfl
theorem setContents_metrics (t : Tree V) (d c) : (t.setContents d c).metrics = t.metrics := rfl
theorem setContents_length (t : Tree V) (d c) :
    (t.setContents d c).dirs.length = t.dirs.length := by simp [setContents]

theorem setContents_enclosing (t : Tree V) (d c) (d' : ℕ) :
    (t.setContents d c).enclosing d' = t.enclosing d' := by
  unfold enclosing setContents
  simp only [List.getElem?_modify]
  by_cases h : d = d'
  · simp only [h, if_true]
    cases t.dirs[d']? <;> simp
  · simp only [if_neg h]
    cases t.dirs[d']? <;> simp

theorem setContents_contents_ne (t : Tree V) {d c} {d' : ℕ} (h : d' ≠ d) :
    (t.setContents d c).contents d' = t.contents d' := by
  unfold contents setContents
  simp only [List.getElem?_modify]
  simp only [if_neg (fun hh => h (Eq.symm hh) : ¬ d = d')]
  cases t.dirs[d']? <;> simp

theorem setContents_contents_eq (t : Tree V) {d c} (h : d < t.dirs.length) :
    (t.setContents d c).contents d = c := by
  unfold contents setContents
  simp [List.getElem?_modify, h]

theorem setContents_contents_invalid (t : Tree V) {d c} (h : ¬ d < t.dirs.length) :
    t.setContents d c = t := by
  unfold setContents
  congr 1
  apply List.ext_getElem?
  intro i
  rw [List.getElem?_modify]
  by_cases hi : d = i
  · subst hi
    rw [List.getElem?_eq_none (by omega)]; rfl
  · simp only [if_neg hi]; simp

theorem contents_invalid (t : Tree V) {d} (h : ¬ d < t.dirs.length) : t.contents d = [] := by
  unfold contents
  rw [List.getElem?_eq_none (by omega)]

theorem enclosing_invalid (t : Tree V) {d} (h : ¬ d < t.dirs.length) : t.enclosing d = none := by
  unfold enclosing
  rw [List.getElem?_eq_none (by omega)]

theorem mem_erase {c : List (Str × ℕ)} {name : Str} {x : Str × ℕ} :
    x ∈ erase c name ↔ x ∈ c ∧ x.1 ≠ name := by
  simp [erase, List.mem_filter]

theorem erase_sublist (c : List (Str × ℕ)) (name : Str) : (erase c name).Sublist c :=
  List.filter_sublist

theorem lookup_some_mem {c : List (Str × ℕ)} {name : Str} {e : ℕ} (h : c.lookup name = some e) :
    (name, e) ∈ c := by
  induction c with
  | nil => simp at h
  | cons x xs ih =>
    obtain ⟨a, b⟩ := x
    rw [List.lookup_cons] at h
    by_cases hn : name == a
    · simp only [hn, if_true] at h
      have : name = a := by simpa using hn
      simp only [Option.some.injEq] at h
      rw [this, h]; exact List.mem_cons_self
    · have hf : (name == a) = false := by simpa using hn
      simp only [hf] at h
      exact List.mem_cons_of_mem _ (ih h)

theorem lookup_none_iff {c : List (Str × ℕ)} {name : Str} :
    c.lookup name = none ↔ ∀ e, (name, e) ∉ c := by
  constructor
  · intro h e he
    induction c with
    | nil => simp at he
    | cons x xs ih =>
      obtain ⟨a, b⟩ := x
      rw [List.lookup_cons] at h
      by_cases hn : name == a
      · simp [hn] at h
      · have hf : (name == a) = false := by simpa using hn
        simp only [hf] at h
        rcases List.mem_cons.mp he with h1 | h1
        · simp only [Prod.mk.injEq] at h1
          exact hn (by simp [h1.1])
        · exact ih h h1
  · intro h
    cases hl : c.lookup name with
    | none => rfl
    | some e => exact absurd (lookup_some_mem hl) (h e)

theorem lookup_eq_some_iff {c : List (Str × ℕ)} (hk : (c.map Prod.fst).Nodup) {name : Str} {e : ℕ} :
    c.lookup name = some e ↔ (name, e) ∈ c := by
  constructor
  · exact lookup_some_mem
  · intro h
    cases hl : c.lookup name with
    | none => exact absurd h (lookup_none_iff.mp hl e)
    | some e' =>
      have h' := lookup_some_mem hl
      have := List.inj_on_of_nodup_map hk h h' rfl
      simp only [Prod.mk.injEq, true_and] at this
      rw [this]

theorem getEntry_some {t : Tree V} {d name e} (h : t.getEntry d name = some e) :
    Child t d name e := lookup_some_mem h

theorem getEntry_iff {t : Tree V} (ht : IsTree t) {d name e} :
    t.getEntry d name = some e ↔ Child t d name e := lookup_eq_some_iff (ht.keys d)

theorem getEntry_none_iff {t : Tree V} {d name} :
    t.getEntry d name = none ↔ ∀ e, ¬ Child t d name e := lookup_none_iff

/-- replacing a map by a part of itself keeps the tree -/
theorem isTree_setContents_sub {t : Tree V} (ht : IsTree t) {d c}
    (hs : c.Sublist (t.contents d)) : IsTree (t.setContents d c) := by
  by_cases hd : d < t.dirs.length
  swap
  · rw [setContents_contents_invalid t hd]; exact ht
  have hc : ∀ d', ((t.setContents d c).contents d').Sublist (t.contents d') := by
    intro d'
    by_cases h : d' = d
    · subst h; rw [setContents_contents_eq t hd]; exact hs
    · rw [setContents_contents_ne t h]
  exact {
    rootIn := by rw [setContents_length]; exact ht.rootIn
    root := by rw [setContents_enclosing]; exact ht.root
    dirs := by
      intro d' h0 hl
      rw [setContents_length] at hl
      rw [setContents_enclosing, setContents_entries]
      exact ht.dirs d' h0 hl
    entry := by
      intro e en he
      rw [setContents_entries] at he
      simp only [setContents_length, setContents_enclosing, setContents_metrics]
      exact ht.entry e en he
    metrics := by
      intro m mo hm
      exact ht.metrics m mo hm
    parent := by
      intro e en p he hp
      exact ht.parent e en p he hp
    child := by
      intro d' name e h
      rw [setContents_enclosing, setContents_entries]
      exact ht.child d' name e ((hc d').subset h)
    keys := by
      intro d'
      exact ((hc d').map _).nodup (ht.keys d')
    names := by
      intro e en he
      exact ht.names e en he }

theorem isTree_removeEntry {t : Tree V} (ht : IsTree t) (d name) : IsTree (t.removeEntry d name) :=
  isTree_setContents_sub ht (erase_sublist _ _)

theorem isTree_removeChild {t : Tree V} (ht : IsTree t) (d child) :
    IsTree (t.removeChild d child) := by
  unfold removeChild
  split
  · exact ht
  · split
    · exact ht
    · split
      · exact isTree_setContents_sub ht (erase_sublist _ _)
      · exact ht

theorem isTree_unregisterDir {t : Tree V} (ht : IsTree t) (d) : IsTree (t.unregisterDir d) := by
  unfold unregisterDir
  split
  · exact ht
  · split
    · exact ht
    · exact isTree_removeChild ht _ _

/-! ### adding an entry -/

/-- the tree with a new entry `e` (and a new directory or metric) linked in directory `d` -/
def link (t : Tree V) (d : ℕ) (e : Entry) (ds : List Dir) (ms : List (MetricObj V)) : Tree V :=
  ({ t with dirs := t.dirs ++ ds, entries := t.entries ++ [e], metrics := t.metrics ++ ms } :
    Tree V).setContents d ((e.name, t.entries.length) :: t.contents d)

theorem link_entries (t : Tree V) (d e ds ms) : (t.link d e ds ms).entries = t.entries ++ [e] := rfl
theorem link_metrics (t : Tree V) (d e ds ms) : (t.link d e ds ms).metrics = t.metrics ++ ms := rfl
theorem link_length (t : Tree V) (d e ds ms) :
    (t.link d e ds ms).dirs.length = t.dirs.length + ds.length := by
  simp [link, setContents_length]

theorem link_enclosing_old (t : Tree V) (d e ds ms) {d' : ℕ} (h : d' < t.dirs.length) :
    (t.link d e ds ms).enclosing d' = t.enclosing d' := by
  unfold link
  rw [setContents_enclosing]
  unfold enclosing
  simp only
  rw [List.getElem?_append_left h]

theorem link_enclosing_new (t : Tree V) (d e x ms) :
    (t.link d e [x] ms).enclosing t.dirs.length = x.enclosing := by
  unfold link
  rw [setContents_enclosing]
  unfold enclosing
  simp

theorem link_contents_eq (t : Tree V) {d} (e ds ms) (h : d < t.dirs.length) :
    (t.link d e ds ms).contents d = (e.name, t.entries.length) :: t.contents d := by
  unfold link
  rw [setContents_contents_eq]
  simp only [List.length_append]; omega

theorem link_contents_old (t : Tree V) {d} (e ds ms) {d' : ℕ} (h : d' < t.dirs.length)
    (hne : d' ≠ d) : (t.link d e ds ms).contents d' = t.contents d' := by
  unfold link
  rw [setContents_contents_ne _ hne]
  unfold contents
  simp only
  rw [List.getElem?_append_left h]

theorem link_contents_new (t : Tree V) {d} (e x ms) (h : d < t.dirs.length) :
    (t.link d e [x] ms).contents t.dirs.length = x.contents := by
  unfold link
  rw [setContents_contents_ne _ (by omega)]
  unfold contents
  simp

theorem createDir_new {t : Tree V} {d name} (h : t.getEntry d name = none) :
    t.createDir d name =
      (t.link d ⟨name, none, some t.dirs.length, t.enclosing d⟩ [⟨some t.entries.length, []⟩] [],
        .ok t.dirs.length) := by
  unfold createDir
  rw [h]
  simp [link]

theorem createDir_old {t : Tree V} {d name e en d'} (h : t.getEntry d name = some e)
    (he : t.entries[e]? = some en) (hd : en.dir = some d') : t.createDir d name = (t, .ok d') := by
  unfold createDir
  obtain ⟨a, b, c, f⟩ := en
  simp only at hd
  subst hd
  simp only [h, he]

theorem createDir_err {t : Tree V} {d name e en} (h : t.getEntry d name = some e)
    (he : t.entries[e]? = some en) (hd : en.dir = none) :
    t.createDir d name = (t, .error .pathInUse) := by
  unfold createDir
  obtain ⟨a, b, c, f⟩ := en
  simp only at hd
  subst hd
  simp only [h, he]

theorem storeMetric_new {t : Tree V} {d name desc v} (h : t.getEntry d name = none) :
    t.storeMetric d name desc v =
      (t.link d ⟨name, some t.metrics.length, none, t.enclosing d⟩ []
        [⟨desc, v, t.entries.length⟩], .ok t.metrics.length) := by
  unfold storeMetric
  rw [h]
  simp [link]

theorem storeMetric_old {t : Tree V} {d name desc v e} (h : t.getEntry d name = some e) :
    t.storeMetric d name desc v = (t, .error .pathInUse) := by
  unfold storeMetric; rw [h]

theorem entries_append_some {t : Tree V} {e : Entry} {i : ℕ} {en : Entry}
    (h : t.entries[i]? = some en) : (t.entries ++ [e])[i]? = some en := by
  rw [List.getElem?_append_left]
  · exact h
  · exact (List.getElem?_eq_some_iff.mp h).1

theorem entry_lt {t : Tree V} {i : ℕ} {en : Entry} (h : t.entries[i]? = some en) :
    i < t.entries.length := (List.getElem?_eq_some_iff.mp h).1

/-- what `link` needs -/
theorem isTree_link {t : Tree V} (ht : IsTree t) {d : ℕ} (hd : d < t.dirs.length) {e : Entry}
    {ds : List Dir} {ms : List (MetricObj V)} (hn : t.getEntry d e.name = none)
    (hg : GoodName e.name) (hp : e.parent = t.enclosing d)
    (hcase : (e.metric = none ∧ e.dir = some t.dirs.length ∧ ds = [⟨some t.entries.length, []⟩] ∧
        ms = []) ∨
      (e.metric = some t.metrics.length ∧ e.dir = none ∧ ds = [] ∧
        ∃ mo, ms = [mo] ∧ mo.enclosing = t.entries.length)) :
    IsTree (t.link d e ds ms) := by
  have hnone := getEntry_none_iff.mp hn
  have hpar : ∀ p, e.parent = some p → p < t.entries.length ∧
      ∃ pe pd, t.entries[p]? = some pe ∧ pe.dir = some pd := by
    intro p hpp
    rw [hp] at hpp
    by_cases h0 : d = 0
    · subst h0; rw [ht.root] at hpp; cases hpp
    · obtain ⟨e', en', h1, h2, h3⟩ := ht.dirs d (by omega) hd
      rw [h1] at hpp
      cases hpp
      exact ⟨entry_lt h2, en', d, h2, h3⟩
  have hent : ∀ (i : ℕ) en, (t.link d e ds ms).entries[i]? = some en →
      (t.entries[i]? = some en) ∨ (i = t.entries.length ∧ en = e) := by
    intro i en h
    rw [link_entries] at h
    by_cases hi : i < t.entries.length
    · rw [List.getElem?_append_left hi] at h; exact Or.inl h
    · rw [List.getElem?_append_right (by omega)] at h
      right
      have : i - t.entries.length = 0 := by
        by_contra hne
        rw [List.getElem?_eq_none (by simp; omega)] at h
        cases h
      rw [this] at h
      simp at h
      exact ⟨by omega, h.symm⟩
  have hdirs : ds = [] ∨ ds = [⟨some t.entries.length, []⟩] := by
    rcases hcase with ⟨-, -, h, -⟩ | ⟨-, -, h, -⟩
    · exact Or.inr h
    · exact Or.inl h
  exact {
    rootIn := by rw [link_length]; have := ht.rootIn; omega
    root := by rw [link_enclosing_old _ _ _ _ _ ht.rootIn]; exact ht.root
    dirs := by
      intro d' h0 hl
      by_cases hlt : d' < t.dirs.length
      · rw [link_enclosing_old _ _ _ _ _ hlt, link_entries]
        obtain ⟨e', en', h1, h2, h3⟩ := ht.dirs d' h0 hlt
        exact ⟨e', en', h1, entries_append_some h2, h3⟩
      · rw [link_length] at hl
        rcases hcase with ⟨hm, hdd, hds, hms⟩ | ⟨hm, hdd, hds, -⟩
        · subst hds
          simp only [List.length_cons, List.length_nil] at hl
          have : d' = t.dirs.length := by omega
          subst this
          refine ⟨t.entries.length, e, link_enclosing_new _ _ _ _ _, ?_, hdd⟩
          rw [link_entries]; simp
        · subst hds
          simp at hl; omega
    entry := by
      intro i en h
      rcases hent i en h with h | ⟨h1, h2⟩
      · rcases ht.entry i en h with ⟨m, mo, h1, h2, h3, h4⟩ | ⟨d', h1, h2, h3, h4, h5⟩
        · refine Or.inl ⟨m, mo, h1, h2, ?_, h4⟩
          rw [link_metrics, List.getElem?_append_left (List.getElem?_eq_some_iff.mp h3).1]
          exact h3
        · refine Or.inr ⟨d', h1, h2, h3, ?_, ?_⟩
          · rw [link_length]; omega
          · rw [link_enclosing_old _ _ _ _ _ h4]; exact h5
      · subst h1 h2
        rcases hcase with ⟨hm, hdd, hds, hms⟩ | ⟨hm, hdd, hds, mo, hms, hme⟩
        · subst hds
          refine Or.inr ⟨t.dirs.length, hm, hdd, ?_, ?_, link_enclosing_new _ _ _ _ _⟩
          · exact ht.rootIn
          · rw [link_length]; simp
        · subst hms
          refine Or.inl ⟨t.metrics.length, mo, hm, hdd, ?_, hme⟩
          rw [link_metrics]; simp
    metrics := by
      intro m mo h
      rw [link_metrics] at h
      by_cases hm : m < t.metrics.length
      · rw [List.getElem?_append_left hm] at h
        obtain ⟨en, h1, h2⟩ := ht.metrics m mo h
        exact ⟨en, entries_append_some h1, h2⟩
      · rcases hcase with ⟨-, -, -, hms⟩ | ⟨hme, hdd, hds, mo', hms, hen⟩
        · subst hms
          simp only [List.append_nil] at h
          rw [List.getElem?_eq_none (by omega)] at h
          cases h
        · subst hms
          rw [List.getElem?_append_right (by omega)] at h
          have hz : m - t.metrics.length = 0 := by
            by_contra hne
            rw [List.getElem?_eq_none (by simp; omega)] at h
            cases h
          rw [hz] at h
          simp at h
          subst h
          refine ⟨e, ?_, ?_⟩
          · rw [link_entries, hen]; simp
          · rw [hme]; congr 1; omega
    parent := by
      intro i en p h hpp
      rw [link_entries]
      rcases hent i en h with h | ⟨h1, h2⟩
      · obtain ⟨h1, pe, pd, h2, h3⟩ := ht.parent i en p h hpp
        exact ⟨h1, pe, pd, entries_append_some h2, h3⟩
      · subst h1 h2
        obtain ⟨h1, pe, pd, h2, h3⟩ := hpar p hpp
        exact ⟨h1, pe, pd, entries_append_some h2, h3⟩
    child := by
      intro d' name i h
      rw [link_entries]
      unfold Child at h
      by_cases hdd : d' = d
      · subst hdd
        rw [link_contents_eq _ _ _ _ hd] at h
        rw [link_enclosing_old _ _ _ _ _ hd]
        rcases List.mem_cons.mp h with h | h
        · simp only [Prod.mk.injEq] at h
          obtain ⟨h1, h2⟩ := h
          subst h1 h2
          exact ⟨e, by simp, rfl, hp⟩
        · obtain ⟨en, h1, h2, h3⟩ := ht.child d' name i h
          exact ⟨en, entries_append_some h1, h2, h3⟩
      · by_cases hlt : d' < t.dirs.length
        · rw [link_contents_old _ _ _ _ hlt hdd] at h
          rw [link_enclosing_old _ _ _ _ _ hlt]
          obtain ⟨en, h1, h2, h3⟩ := ht.child d' name i h
          exact ⟨en, entries_append_some h1, h2, h3⟩
        · exfalso
          rcases hdirs with hds | hds <;> subst hds
          · rw [contents_invalid _ (by rw [link_length]; simp; omega)] at h
            cases h
          · by_cases heq : d' = t.dirs.length
            · subst heq
              rw [link_contents_new _ _ _ _ hd] at h
              cases h
            · rw [contents_invalid _ (by rw [link_length]; simp; omega)] at h
              cases h
    keys := by
      intro d'
      by_cases hdd : d' = d
      · subst hdd
        rw [link_contents_eq _ _ _ _ hd]
        simp only [List.map_cons, List.nodup_cons]
        refine ⟨?_, ht.keys d'⟩
        intro hmem
        obtain ⟨⟨a, b⟩, h1, h2⟩ := List.mem_map.mp hmem
        simp only at h2
        subst h2
        exact hnone b h1
      · by_cases hlt : d' < t.dirs.length
        · rw [link_contents_old _ _ _ _ hlt hdd]; exact ht.keys d'
        · rcases hdirs with hds | hds <;> subst hds
          · rw [contents_invalid _ (by rw [link_length]; simp; omega)]; simp
          · by_cases heq : d' = t.dirs.length
            · subst heq
              rw [link_contents_new _ _ _ _ hd]; simp
            · rw [contents_invalid _ (by rw [link_length]; simp; omega)]; simp
    names := by
      intro i en h
      rcases hent i en h with h | ⟨h1, h2⟩
      · exact ht.names i en h
      · subst h1 h2; exact hg }

theorem isTree_createDir {t : Tree V} (ht : IsTree t) {d name} (hd : d < t.dirs.length)
    (hg : GoodName name) : IsTree (t.createDir d name).1 := by
  cases h : t.getEntry d name with
  | none =>
    rw [createDir_new h]
    exact isTree_link ht hd h hg rfl (Or.inl ⟨rfl, rfl, rfl, rfl⟩)
  | some e =>
    obtain ⟨en, h1, -, -⟩ := ht.child d name e (getEntry_some h)
    cases hdir : en.dir with
    | none => rw [createDir_err h h1 hdir]; exact ht
    | some d' => rw [createDir_old h h1 hdir]; exact ht

theorem isTree_storeMetric {t : Tree V} (ht : IsTree t) {d name desc v} (hd : d < t.dirs.length)
    (hg : GoodName name) : IsTree (t.storeMetric d name desc v).1 := by
  cases h : t.getEntry d name with
  | none =>
    rw [storeMetric_new h]
    exact isTree_link ht hd h hg rfl (Or.inr ⟨rfl, rfl, rfl, _, rfl, rfl⟩)
  | some e => rw [storeMetric_old h]; exact ht

theorem isTree_init : IsTree (init V) := by
  constructor <;> simp [init, enclosing, contents, Child] 
  · intro d h1 h2; omega
  · intro d name e
    cases d <;> simp
  · intro d
    cases d <;> simp

end Tree

end Tricorder
