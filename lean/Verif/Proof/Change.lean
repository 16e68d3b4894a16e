import Verif.Proof.Reach
/-!
# How the tree operations change what paths denote
-/

namespace Tricorder
open Go Spec

variable {V : Type} {t : Tree V}

namespace Tree

/-- later heaps keep all objects; only the maps of directories change -/
structure Ext (t t' : Tree V) : Prop where
  dirs : t.dirs.length ≤ t'.dirs.length
  encl : ∀ d, d < t.dirs.length → t'.enclosing d = t.enclosing d
  entries : ∀ (e : ℕ) en, t.entries[e]? = some en → t'.entries[e]? = some en
  metrics : ∀ (m : ℕ) mo, t.metrics[m]? = some mo → t'.metrics[m]? = some mo

theorem Ext.refl (t : Tree V) : Ext t t := ⟨le_rfl, fun _ _ => rfl, fun _ _ h => h, fun _ _ h => h⟩

theorem Ext.trans {a b c : Tree V} (h1 : Ext a b) (h2 : Ext b c) : Ext a c :=
  ⟨h1.dirs.trans h2.dirs,
    fun d hd => (h2.encl d (by have := h1.dirs; omega)).trans (h1.encl d hd),
    fun e en h => h2.entries e en (h1.entries e en h),
    fun m mo h => h2.metrics m mo (h1.metrics m mo h)⟩

theorem ext_setContents (t : Tree V) (d c) : Ext t (t.setContents d c) :=
  ⟨by rw [setContents_length], fun d' _ => setContents_enclosing t d c d', fun _ _ h => h,
    fun _ _ h => h⟩

theorem ext_link (t : Tree V) (d e ds ms) : Ext t (t.link d e ds ms) :=
  ⟨by rw [link_length]; omega, fun _ h => link_enclosing_old t d e ds ms h,
    fun _ _ h => by rw [link_entries]; exact entries_append_some h,
    fun m mo h => by
      rw [link_metrics, List.getElem?_append_left]
      · exact h
      · exact (List.getElem?_eq_some_iff.mp h).1⟩

/-- the two kinds of new entry -/
def NewEntry (t : Tree V) (e : Entry) (ds : List Dir) (ms : List (MetricObj V)) : Prop :=
  (e.metric = none ∧ e.dir = some t.dirs.length ∧ ds = [⟨some t.entries.length, []⟩] ∧ ms = []) ∨
  (e.metric = some t.metrics.length ∧ e.dir = none ∧ ds = [] ∧
    ∃ mo, ms = [mo] ∧ mo.enclosing = t.entries.length)

theorem link_child {d : ℕ} (hd : d < t.dirs.length) (e ds ms) {d0 name e'}
    (h0 : d0 < t.dirs.length) :
    Child (t.link d e ds ms) d0 name e' ↔
      Child t d0 name e' ∨ (d0 = d ∧ name = e.name ∧ e' = t.entries.length) := by
  unfold Child
  by_cases h : d0 = d
  · subst h
    rw [link_contents_eq t e ds ms hd, List.mem_cons, Prod.mk.injEq]
    constructor
    · rintro (⟨a, b⟩ | h)
      · exact Or.inr ⟨rfl, a, b⟩
      · exact Or.inl h
    · rintro (h | ⟨-, a, b⟩)
      · exact Or.inr h
      · exact Or.inl ⟨a, b⟩
  · rw [link_contents_old t e ds ms h0 h]
    constructor
    · exact Or.inl
    · rintro (hh | ⟨a, _⟩)
      · exact hh
      · exact absurd a h

theorem link_new_entry (t : Tree V) (d e ds ms) :
    (t.link d e ds ms).entries[t.entries.length]? = some e := by
  rw [link_entries]; simp

theorem link_old_entry (ht : IsTree t) (d e ds ms) {d0 name e' en} (hc : Child t d0 name e')
    (he : (t.link d e ds ms).entries[e']? = some en) : t.entries[e']? = some en := by
  obtain ⟨en', h1, _⟩ := ht.child d0 name e' hc
  rw [link_entries, entries_append_some h1] at he
  rw [h1, he]

theorem link_mono (ht : IsTree t) {d : ℕ} (hd : d < t.dirs.length) (e ds ms) {d0 p n}
    (h : Reaches t d0 p n) : Reaches (t.link d e ds ms) d0 p n := by
  induction h with
  | here d => exact .here d
  | metric hc he hm =>
    exact .metric ((link_child hd e ds ms (child_lt ht hc)).mpr (Or.inl hc))
      ((ext_link t d e ds ms).entries _ _ he) hm
  | dir hc he hdd _ ih =>
    exact .dir ((link_child hd e ds ms (child_lt ht hc)).mpr (Or.inl hc))
      ((ext_link t d e ds ms).entries _ _ he) hdd ih

theorem link_new_empty {d : ℕ} (hd : d < t.dirs.length) {e ds ms} (hcase : NewEntry t e ds ms)
    {p n} (hed : e.dir = some t.dirs.length) (h : Reaches (t.link d e ds ms) t.dirs.length p n) :
    p = [] ∧ n = .dir t.dirs.length := by
  rcases hcase with ⟨_, _, hds, hms⟩ | ⟨_, h2, _⟩
  swap
  · rw [h2] at hed; cases hed
  subst hds hms
  have hno : ∀ name e', ¬ Child (t.link d e [⟨some t.entries.length, []⟩] []) t.dirs.length name e' := by
    intro name e' hc
    unfold Child at hc
    rw [link_contents_new t e _ _ hd] at hc
    exact absurd hc List.not_mem_nil
  generalize hx : t.dirs.length = x at h
  cases h with
  | here => exact ⟨rfl, rfl⟩
  | metric hc _ _ => exact absurd hc (hx ▸ hno _ _)
  | dir hc _ _ _ => exact absurd hc (hx ▸ hno _ _)

/-- a new entry adds exactly one path below each directory that is above the changed one -/
theorem reaches_link (ht : IsTree t) {d : ℕ} (hd : d < t.dirs.length) {e : Entry}
    {ds : List Dir} {ms : List (MetricObj V)}
    (hcase : NewEntry t e ds ms) {d0 p n} (h0 : d0 < t.dirs.length) :
    Reaches (t.link d e ds ms) d0 p n ↔
      Reaches t d0 p n ∨ ∃ q, Reaches t d0 q (.dir d) ∧ p = q ++ [e.name] ∧ Holds e n := by
  constructor
  · intro h
    induction h with
    | here d => exact Or.inl (.here d)
    | @metric d1 name e' en m hc he hm =>
      rcases (link_child hd e ds ms h0).mp hc with hc' | ⟨a, b, c⟩
      · exact Or.inl (.metric hc' (link_old_entry ht d e ds ms hc' he) hm)
      · subst a b c
        rw [link_new_entry] at he
        cases he
        exact Or.inr ⟨[], .here _, rfl, hm⟩
    | @dir d1 name e' en d' p n hc he hdd hr ih =>
      rcases (link_child hd e ds ms h0).mp hc with hc' | ⟨a, b, c⟩
      · have he' := link_old_entry ht d e ds ms hc' he
        rcases ih (entry_dir ht he' hdd).2.2.1 with h | ⟨q, h1, h2, h3⟩
        · exact Or.inl (.dir hc' he' hdd h)
        · exact Or.inr ⟨name :: q, .dir hc' he' hdd h1, by rw [h2]; rfl, h3⟩
      · subst a b c
        rw [link_new_entry] at he
        cases he
        have hd' : d' = t.dirs.length := by
          rcases hcase with ⟨_, h2, _⟩ | ⟨_, h2, _⟩
          · rw [hdd] at h2; exact Option.some.inj h2
          · rw [hdd] at h2; cases h2
        subst hd'
        obtain ⟨hp, hn⟩ := link_new_empty hd hcase hdd hr
        subst hp hn
        exact Or.inr ⟨[], .here _, rfl, hdd⟩
  · rintro (h | ⟨q, h1, h2, h3⟩)
    · exact link_mono ht hd e ds ms h
    · subst h2
      refine reaches_trans (link_mono ht hd e ds ms h1) ?_
      have hc : Child (t.link d e ds ms) d e.name t.entries.length :=
        (link_child hd e ds ms hd).mpr (Or.inr ⟨rfl, rfl, rfl⟩)
      cases n with
      | dir x => exact .dir hc (link_new_entry t d e ds ms) h3 (.here x)
      | metric m => exact .metric hc (link_new_entry t d e ds ms) h3

/-- the tree without entry `name` of directory `d` -/
theorem drop_child {d : ℕ} {name : Str} {d0 nm e} :
    Child (t.setContents d (erase (t.contents d) name)) d0 nm e ↔
      Child t d0 nm e ∧ ¬ (d0 = d ∧ nm = name) := by
  unfold Child
  by_cases hv : d < t.dirs.length
  · by_cases h : d0 = d
    · subst h
      rw [setContents_contents_eq t hv, mem_erase]
      simp
    · rw [setContents_contents_ne t h]
      simp [h]
  · rw [setContents_contents_invalid t hv]
    constructor
    · intro hc
      refine ⟨hc, ?_⟩
      rintro ⟨a, _⟩
      subst a
      rw [contents_invalid t hv] at hc
      exact absurd hc List.not_mem_nil
    · exact fun h => h.1

/-- removing an entry removes exactly the paths that go through it -/
theorem reaches_drop (ht : IsTree t) {d : ℕ} {name : Str} {d0 q n} :
    Reaches (t.setContents d (erase (t.contents d) name)) d0 q n ↔
      Reaches t d0 q n ∧ ¬ ∃ a, Reaches t d0 a (.dir d) ∧ (a ++ [name]) <+: q := by
  have hmono : ∀ {d0 q n}, Reaches (t.setContents d (erase (t.contents d) name)) d0 q n →
      Reaches t d0 q n := by
    intro d0 q n h
    induction h with
    | here d => exact .here d
    | metric hc he hm => exact .metric (drop_child.mp hc).1 he hm
    | dir hc he hd _ ih => exact .dir (drop_child.mp hc).1 he hd ih
  constructor
  · intro h
    refine ⟨hmono h, ?_⟩
    rintro ⟨a, h1, r, h2⟩
    subst h2
    rw [List.append_assoc] at h
    obtain ⟨d2, h3, h4⟩ := reaches_split h (by simp)
    cases reaches_unique ht (hmono h3) h1
    generalize hl : [name] ++ r = l at h4
    cases h4 with
    | here => simp at hl
    | metric hc _ _ =>
      simp at hl
      exact (drop_child.mp hc).2 ⟨rfl, hl.1.symm⟩
    | dir hc _ _ _ =>
      simp at hl
      exact (drop_child.mp hc).2 ⟨rfl, hl.1.symm⟩
  · rintro ⟨h, hno⟩
    induction h with
    | here d => exact .here d
    | @metric d1 nm e en m hc he hm =>
      refine .metric (drop_child.mpr ⟨hc, ?_⟩) he hm
      rintro ⟨rfl, rfl⟩
      exact hno ⟨[], .here _, List.prefix_refl _⟩
    | @dir d1 nm e en d' p n hc he hd hr ih =>
      refine .dir (drop_child.mpr ⟨hc, ?_⟩) he hd (ih ?_)
      · rintro ⟨rfl, rfl⟩
        exact hno ⟨[], .here _, ⟨p, rfl⟩⟩
      · rintro ⟨a, h1, r, h2⟩
        exact hno ⟨nm :: a, .dir hc he hd h1, ⟨r, by rw [← h2]; rfl⟩⟩

/-- what a directory's entry says, and how `Parent` uses it -/
theorem parent_some (ht : IsTree t) {d} (hd : d < t.dirs.length) (h0 : d ≠ 0) :
    ∃ e en p, t.enclosing d = some e ∧ t.entries[e]? = some en ∧ en.dir = some d ∧
      t.parent d = some p ∧ p < t.dirs.length ∧ en.parent = t.enclosing p := by
  obtain ⟨e, en, h1, h2, h3⟩ := ht.dirs d (by omega) hd
  cases hp : en.parent with
  | none =>
    exact ⟨e, en, 0, h1, h2, h3, by simp [parent, h1, h2, parentDir, hp], ht.rootIn, by rw [ht.root, hp]⟩
  | some pe =>
    obtain ⟨_, pen, pd, h4, h5⟩ := ht.parent e en pe h2 hp
    obtain ⟨_, _, h6, h7⟩ := entry_dir ht h4 h5
    exact ⟨e, en, pd, h1, h2, h3, by simp [parent, h1, h2, parentDir, hp, h4, h5], h6, by rw [h7, hp]⟩

/-- the directory that holds an entry is the one its parent link says -/
theorem child_parent (ht : IsTree t) {d0 name e en p} (hc : Child t d0 name e)
    (he : t.entries[e]? = some en) (hp : p < t.dirs.length) (h : en.parent = t.enclosing p) :
    d0 = p :=
  enclosing_inj ht (child_lt ht hc) hp (by rw [← (child_entry ht hc he).2, h])

/-- `unregisterDir` either does nothing or removes the entry of that directory -/
theorem unregisterDir_cases (ht : IsTree t) {d} (hd : d < t.dirs.length) :
    (t.unregisterDir d = t ∧ ∀ d0 nm e en, Child t d0 nm e → t.entries[e]? = some en → en.dir ≠ some d) ∨
    ∃ p nm e en, Child t p nm e ∧ t.entries[e]? = some en ∧ en.dir = some d ∧
      t.unregisterDir d = t.setContents p (erase (t.contents p) nm) := by
  by_cases h0 : d = 0
  · subst h0
    refine Or.inl ⟨by simp [unregisterDir, ht.root], ?_⟩
    intro d0 nm e en hc he hh
    have := (entry_dir ht he hh).2.1
    omega
  · obtain ⟨e, en, p, h1, h2, h3, h4, h5, h6⟩ := parent_some ht hd h0
    have hu : t.unregisterDir d =
        if t.getEntry p en.name = some e then t.setContents p (erase (t.contents p) en.name) else t := by
      simp [unregisterDir, h1, h4, removeChild, h2]
    by_cases hg : t.getEntry p en.name = some e
    · rw [if_pos hg] at hu
      exact Or.inr ⟨p, en.name, e, en, getEntry_some hg, h2, h3, hu⟩
    · rw [if_neg hg] at hu
      refine Or.inl ⟨hu, ?_⟩
      intro d0 nm e' en' hc he hh
      have := (entry_dir ht he hh).2.2.2
      rw [h1] at this
      cases this
      rw [h2] at he
      cases he
      have hdp := child_parent ht hc h2 h5 h6
      subst hdp
      rw [(child_entry ht hc h2).1] at hg
      exact hg ((getEntry_iff ht).mpr hc)

/-- a directory entry is in at most one place -/
theorem dir_place_unique (ht : IsTree t) {d0 nm e en d1 nm' e' en' d}
    (hc : Child t d0 nm e) (he : t.entries[e]? = some en) (hd : en.dir = some d)
    (hc' : Child t d1 nm' e') (he' : t.entries[e']? = some en') (hd' : en'.dir = some d) :
    d0 = d1 ∧ nm = nm' ∧ e = e' := by
  have a := (entry_dir ht he hd).2.2.2
  have b := (entry_dir ht he' hd').2.2.2
  rw [a] at b
  cases b
  rw [he] at he'
  cases he'
  obtain ⟨h1, h2⟩ := child_entry ht hc he
  obtain ⟨h3, h4⟩ := child_entry ht hc' he
  exact ⟨enclosing_inj ht (child_lt ht hc) (child_lt ht hc') (by rw [← h2, h4]), by rw [← h1, h3], rfl⟩

/-- `unregisterDir` removes exactly the paths that go through the directory -/
theorem reaches_unregisterDir (ht : IsTree t) {d} (hd : d < t.dirs.length) {d0 q n} :
    Reaches (t.unregisterDir d) d0 q n ↔
      Reaches t d0 q n ∧ ¬ ∃ a b, a ≠ [] ∧ q = a ++ b ∧ Reaches t d0 a (.dir d) := by
  rcases unregisterDir_cases ht hd with ⟨h1, h2⟩ | ⟨p, nm, e, en, hc, he, hdd, hu⟩
  · rw [h1]
    constructor
    · intro h
      refine ⟨h, ?_⟩
      rintro ⟨a, b, ha, -, hr⟩
      rw [← List.dropLast_append_getLast ha] at hr
      obtain ⟨d', -, h4⟩ := reaches_snoc_iff.mp hr
      obtain ⟨e, en, hc, he, hh⟩ := (reaches_one_iff ht).mp h4
      exact h2 _ _ _ _ hc he hh
    · exact fun h => h.1
  · rw [hu, reaches_drop ht]
    constructor
    · rintro ⟨h3, h4⟩
      refine ⟨h3, ?_⟩
      rintro ⟨a, b, ha, rfl, hr⟩
      rw [← List.dropLast_append_getLast ha] at hr
      obtain ⟨d', h5, h6⟩ := reaches_snoc_iff.mp hr
      obtain ⟨e', en', hc', he', hh⟩ := (reaches_one_iff ht).mp h6
      obtain ⟨x, y, _⟩ := dir_place_unique ht hc' he' hh hc he hdd
      refine h4 ⟨a.dropLast, x ▸ h5, b, ?_⟩
      rw [← y, List.dropLast_append_getLast ha]
    · rintro ⟨h3, h4⟩
      refine ⟨h3, ?_⟩
      rintro ⟨a, hr, b, rfl⟩
      exact h4 ⟨a ++ [nm], b, by simp, rfl,
        reaches_trans hr ((reaches_one_iff ht).mpr ⟨e, en, hc, he, hdd⟩)⟩

theorem ext_unregisterDir (t : Tree V) (d) : Ext t (t.unregisterDir d) := by
  unfold unregisterDir
  split
  · exact Ext.refl t
  · split
    · exact Ext.refl t
    · unfold removeChild
      split
      · exact Ext.refl t
      · split
        · exact Ext.refl t
        · split
          · exact ext_setContents _ _ _
          · exact Ext.refl t

theorem ext_createDir (t : Tree V) (d name) : Ext t (t.createDir d name).1 := by
  cases h : t.getEntry d name with
  | none => rw [createDir_new h]; exact ext_link _ _ _ _ _
  | some e =>
    unfold createDir
    rw [h]
    simp only
    split <;> exact Ext.refl t

theorem ext_storeMetric (t : Tree V) (d name desc v) : Ext t (t.storeMetric d name desc v).1 := by
  cases h : t.getEntry d name with
  | none => rw [storeMetric_new h]; exact ext_link _ _ _ _ _
  | some e => rw [storeMetric_old h]; exact Ext.refl t

end Tree

end Tricorder
