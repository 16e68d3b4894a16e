import Mathlib.Data.List.Basic
import Verif.Spec.Locks
import Verif.Proof.Change
/-! Each critical section, executed without interruption, does what `Model/Sys` says. -/

namespace Tricorder.Locks
open Go Arith Tree Spec

/-- what never changes stays -/
structure Grows (g g' : Shared) : Prop where
  encl : g.encl <+: g'.encl
  entries : g.entries <+: g'.entries
  ndists : g.ndists ≤ g'.ndists
  kinds : g.kinds <+: g'.kinds
  mem : g.mem.map Cell.elem <+: g'.mem.map Cell.elem

theorem Grows.refl (g : Shared) : Grows g g :=
  ⟨List.prefix_refl _, List.prefix_refl _, le_refl _, List.prefix_refl _, List.prefix_refl _⟩

theorem Grows.trans {a b c : Shared} (h : Grows a b) (h' : Grows b c) : Grows a c :=
  ⟨h.encl.trans h'.encl, h.entries.trans h'.entries, h.ndists.trans h'.ndists, h.kinds.trans h'.kinds,
    h.mem.trans h'.mem⟩

theorem Grows.has {a b : Shared} (h : Grows a b) {l : Loc} (hl : a.has l) : b.has l := by
  cases l with
  | dir d => exact lt_of_lt_of_le hl h.encl.length_le
  | dist i => exact lt_of_lt_of_le hl h.ndists
  | list i => exact lt_of_lt_of_le hl h.kinds.length_le

theorem prefix_get {α : Type} {a b : List α} (h : a <+: b) {i : ℕ} (hi : i < a.length) : b[i]? = a[i]? := by
  obtain ⟨t, rfl⟩ := h
  rw [List.getElem?_append_left hi]

/-! ### States -/

@[simp] theorem of_whole (o : Objs) (g : Shared) : Shared.of (whole o g) = g := by
  unfold Shared.of whole
  congr 1
  · apply List.ext_getElem?; intro i; simp
    cases g.encl[i]? <;> rfl
  · simp
  · apply List.ext_getElem?; intro i; simp
    cases g.kinds[i]? <;> rfl

theorem whole_dir (o : Objs) (g : Shared) (d : ℕ) :
    (whole o g).tree.dirs[d]? = (g.encl[d]?).map fun e => ⟨e, o (.dir d)⟩ := by
  simp [whole]

theorem whole_dist' (o : Objs) (g : Shared) (i : ℕ) :
    (whole o g).dists[i]? = if i < g.ndists then some (o (.dist i)) else none := by
  simp only [whole, List.getElem?_map]
  split
  · rw [List.getElem?_range ‹_›]; rfl
  · rw [List.getElem?_eq_none (by simpa using Nat.le_of_not_lt ‹¬ _›)]; rfl

theorem whole_dist (o : Objs) (g : Shared) {i : ℕ} (h : g.has (.dist i)) : (whole o g).dists[i]? = some (o (.dist i)) := by
  rw [whole_dist']; exact if_pos h

theorem whole_list (o : Objs) (g : Shared) (i : ℕ) :
    (whole o g).lists[i]? = (g.kinds[i]?).map fun k => ⟨k.1, k.2, (o (.list i)).1, (o (.list i)).2⟩ := by
  simp [whole]

theorem whole_contents (o : Objs) (g : Shared) {d : ℕ} (h : g.has (.dir d)) : (whole o g).tree.contents d = o (.dir d) := by
  have h : d < g.encl.length := h
  simp [contents, whole_dir, h]

theorem whole_enclosing (o : Objs) (g : Shared) (d : ℕ) : (whole o g).tree.enclosing d = (g.encl[d]?).join := by
  simp only [enclosing, whole_dir]
  cases g.encl[d]? <;> rfl

theorem whole_parent (o o' : Objs) (g : Shared) (d : ℕ) : (whole o g).tree.parent d = (whole o' g).tree.parent d := by
  simp only [parent, whole_enclosing]; rfl

theorem whole_dirs_length (o : Objs) (g : Shared) : (whole o g).tree.dirs.length = g.encl.length := by simp [whole]

theorem whole_setContents (o : Objs) (g : Shared) (d : ℕ) (c : List (Str × ℕ)) :
    (whole o g).tree.setContents d c = (whole (Function.update o (.dir d) c) g).tree := by
  unfold setContents
  have : (whole o g).tree.dirs.modify d (fun x => { x with contents := c }) =
      (whole (Function.update o (.dir d) c) g).tree.dirs := by
    apply List.ext_getElem?
    intro i
    rw [List.getElem?_modify, whole_dir, whole_dir]
    by_cases h : d = i
    · subst h; simp; rfl
    · rw [Function.update_of_ne (by simpa using fun e => h e.symm)]
      cases g.encl[i]? <;> simp [h]
  rw [this]
  rfl

/-- states are equal part by part -/
theorem state_ext {s s' : State} (h1 : s.tree.dirs = s'.tree.dirs) (h2 : s.tree.entries = s'.tree.entries)
    (h3 : s.tree.metrics = s'.tree.metrics) (h4 : s.dists = s'.dists) (h5 : s.lists = s'.lists) (h6 : s.mem = s'.mem)
    (h7 : s.vars = s'.vars) (h8 : s.regions = s'.regions) (h9 : s.nextId = s'.nextId) (h10 : s.noise = s'.noise) : s = s' := by
  obtain ⟨⟨a, b, c⟩, d, e, f, x, y, z, u⟩ := s
  obtain ⟨⟨a', b', c'⟩, d', e', f', x', y', z', u'⟩ := s'
  simp only at *
  subst_vars
  rfl

theorem update_dir_dists (o : Objs) (g : Shared) (d : ℕ) (c : List (Str × ℕ)) :
    (whole (Function.update o (.dir d) c) g).dists = (whole o g).dists := by
  apply List.ext_getElem?; intro i; simp only [whole_dist']; rw [Function.update_of_ne (by simp)]

theorem update_dir_lists (o : Objs) (g : Shared) (d : ℕ) (c : List (Str × ℕ)) :
    (whole (Function.update o (.dir d) c) g).lists = (whole o g).lists := by
  apply List.ext_getElem?; intro i; simp only [whole_list]; rw [Function.update_of_ne (by simp)]

theorem update_list_dists (o : Objs) (g : Shared) (d : ℕ) (c : ℕ × Time) :
    (whole (Function.update o (.list d) c) g).dists = (whole o g).dists := by
  apply List.ext_getElem?; intro i; simp only [whole_dist']; rw [Function.update_of_ne (by simp)]

theorem update_list_dirs (o : Objs) (g : Shared) (d : ℕ) (c : ℕ × Time) :
    (whole (Function.update o (.list d) c) g).tree.dirs = (whole o g).tree.dirs := by
  apply List.ext_getElem?; intro i; simp only [whole_dir]; rw [Function.update_of_ne (by simp)]

theorem update_dist_lists (o : Objs) (g : Shared) (d : ℕ) (c : Dist Fl) :
    (whole (Function.update o (.dist d) c) g).lists = (whole o g).lists := by
  apply List.ext_getElem?; intro i; simp only [whole_list]; rw [Function.update_of_ne (by simp)]

theorem update_dist_dirs (o : Objs) (g : Shared) (d : ℕ) (c : Dist Fl) :
    (whole (Function.update o (.dist d) c) g).tree.dirs = (whole o g).tree.dirs := by
  apply List.ext_getElem?; intro i; simp only [whole_dir]; rw [Function.update_of_ne (by simp)]

theorem whole_tree (o : Objs) (g : Shared) (d : ℕ) (c : List (Str × ℕ)) :
    { whole o g with tree := (whole (Function.update o (.dir d) c) g).tree } = whole (Function.update o (.dir d) c) g :=
  state_ext rfl rfl rfl (update_dir_dists o g d c).symm (update_dir_lists o g d c).symm rfl rfl rfl rfl rfl

theorem whole_setDist (o : Objs) (g : Shared) (i : ℕ) (x : Dist Fl) :
    { whole o g with dists := (whole o g).dists.set i x } = whole (Function.update o (.dist i) x) g := by
  refine state_ext (update_dist_dirs o g i x).symm rfl rfl ?_ (update_dist_lists o g i x).symm rfl rfl rfl rfl rfl
  apply List.ext_getElem?
  intro j
  have hl : (whole o g).dists.length = g.ndists := by simp [whole]
  simp only [List.getElem?_set, whole_dist', hl]
  by_cases h : i = j
  · subst h; simp
  · rw [if_neg h, Function.update_of_ne (by simpa using fun e => h e.symm)]

theorem whole_setList (o : Objs) (g : Shared) (i : ℕ) (x : ℕ × Time) {k : ℕ × Ty} (hk : g.kinds[i]? = some k) :
    { whole o g with lists := (whole o g).lists.set i ⟨k.1, k.2, x.1, x.2⟩ } = whole (Function.update o (.list i) x) g := by
  refine state_ext (update_list_dirs o g i x).symm rfl rfl (update_list_dists o g i x).symm ?_ rfl rfl rfl rfl rfl
  apply List.ext_getElem?
  intro j
  have hl : (whole o g).lists.length = g.kinds.length := by simp [whole]
  have hi := (List.getElem?_eq_some_iff.1 hk).1
  simp only [List.getElem?_set, whole_list, hl]
  by_cases h : i = j
  · subst h; rw [hk]; simp [hi]
  · rw [if_neg h, Function.update_of_ne (by simpa using fun e => h e.symm)]

/-- fields of objects that do not exist do not matter -/
theorem whole_eq {o o' : Objs} {g : Shared} (h : ∀ l, g.has l → o l = o' l) : whole o g = whole o' g := by
  refine state_ext ?_ rfl rfl ?_ ?_ rfl rfl rfl rfl rfl <;> apply List.ext_getElem? <;> intro i
  · rw [whole_dir, whole_dir]
    cases hi : g.encl[i]? with
    | none => rfl
    | some e => rw [h (.dir i) (List.getElem?_eq_some_iff.1 hi).1]
  · rw [whole_dist', whole_dist']
    split
    · rw [h (.dist i) ‹_›]
    · rfl
  · rw [whole_list, whole_list]
    cases hi : g.kinds[i]? with
    | none => rfl
    | some e => rw [h (.list i) (List.getElem?_eq_some_iff.1 hi).1]

/-! ### What is to be shown of a method -/

/-- with the fields `o1` and the rest `R`, the method does what `x` says -/
structure Agrees (w : World) (cmd : Cmd) (loc : Loc) (o : Objs) (R : Shared)
    (x : Data loc × Shared × Option Fresh × cmd.Resp) : Prop where
  ok : cmd.Ok (whole o R)
  exec : exec w cmd (whole o R) = (whole (Objs.add (Function.update o loc x.1) x.2.2.1) x.2.1, x.2.2.2)
  grows : Grows R x.2.1
  fresh : ∀ fr, x.2.2.1 = some fr → ¬ R.has fr.loc

/-- the same without a lock -/
structure AgreesP (w : World) (cmd : Cmd) (o : Objs) (R : Shared) (x : Shared × Option Fresh × cmd.Resp) : Prop where
  ok : cmd.Ok (whole o R)
  exec : Tricorder.exec w cmd (whole o R) = (whole (o.add x.2.1) x.1, x.2.2)
  grows : Grows R x.1
  fresh : ∀ fr, x.2.1 = some fr → ¬ R.has fr.loc

/-- the code of a method called in `g` is right, whenever it is executed later -/
def Right (w : World) (g : Shared) (cmd : Cmd) : Impl cmd.Resp → Prop
  | .plain f => ∀ R o, Grows g R → AgreesP w cmd o R (f R)
  | .locked loc excl sec => g.has loc ∧ (excl = false → sec.ReadOnly) ∧
      ∀ R o, Grows g R → Agrees w cmd loc o R (sec.sem (o loc) R)

theorem Agrees.same {w : World} {cmd : Cmd} {loc : Loc} {o : Objs} {R : Shared} {r : cmd.Resp} (ok : cmd.Ok (whole o R))
    (h : Tricorder.exec w cmd (whole o R) = (whole o R, r)) : Agrees w cmd loc o R (o loc, R, none, r) :=
  ⟨ok, by rw [h]; simp [Objs.add], .refl _, fun _ h => (nomatch h)⟩

theorem Agrees.of_eq {w : World} {cmd : Cmd} {loc : Loc} {o : Objs} {R : Shared}
    {x y : Data loc × Shared × Option Fresh × cmd.Resp} (e : x = y) (h : Agrees w cmd loc o R y) : Agrees w cmd loc o R x :=
  e ▸ h

/-! ### Directories -/

variable {w : World}

theorem getListEntry_right {g : Shared} {d : ℕ} {name : Str} (h : g.has (.dir d)) :
    Right w g (.getEntry d name) (.locked (.dir d) false (getListEntry name)) := by
  refine ⟨h, fun _ => ?_, fun R o hR => ?_⟩
  · intro _ d g; exact ⟨rfl, rfl, rfl⟩
  · refine Agrees.same trivial ?_
    simp only [exec, getEntry, whole_contents o R (hR.has h)]
    rfl

theorem listLoop_readOnly {A : Type} {fin : List ℕ → Sec (List (Str × ℕ)) A} (h : ∀ l, (fin l).ReadOnly) (n i : ℕ)
    (acc : List ℕ) : (listLoop fin n i acc).ReadOnly := by
  induction n generalizing i acc with
  | zero => exact h acc
  | succ n ih => intro x; exact ih _ _

theorem listLoop_sem {A : Type} {fin : List ℕ → Sec (List (Str × ℕ)) A} (c : List (Str × ℕ)) (g : Shared) (n i : ℕ)
    (acc : List ℕ) (h : n + i = c.length) :
    (listLoop fin n i acc).sem c g = (fin (acc ++ (c.drop i).map Prod.snd)).sem c g := by
  induction n generalizing i acc with
  | zero =>
    have : c.drop i = [] := List.drop_eq_nil_of_le (by omega)
    simp [listLoop, this]
  | succ n ih =>
    have hi : i < c.length := by omega
    simp only [listLoop, Sec.sem]
    rw [ih _ _ (by omega)]
    conv_rhs => rw [List.drop_eq_getElem_cons hi]
    congr 2
    simp only [List.getElem?_eq_getElem hi, Option.map_some, Option.toList_some, List.append_assoc, List.map_cons]
    rfl

theorem listUnsorted_right (hw : Local w) {g : Shared} {d : ℕ} (h : g.has (.dir d)) :
    Right w g (.list d) (.locked (.dir d) false (listUnsorted w)) := by
  refine ⟨h, fun _ => ?_, fun R o hR => ?_⟩
  · intro n
    refine listLoop_readOnly ?_ _ _ _
    intro l d g
    exact ⟨rfl, rfl, rfl⟩
  · have e : (listUnsorted w).sem (o (.dir d)) R =
        (o (.dir d), R, none, withEntries (whole o R).tree (w.ord (whole o R) ((o (.dir d)).map Prod.snd))) := by
      simp only [listUnsorted, Sec.sem]
      rw [listLoop_sem _ _ _ _ _ rfl]
      simp only [Sec.sem, List.drop_zero, List.nil_append]
      rw [hw.ord (whole blank R) (whole o R) (by simp)]
      rfl
    refine Agrees.of_eq e (Agrees.same trivial ?_)
    simp only [exec, whole_contents o R (hR.has h)]

/-- the map of one directory is replaced -/
theorem Agrees.setDir {cmd : Cmd} {d : ℕ} {o : Objs} {R : Shared} {c : List (Str × ℕ)} {r : cmd.Resp} (ok : cmd.Ok (whole o R))
    (h : Tricorder.exec w cmd (whole o R) = ({ whole o R with tree := (whole o R).tree.setContents d c }, r)) :
    Agrees w cmd (.dir d) o R (c, R, none, r) :=
  ⟨ok, by rw [h, whole_setContents, whole_tree]; rfl, .refl _, fun _ h => (nomatch h)⟩

theorem removeListEntry_right {g : Shared} {d : ℕ} {name : Str} (h : g.has (.dir d)) :
    Right w g (.removeEntry d name) (.locked (.dir d) true (removeListEntry name)) := by
  refine ⟨h, fun e => (nomatch e), fun R o hR => Agrees.setDir trivial ?_⟩
  simp only [exec, removeEntry, whole_contents o R (hR.has h)]

theorem unregisterDir_right {g : Shared} {d : ℕ} (h : g.has (.dir d)) {o' : Objs} (ht : IsTree (whole o' g).tree) :
    Right w g (.unregisterDir d) (code w g (.unregisterDir d)) := by
  have hd : d < g.encl.length := h
  by_cases h0 : d = 0
  · subst h0
    have hr : (whole blank g).tree.enclosing 0 = none := by
      rw [whole_enclosing, ← whole_enclosing o']; exact ht.root
    unfold code
    simp only [hr]
    intro R o hR
    refine ⟨trivial, ?_, .refl _, fun _ h => (nomatch h)⟩
    have : (whole o R).tree.enclosing 0 = none := by
      rw [whole_enclosing, prefix_get hR.encl hd, ← whole_enclosing blank, hr]
    simp only [exec, unregisterDir, this]
    rfl
  · obtain ⟨e, en, p, h1, h2, h3, h4, h5, h6⟩ := parent_some ht (d := d) (by rw [whole_dirs_length]; exact hd) h0
    rw [whole_dirs_length] at h5
    have h2 : g.entries[e]? = some en := h2
    rw [whole_parent o' blank] at h4
    rw [whole_enclosing, ← whole_enclosing blank] at h1
    unfold code
    simp only [h1, h4, h2]
    refine ⟨h5, fun e => (nomatch e), fun R o hR => ?_⟩
    have e1 : (whole o R).tree.enclosing d = some e := by
      rw [whole_enclosing, prefix_get hR.encl hd, ← whole_enclosing blank, h1]
    have e2 : R.entries[e]? = some en := by
      rw [prefix_get hR.entries (List.getElem?_eq_some_iff.1 h2).1, h2]
    have e3 : (whole o R).tree.parent d = some p := by
      have h7 : (whole blank g).tree.parentDir en = some p := by
        rw [parent, h1] at h4; simpa [show (whole blank g).tree.entries[e]? = some en from h2] using h4
      simp only [parent, e1, show (whole o R).tree.entries[e]? = some en from e2]
      simp only [parentDir] at h7 ⊢
      cases hp : en.parent with
      | none => rw [hp] at h7; exact h7
      | some q =>
        rw [hp] at h7
        simp only at h7 ⊢
        cases hq : g.entries[q]? with
        | none => rw [show (whole blank g).tree.entries[q]? = none from hq] at h7; cases h7
        | some qe =>
          rw [show (whole blank g).tree.entries[q]? = some qe from hq] at h7
          rw [show (whole o R).tree.entries[q]? = some qe by
            rw [← hq]; exact prefix_get hR.entries (List.getElem?_eq_some_iff.1 hq).1]
          exact h7
    have hp : R.has (.dir p) := hR.has (l := .dir p) h5
    have ex : exec w (.unregisterDir d) (whole o R) =
        ({ whole o R with tree := if (o (.dir p)).lookup en.name = some e then
          (whole o R).tree.setContents p (erase (o (.dir p)) en.name) else (whole o R).tree }, ()) := by
      simp only [exec, unregisterDir, e1, e3, removeChild, show (whole o R).tree.entries[e]? = some en from e2, getEntry,
        whole_contents o R hp]
      rfl
    simp only [removeChildDirectory, Sec.sem]
    by_cases hc : (o (.dir p)).lookup en.name = some e
    · rw [if_pos hc] at ex ⊢
      exact Agrees.setDir trivial ex
    · rw [if_neg hc] at ex ⊢
      exact Agrees.same trivial ex

theorem createDir_right {g : Shared} {d : ℕ} {name : Str} (h : g.has (.dir d)) (hn : (47 : UInt8) ∉ name ∧ trimSpace name ≠ []) :
    Right w g (.createDir d name) (.locked (.dir d) true (createDirIfNeeded d name)) := by
  refine ⟨h, fun e => (nomatch e), fun R o hR => ?_⟩
  have hd : R.has (.dir d) := hR.has h
  have ok : (Cmd.createDir d name).Ok (whole o R) := ⟨by rw [whole_dirs_length]; exact hd, hn⟩
  simp only [createDirIfNeeded, Sec.sem]
  cases hl : (o (.dir d)).lookup name with
  | some n =>
    refine Agrees.same ok ?_
    simp only [exec, createDir, getEntry, whole_contents o R hd, hl]
    show (_, _) = (_, _)
    have : (whole o R).tree.entries[n]? = R.entries[n]? := rfl
    rw [this]
    rcases R.entries[n]? with _ | ⟨a, b, _ | c, f⟩ <;> rfl
  | none =>
    refine Agrees.of_eq (y := ((name, R.entries.length) :: o (.dir d),
        { R with
          encl := R.encl ++ [some R.entries.length]
          entries := R.entries ++ [⟨name, none, some R.encl.length, (R.encl[d]?).join⟩] },
        some ⟨.dir R.encl.length, []⟩, .ok R.encl.length)) rfl
      ⟨ok, ?_, ⟨List.prefix_append _ _, List.prefix_append _ _, le_refl _, List.prefix_refl _, List.prefix_refl _⟩, ?_⟩
    · simp only [exec, createDir, getEntry, whole_contents o R hd, hl, whole_enclosing, whole_dirs_length]
      refine Prod.ext (state_ext ?_ rfl rfl ?_ ?_ rfl rfl rfl rfl rfl) rfl
      · apply List.ext_getElem?
        intro i
        have hd' : d < R.encl.length := hd
        rw [whole_dir]
        simp only [setContents, List.getElem?_modify, List.getElem?_append, whole_dirs_length, whole_dir, Objs.add]
        by_cases hi : i < R.encl.length
        · rw [if_pos hi, if_pos hi, Function.update_of_ne (by simp; omega)]
          by_cases e : d = i
          · subst e; simp [hi]; rfl
          · rw [Function.update_of_ne (by simpa using fun e' => e e'.symm)]
            simp [e]
        · rw [if_neg hi, if_neg hi]
          by_cases e : i = R.encl.length
          · subst e
            simp [show d ≠ R.encl.length by omega]; rfl
          · have : 1 ≤ i - R.encl.length := by omega
            rw [List.getElem?_eq_none (by simpa using this), List.getElem?_eq_none (by simpa using this)]
            rfl
      · apply List.ext_getElem?; intro i; simp only [whole_dist', Objs.add]
        rw [Function.update_of_ne (by simp), Function.update_of_ne (by simp)]
      · apply List.ext_getElem?; intro i; simp only [whole_list, Objs.add]
        rw [Function.update_of_ne (by simp), Function.update_of_ne (by simp)]
    · intro fr e; cases e; exact lt_irrefl _

theorem storeMetric_right {g : Shared} {d : ℕ} {name desc : Str} {v : MValue} (h : g.has (.dir d))
    (hn : (47 : UInt8) ∉ name ∧ trimSpace name ≠ []) :
    Right w g (.storeMetric d name desc v) (.locked (.dir d) true (storeMetric d name desc v)) := by
  refine ⟨h, fun e => (nomatch e), fun R o hR => ?_⟩
  have hd : R.has (.dir d) := hR.has h
  have ok : (Cmd.storeMetric d name desc v).Ok (whole o R) := ⟨by rw [whole_dirs_length]; exact hd, hn⟩
  simp only [storeMetric, Sec.sem]
  cases hl : (o (.dir d)).lookup name with
  | some n =>
    refine Agrees.same ok ?_
    simp only [exec, Tree.storeMetric, getEntry, whole_contents o R hd, hl]
  | none =>
    refine ⟨ok, ?_, ⟨List.prefix_refl _, List.prefix_append _ _, le_refl _, List.prefix_refl _, List.prefix_refl _⟩,
      fun _ h => (nomatch h)⟩
    simp only [exec, Tree.storeMetric, getEntry, whole_contents o R hd, hl, whole_enclosing]
    refine Prod.ext (state_ext ?_ rfl rfl ?_ ?_ rfl rfl rfl rfl rfl) rfl
    · have := congrArg Tree.dirs (whole_setContents o R d ((name, R.entries.length) :: o (.dir d)))
      exact this
    · exact (update_dir_dists o R d _).symm
    · exact (update_dir_lists o R d _).symm

end Tricorder.Locks
