import Verif.Proof.Locks
/-! The critical sections of distributions and lists, and the steps without a lock. -/

namespace Tricorder.Locks
open Go Arith Spec

variable {w : World}

/-! ### Distributions -/

theorem setUnit_sem {A : Type} (u : MUnit) (out : Bool → A) (d : Dist Fl) (g : Shared) :
    (setUnit u out).sem d g = ((d.setUnit u).1, g, none, out (d.setUnit u).2) := by
  simp only [setUnit, Sec.sem, Dist.setUnit]
  cases h : d.unitSet <;> rfl

theorem valueToFloat_sem (v : Val) (k : Fl → Sec (Dist Fl) (Option DPanic)) (d : Dist Fl) (g : Shared) :
    (valueToFloat v k).sem d g = match d.valueToFloat v with
      | .error p => (d, g, none, some p)
      | .ok x => (k x).sem d g := by
  simp only [valueToFloat, Sec.sem, Dist.valueToFloat]
  cases h : d.unitSet with
  | false => rfl
  | true =>
    simp only [Bool.not_true, Bool.false_eq_true, if_false]
    cases v with
    | scalar n b =>
      cases n with
      | none =>
        cases b with
        | duration x => simp only [Sec.sem]; cases goDurationToFloat d.unit _ <;> rfl
        | _ => rfl
      | some n => rfl
    | _ => rfl

theorem add_sem (x : Fl) (ts : Time) (d : Dist Fl) (g : Shared) :
    (add x ts).sem d g = ((d.add x ts).1, g, none, (d.add x ts).2) := by
  simp only [add, Sec.sem, Dist.add]
  cases d.counts[findIndex d.pieces x]? with
  | none => rfl
  | some c =>
    simp only [Sec.sem]
    split
    · rfl
    · simp only [Sec.sem]
      split
      · rfl
      · simp only [Sec.sem]
        split <;> rfl

theorem update_sem (x y : Fl) (ts : Time) (d : Dist Fl) (g : Shared) :
    (update x y ts).sem d g = ((d.update x y ts).1, g, none, (d.update x y ts).2) := by
  obtain ⟨pieces, nc, gid, unit, unitSet, counts, total, mn, mx, count, gen, t⟩ := d
  simp only [update, Sec.sem, Dist.update]
  cases nc with
  | false => rfl
  | true =>
    simp only [Sec.sem, Bool.not_true, Bool.false_eq_true, if_false]
    by_cases hn : count = 0
    · simp only [hn, if_true]; rfl
    · simp only [hn, if_false, Sec.sem]
      cases counts[findIndex pieces y]? with
      | none => rfl
      | some c =>
        simp only [Sec.sem]
        cases (counts.set (findIndex pieces y) (u64 (c + 1)))[findIndex pieces x]? with
        | none => rfl
        | some c' =>
          cases c' with
          | zero => rfl
          | succ c' =>
            simp only [Sec.sem, Dist.updateStats]
            split
            · rfl
            · simp only [Sec.sem]
              split <;> rfl

theorem remove_sem (x : Fl) (ts : Time) (d : Dist Fl) (g : Shared) :
    (remove x ts).sem d g = ((d.remove x ts).1, g, none, (d.remove x ts).2) := by
  obtain ⟨pieces, nc, gid, unit, unitSet, counts, total, mn, mx, count, gen, t⟩ := d
  simp only [remove, Sec.sem, Dist.remove]
  cases nc with
  | false => rfl
  | true =>
    simp only [Sec.sem, Bool.not_true, Bool.false_eq_true, if_false]
    by_cases hn : count = 0
    · simp only [hn, if_true]; rfl
    · simp only [hn, if_false, Sec.sem]
      cases counts[findIndex pieces x]? with
      | none => rfl
      | some c =>
        cases c with
        | zero => rfl
        | succ c => rfl

theorem distCall_sem (c : DCall) (d : Dist Fl) (g : Shared) :
    (distCall c).sem d g = ((d.call c).1, g, none, (d.call c).2) := by
  cases c with
  | setUnit u => exact setUnit_sem u (fun _ => none) d g
  | add v ts =>
    simp only [distCall, valueToFloat_sem, Dist.call, Dist.addWithTs]
    cases d.valueToFloat v with
    | error p => rfl
    | ok x => exact add_sem x ts d g
  | update x y ts =>
    simp only [distCall, valueToFloat_sem, Dist.call, Dist.updateWithTs]
    cases d.valueToFloat x with
    | error p => rfl
    | ok a =>
      simp only
      cases d.valueToFloat y with
      | error p => rfl
      | ok b => exact update_sem a b ts d g
  | remove v ts =>
    simp only [distCall, valueToFloat_sem, Dist.call, Dist.removeWithTs]
    cases d.valueToFloat v with
    | error p => rfl
    | ok x => exact remove_sem x ts d g

theorem countLoop_readOnly {A : Type} {fin : List ℕ → Sec (Dist Fl) A} (h : ∀ l, (fin l).ReadOnly) (n i : ℕ)
    (acc : List ℕ) : (countLoop fin n i acc).ReadOnly := by
  induction n generalizing i acc with
  | zero => exact h acc
  | succ n ih => intro x; exact ih _ _

theorem countLoop_sem {A : Type} {fin : List ℕ → Sec (Dist Fl) A} (d : Dist Fl) (g : Shared) (n i : ℕ)
    (acc : List ℕ) (h : n + i = d.counts.length) :
    (countLoop fin n i acc).sem d g = (fin (acc ++ d.counts.drop i)).sem d g := by
  induction n generalizing i acc with
  | zero =>
    have : d.counts.drop i = [] := List.drop_eq_nil_of_le (by omega)
    simp [countLoop, this]
  | succ n ih =>
    have hi : i < d.counts.length := by omega
    simp only [countLoop, Sec.sem]
    rw [ih _ _ (by omega)]
    conv_rhs => rw [List.drop_eq_getElem_cons hi]
    congr 2
    simp only [List.getElem?_eq_getElem hi, Option.toList_some, List.append_assoc]
    rfl

/-- the unit plays no part in a snapshot -/
theorem snapshot_unit (d : Dist Fl) (u : MUnit) (b : Bool) : Dist.snapshot { d with unit := u, unitSet := b } = d.snapshot := rfl

theorem snapshot_sem (d : Dist Fl) (g : Shared) :
    snapshot.sem d g = (d, g, none, d.snapshot.map fun x => (⟨x, d.groupId⟩ : DistView)) := by
  simp only [snapshot, Sec.sem]
  rw [countLoop_sem _ _ _ _ _ rfl]
  simp only [Sec.sem, Sec.done, List.drop_zero, List.nil_append]
  rw [← snapshot_unit d (.other []) false]

/-- the fields of one distribution are replaced -/
theorem Agrees.setDist {cmd : Cmd} {i : ℕ} {o : Objs} {R : Shared} {x : Dist Fl} {r : cmd.Resp} (ok : cmd.Ok (whole o R))
    (h : Tricorder.exec w cmd (whole o R) = ({ whole o R with dists := (whole o R).dists.set i x }, r)) :
    Agrees w cmd (.dist i) o R (x, R, none, r) :=
  ⟨ok, by rw [h, whole_setDist]; rfl, .refl _, fun _ h => (nomatch h)⟩

theorem setUnit_right {g : Shared} {i : ℕ} {u : MUnit} (h : g.has (.dist i)) :
    Right w g (.setUnit i u) (.locked (.dist i) true (setUnit u some)) := by
  refine ⟨h, fun e => (nomatch e), fun R o hR => Agrees.of_eq (setUnit_sem u some _ _) (Agrees.setDist trivial ?_)⟩
  simp only [exec, whole_dist o R (hR.has h)]

theorem distCall_right {g : Shared} {i : ℕ} {c : DCall} (h : g.has (.dist i)) :
    Right w g (.distCall i c) (.locked (.dist i) true (distCall c)) := by
  refine ⟨h, fun e => (nomatch e), fun R o hR => Agrees.of_eq (distCall_sem c _ _) (Agrees.setDist trivial ?_)⟩
  simp only [exec, whole_dist o R (hR.has h)]

theorem snapshot_right {g : Shared} {i : ℕ} (h : g.has (.dist i)) :
    Right w g (.snapshot i) (.locked (.dist i) false snapshot) := by
  refine ⟨h, fun _ n => ?_, fun R o hR => Agrees.of_eq (snapshot_sem _ _) (Agrees.same trivial ?_)⟩
  · refine countLoop_readOnly ?_ _ _ _
    intro l a b c d e f t x y
    exact ⟨rfl, rfl, rfl⟩
  · simp only [exec, whole_dist o R (hR.has h)]

/-! ### Lists -/

theorem listGet_right {g : Shared} {i : ℕ} (h : g.has (.list i)) :
    Right w g (.getList i) (.locked (.list i) false (listGet i)) := by
  refine ⟨h, fun _ a b x y => ⟨rfl, rfl, rfl⟩, fun R o hR => Agrees.same trivial ?_⟩
  simp only [exec, listView, whole_list]
  cases R.kinds[i]? with
  | none => rfl
  | some k =>
    simp only [Option.map_some]
    show (_, _) = (_, _)
    rw [show (whole o R).mem = R.mem from rfl]
    cases R.mem[(o (.list i)).1]? <;> rfl

/-- whether a slice can be put in a list, and as what, stays the same -/
theorem asSlice_grows {g R : Shared} (hR : Grows g R) {a : SliceArg} {mu : Bool} (hc : ∀ c, a = .slice c → c < g.mem.length)
    (hm : ∀ mem c t, asSliceValue g.mem a mu = some (mem, c, t) → mem = g.mem) :
    asSliceValue R.mem a mu = (asSliceValue g.mem a mu).map fun x => (R.mem, x.2) := by
  cases a with
  | notSlice => rfl
  | slice c =>
    have hc := hc c rfl
    have he : (R.mem[c]?).map Cell.elem = (g.mem[c]?).map Cell.elem := by
      have := prefix_get hR.mem (i := c) (by simpa using hc)
      simpa using this
    rw [List.getElem?_eq_getElem hc] at he
    obtain ⟨y, hy⟩ : ∃ y, R.mem[c]? = some y := by
      cases h : R.mem[c]? with
      | none => rw [h] at he; cases he
      | some y => exact ⟨y, rfl⟩
    rw [hy] at he
    have he : y.elem = g.mem[c].elem := by simpa using he
    unfold asSliceValue at hm ⊢
    simp only [List.getElem?_eq_getElem hc, hy, he] at hm ⊢
    rcases hp : getPrimitiveType g.mem[c].elem with _ | ⟨t, _ | _⟩
    · rfl
    · simp only [hp] at hm ⊢
      split at hm
      · have := congrArg List.length (hm _ _ _ rfl); simp at this
      · have := congrArg List.length (hm _ _ _ rfl); simp at this
      · rename_i h1 h2
        cases mu with
        | true => have := congrArg List.length (hm _ _ _ rfl); simp at this
        | false =>
          split <;> simp_all
    · rfl

theorem changeList_right {g : Shared} {i : ℕ} {a : SliceArg} {mu : Bool} {ts : Time} (h : g.has (.list i))
    (hc : ∀ c, a = .slice c → c < g.mem.length) (hm : ∀ mem c t, asSliceValue g.mem a mu = some (mem, c, t) → mem = g.mem) :
    Right w g (.changeList i a mu ts) (code w g (.changeList i a mu ts)) := by
  have h' : i < g.kinds.length := h
  have key : ∀ R o, Grows g R → exec w (.changeList i a mu ts) (whole o R) = match asSliceValue g.mem a mu, g.kinds[i]? with
      | some (_, c, t), some k => if t = k.2 then (whole (Function.update o (.list i) (c, ts)) R, true) else (whole o R, false)
      | _, _ => (whole o R, false) := by
    intro R o hR
    have hk : R.kinds[i]? = g.kinds[i]? := prefix_get hR.kinds h'
    have hk' := List.getElem?_eq_getElem h'
    have hl : (whole o R).lists[i]? = some ⟨g.kinds[i].1, g.kinds[i].2, (o (.list i)).1, (o (.list i)).2⟩ := by
      rw [whole_list, hk, hk']; rfl
    simp only [exec, State.changeList, hl, hk']
    rw [show (whole o R).mem = R.mem from rfl, asSlice_grows hR hc hm]
    rcases hs : asSliceValue g.mem a mu with _ | ⟨mem, c, t⟩
    · rfl
    · simp only [Option.map_some]
      by_cases ht : t = g.kinds[i].2
      · simp only [ne_eq, ht, not_true_eq_false, if_false, if_true]
        rw [← whole_setList o R i (c, ts) (hk.trans hk')]
        rfl
      · simp only [ne_eq, ht, not_false_eq_true, if_true, if_false]
        rfl
  unfold code
  simp only
  have plain : (∀ R o, Grows g R → exec w (.changeList i a mu ts) (whole o R) = (whole o R, false)) →
      Right w g (.changeList i a mu ts) (onShared fun g => (g, false)) := by
    intro hp R o hR
    exact ⟨trivial, hp R o hR, .refl _, fun _ h => (nomatch h)⟩
  rcases hs : asSliceValue g.mem a mu with _ | ⟨mem, c, t⟩
  · simp only [hs] at key
    exact plain key
  · rcases hk : g.kinds[i]? with _ | k
    · rw [List.getElem?_eq_none_iff] at hk; omega
    · simp only [hs, hk] at key ⊢
      by_cases ht : t = k.2
      · simp only [ht, if_true] at key ⊢
        refine ⟨h, fun e => (nomatch e), fun R o hR => ⟨trivial, ?_, .refl _, fun _ h => (nomatch h)⟩⟩
        rw [key R o hR]
        rfl
      · simp only [ht, if_false] at key ⊢
        exact plain key

/-! ### Steps without a lock -/

theorem onShared_right {g : Shared} {cmd : Cmd} {f : Shared → Shared × cmd.Resp} (ok : ∀ s, cmd.Ok s)
    (h : ∀ R o, exec w cmd (whole o R) = (whole o (f R).1, (f R).2)) (hg : ∀ R, Grows R (f R).1) :
    Right w g cmd (onShared f) :=
  fun R o _ => ⟨ok _, h R o, hg R, fun _ h => (nomatch h)⟩

theorem newDist_right {g : Shared} {pieces : List (Piece Fl)} {nc : Bool} {ts : Time} :
    Right w g (.newDist pieces nc ts) (code w g (.newDist pieces nc ts)) := by
  intro R o _
  refine ⟨trivial, ?_, ⟨List.prefix_refl _, List.prefix_refl _, Nat.le_succ _, List.prefix_refl _, List.prefix_refl _⟩, ?_⟩
  · simp only [exec]
    refine Prod.ext (state_ext ?_ rfl rfl ?_ ?_ rfl rfl rfl rfl rfl) (by simp [whole]; rfl)
    · exact (update_dist_dirs o R R.ndists _).symm
    · apply List.ext_getElem?
      intro i
      have hl : (whole o R).dists.length = R.ndists := by simp [whole]
      simp only [List.getElem?_append, whole_dist', hl, Objs.add]
      by_cases hi : i < R.ndists
      · rw [if_pos hi, if_pos hi, if_pos (by omega), Function.update_of_ne (by simp; omega)]
      · rw [if_neg hi]
        by_cases e : i = R.ndists
        · subst e; simp; rfl
        · rw [if_neg (by omega), List.getElem?_eq_none (by simp; omega)]
    · exact (update_dist_lists o R R.ndists _).symm
  · intro fr e; cases e; exact lt_irrefl _

theorem asSlice_elems {mem mem' : List Cell} {a : SliceArg} {mu : Bool} {c : ℕ} {t : Ty}
    (h : asSliceValue mem a mu = some (mem', c, t)) : mem <+: mem' := by
  unfold asSliceValue at h
  repeat' split at h
  all_goals cases h
  all_goals first
    | exact List.prefix_append _ _
    | exact List.prefix_refl _

theorem newList_right {g : Shared} {a : SliceArg} {mu : Bool} {ts : Time} :
    Right w g (.newList a mu ts) (code w g (.newList a mu ts)) := by
  intro R o _
  simp only
  rcases hs : asSliceValue R.mem a mu with _ | ⟨mem, c, t⟩
  · refine ⟨trivial, ?_, .refl _, fun _ h => (nomatch h)⟩
    simp only [exec, State.newList, show (whole o R).mem = R.mem from rfl, hs]
    rfl
  · refine ⟨trivial, ?_, ⟨List.prefix_refl _, List.prefix_refl _, le_refl _, List.prefix_append _ _, ?_⟩, ?_⟩
    · simp only [exec, State.newList, show (whole o R).mem = R.mem from rfl, hs]
      refine Prod.ext (state_ext ?_ rfl rfl ?_ ?_ rfl rfl rfl rfl rfl) (by simp [whole])
      · exact (update_list_dirs o R R.kinds.length _).symm
      · exact (update_list_dists o R R.kinds.length _).symm
      · apply List.ext_getElem?
        intro i
        have hl : (whole o R).lists.length = R.kinds.length := by simp [whole]
        simp only [List.getElem?_append, whole_list, hl, Objs.add]
        by_cases hi : i < R.kinds.length
        · rw [if_pos hi, if_pos hi, Function.update_of_ne (by simp; omega)]
        · rw [if_neg hi, if_neg hi]
          by_cases e : i = R.kinds.length
          · subst e; simp; rfl
          · rw [List.getElem?_eq_none (by simp; omega), List.getElem?_eq_none (by simp; omega)]; rfl
    · exact (asSlice_elems hs).map _
    · intro fr e; cases e; exact lt_irrefl _

theorem whole_pathUp (o o' : Objs) (R : Shared) (stop : Option ℕ) (n : ℕ) (e : Option ℕ) :
    (whole o R).tree.pathUp stop n e = (whole o' R).tree.pathUp stop n e := by
  induction n generalizing e with
  | zero => rfl
  | succ n ih =>
    simp only [Tree.pathUp, ih]
    rfl

theorem whole_absPath (o o' : Objs) (R : Shared) (e : Option ℕ) : (whole o R).tree.absPath e = (whole o' R).tree.absPath e := by
  simp only [Tree.absPath, Tree.pathFrom, whole_enclosing, whole_pathUp o o' R]
  rfl

theorem writeCell_elem (c : Cell) (j : ℕ) (b : Base) : (writeCell c j b).elem = c.elem := by
  unfold writeCell; split <;> rfl

/-- all methods are right -/
theorem code_right (hw : Local w) {g : Shared} {o' : Objs} (ht : IsTree (whole o' g).tree) {cmd : Cmd} (hc : Callable g cmd) :
    Right w g cmd (code w g cmd) := by
  cases cmd with
  | getEntry d name => exact getListEntry_right hc
  | list d => exact listUnsorted_right hw hc
  | removeEntry d name => exact removeListEntry_right hc
  | unregisterDir d => exact unregisterDir_right hc ht
  | createDir d name => exact createDir_right hc.1 hc.2
  | storeMetric d name desc v => exact storeMetric_right hc.1 hc.2
  | metric m =>
    refine onShared_right (fun _ => trivial) (fun R o => ?_) fun R => .refl _
    simp only [exec, metricView, Tree.metricAbsPath, whole_absPath o blank R]
    rfl
  | dirAbsPath d =>
    refine onShared_right (fun _ => trivial) (fun R o => ?_) fun R => .refl _
    simp only [exec, Tree.dirAbsPath, whole_enclosing, whole_absPath o blank R]
  | setUnit i u => exact setUnit_right hc
  | snapshot i => exact snapshot_right hc
  | distCall i c => exact distCall_right hc
  | newDist p nc ts => exact newDist_right
  | newList a mu ts => exact newList_right
  | changeList i a mu ts => exact changeList_right hc.1 hc.2.1 hc.2.2
  | getList i => exact listGet_right hc
  | newVar d => exact onShared_right (fun _ => trivial) (fun R o => rfl) fun R => ⟨List.prefix_refl _, List.prefix_refl _, le_refl _, List.prefix_refl _, List.prefix_refl _⟩
  | readVar v => exact onShared_right (fun _ => trivial) (fun R o => rfl) fun R => .refl _
  | writeVar v d =>
    refine onShared_right (fun _ => trivial) (fun R o => ?_) fun R => ?_
    · simp only [exec, show (whole o R).vars = R.vars from rfl]
      cases R.vars[v]? with
      | none => rfl
      | some d0 =>
        simp only
        split <;> rfl
    · cases R.vars[v]? with
      | none => exact .refl _
      | some d0 =>
        simp only
        split
        · exact ⟨List.prefix_refl _, List.prefix_refl _, le_refl _, List.prefix_refl _, List.prefix_refl _⟩
        · exact .refl _
  | newSlice c =>
    refine onShared_right (fun _ => trivial) (fun R o => rfl) fun R => ⟨List.prefix_refl _, List.prefix_refl _, le_refl _, List.prefix_refl _, ?_⟩
    simp
  | writeSlice c j b =>
    refine onShared_right (fun _ => trivial) (fun R o => rfl) fun R => ⟨List.prefix_refl _, List.prefix_refl _, le_refl _, List.prefix_refl _, ?_⟩
    have : (R.mem.modify c fun x => writeCell x j b).map Cell.elem = R.mem.map Cell.elem := by
      apply List.ext_getElem?
      intro i
      simp only [List.getElem?_map, List.getElem?_modify]
      cases R.mem[i]? with
      | none => rfl
      | some x =>
        by_cases e : c = i
        · simp [e, writeCell_elem]
        · simp [e]
    show _ <+: (R.mem.modify c fun x => writeCell x j b).map Cell.elem
    rw [this]
    exact List.prefix_refl _
  | callFn f =>
    refine onShared_right (fun _ => trivial) (fun R o => ?_) fun R => .refl _
    simp only [exec, hw.fn (whole o R) (whole blank R) (by simp)]
  | callFlagGet f =>
    refine onShared_right (fun _ => trivial) (fun R o => ?_) fun R => .refl _
    simp only [exec, hw.flagGet (whole o R) (whole blank R) (by simp)]
  | callFlagString f =>
    refine onShared_right (fun _ => trivial) (fun R o => ?_) fun R => .refl _
    simp only [exec, hw.flagString (whole o R) (whole blank R) (by simp)]
  | newRegion => exact onShared_right (fun _ => trivial) (fun R o => rfl) fun R => ⟨List.prefix_refl _, List.prefix_refl _, le_refl _, List.prefix_refl _, List.prefix_refl _⟩
  | regionId r => exact onShared_right (fun _ => trivial) (fun R o => rfl) fun R => .refl _
  | rlock r =>
    refine onShared_right (fun _ => trivial) (fun R o => ?_) fun R => .refl _
    simp only [exec, hw.lockTime (whole o R) (whole blank R) (by simp)]
  | runlock r => exact onShared_right (fun _ => trivial) (fun R o => rfl) fun R => .refl _
  | tick n => exact onShared_right (fun _ => trivial) (fun R o => rfl) fun R => ⟨List.prefix_refl _, List.prefix_refl _, le_refl _, List.prefix_refl _, List.prefix_refl _⟩

end Tricorder.Locks
