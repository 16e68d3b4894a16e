import Verif.Proof.Cost
import Verif.Proof.ListRun2
/-!
# A listing goes into each directory once
-/

namespace Tricorder
open Go Spec Tree

variable {w : World} {α β A : Type}

/-- `x` is in `d`, at any depth, by what the entries say -/
inductive Inside (t : Tree MValue) (d : ℕ) : ℕ → Prop where
  | here : d < t.dirs.length → Inside t d d
  | step {y name e en x} : Inside t d y → Linked t y name e en → en.dir = some x → Inside t d x

/-- the age of a directory, by its entry -/
def dirAge (t : Tree MValue) (d : ℕ) : ℕ := match t.enclosing d with
  | none => 0
  | some e => e + 1

theorem linked_age {t : Tree MValue} (ht : IsTree t) {d name e en x} (h : Linked t d name e en) (hd : en.dir = some x) :
    dirAge t d < dirAge t x ∧ t.enclosing x = some e ∧ x < t.dirs.length := by
  obtain ⟨-, h1, h2, h3⟩ := entry_dir ht h.1 hd
  refine ⟨?_, h3, h2⟩
  unfold dirAge
  rw [h3]
  cases hp : t.enclosing d with
  | none => simp
  | some p =>
    have := (ht.parent e en p h.1 (by rw [h.2.2.1, hp])).1
    simpa using this

theorem inside_lt {t : Tree MValue} (ht : IsTree t) {d x} (h : Inside t d x) : x < t.dirs.length := by
  induction h with
  | here h => exact h
  | step _ hl hd _ => exact (linked_age ht hl hd).2.2

theorem inside_age {t : Tree MValue} (ht : IsTree t) {d x} (h : Inside t d x) : dirAge t d ≤ dirAge t x := by
  induction h with
  | here => exact le_rfl
  | step _ hl hd ih => exact ih.trans (linked_age ht hl hd).1.le

/-- the directory above is determined -/
theorem linked_parent {t : Tree MValue} (ht : IsTree t) {d d' name name' e e' en en' x} (h1 : Linked t d name e en)
    (h2 : en.dir = some x) (h3 : Linked t d' name' e' en') (h4 : en'.dir = some x) : d = d' ∧ e = e' := by
  have a1 := (linked_age ht h1 h2).2.1
  have a2 := (linked_age ht h3 h4).2.1
  rw [a1] at a2
  cases a2
  have := h1.1.symm.trans h3.1
  cases this
  exact ⟨enclosing_inj ht h1.2.2.2 h3.2.2.2 (h1.2.2.1.symm.trans h3.2.2.1), rfl⟩

/-- of two directories that contain a third one, one contains the other -/
theorem inside_linear {t : Tree MValue} (ht : IsTree t) {a b x} (h1 : Inside t a x) (h2 : Inside t b x) :
    Inside t a b ∨ Inside t b a := by
  induction h1 with
  | here => exact .inr h2
  | @step y name e en x h hl hd ih =>
    cases h2 with
    | here hb => exact .inl (.step h hl hd)
    | @step y' name' e' en' _ h' hl' hd' =>
      obtain ⟨rfl, -⟩ := linked_parent ht hl hd hl' hd'
      exact ih h'

/-- what is in one entry of a directory is not in another one -/
theorem inside_apart {t : Tree MValue} (ht : IsTree t) {d name name' e e' en en' a b x} (h1 : Linked t d name e en)
    (h2 : en.dir = some a) (h3 : Linked t d name' e' en') (h4 : en'.dir = some b) (h5 : Inside t a x) (h6 : Inside t b x) :
    e = e' := by
  have key : ∀ {a b name name' e e' en en'}, Linked t d name e en → en.dir = some a → Linked t d name' e' en' →
      en'.dir = some b → Inside t a b → e = e' := by
    intro a b name name' e e' en en' h1 h2 h3 h4 h
    cases h with
    | here => exact (linked_parent ht h1 h2 h3 h4).2
    | step h' hl hd =>
      obtain ⟨rfl, -⟩ := linked_parent ht hl hd h3 h4
      have := inside_age ht h'
      have := (linked_age ht h1 h2).1
      omega
  rcases inside_linear ht h5 h6 with h | h
  · exact key h1 h2 h3 h4 h
  · exact (key h3 h4 h1 h2 h).symm

theorem inside_trans {t : Tree MValue} {a b x} (h1 : Inside t a b) (h2 : Inside t b x) : Inside t a x := by
  induction h2 with
  | here => exact h1
  | step _ hl hd ih => exact .step ih hl hd

theorem dirsListed_append (h1 h2 : List Ev) : dirsListed (h1 ++ h2) = dirsListed h1 ++ dirsListed h2 := by
  simp [dirsListed]

theorem dirsListed_none {V : ℕ → Option MetricView} {p : Prog α} {σ σ' : State} {h : List Ev} {a : α} (hr : RunI w p σ h σ' a)
    (hV : ∀ e ∈ h, ∀ m mv, metricView e.pre.tree m = some mv → V m = some mv) {Q : ℕ → α → Prop}
    (hp : Costs V p fun n l a => l = 0 ∧ Q n a) : dirsListed h = [] := by
  obtain ⟨l, h1, -, h2, -⟩ := costs_run hr hV hp
  rw [h2] at h1
  exact List.eq_nil_of_length_eq_zero h1.symm

theorem dirsListed_ret {p : α} {σ σ' : State} {h : List Ev} {a : α} (hr : RunI w (.ret p) σ h σ' a) : dirsListed h = [] := by
  have h1 := (RunI_ret hr).2
  unfold dirsListed
  rw [List.filterMap_eq_nil_iff]
  intro e he
  simp [h1 e he]

/-- the directories that are listed are different ones that are inside, in the final tree -/
def Once (t : Tree MValue) (d : ℕ) (l : List ℕ) : Prop := l.Nodup ∧ ∀ x ∈ l, Inside t d x

theorem forEntries_once {S : State → Prop} {T : Tree MValue} (hT : IsTree T)
    (hS : ∀ τ, S τ → IsTree τ.tree ∧ Ext τ.tree T) {coll : Coll A} (hc : CollCosts (metricView T) coll) {d : ℕ}
    {sub : ℕ → Session → A → Prog (Session × A × Status)}
    (hsub : ∀ {d s a σ h σ' r}, d < T.dirs.length → RunI w (sub d s a) σ h σ' r → (∀ e ∈ h, S e.pre) → Once T d (dirsListed h))
    {es : List (ℕ × Entry)} (hes : ∀ x ∈ es, Linked T d x.2.name x.1 x.2) (hn : (es.map Prod.fst).Nodup)
    {s : Session} {a : A} {σ σ' h r} (hr : RunI w (forEntries sub coll es s a) σ h σ' r) (hh : ∀ e ∈ h, S e.pre) :
    (dirsListed h).Nodup ∧ ∀ x ∈ dirsListed h, ∃ e en y, (e, en) ∈ es ∧ en.dir = some y ∧ Inside T y x := by
  induction es generalizing s a σ h r with
  | nil =>
    rw [dirsListed_ret hr]
    simp
  | cons x es ih =>
    obtain ⟨e, en⟩ := x
    have hl := hes (e, en) (by simp)
    unfold forEntries at hr
    obtain ⟨h1, σ1, ⟨s1, a1, st1⟩, h2, rfl, r1, r2⟩ := RunI_bind hr
    have k1 : (dirsListed h1).Nodup ∧ ∀ x ∈ dirsListed h1, ∃ y, en.dir = some y ∧ Inside T y x := by
      cases hd : en.dir with
      | some y =>
        simp only [hd] at r1
        obtain ⟨b1, b2⟩ := hsub (linked_age hT hl hd).2.2 r1 fun e he => hh e (by simp [he])
        exact ⟨b1, fun x hx => ⟨y, rfl, b2 x hx⟩⟩
      | none =>
        cases hm : en.metric with
        | some m =>
          simp only [hd, hm] at r1
          rw [dirsListed_none r1 (fun e he m mv hm => metricView_ext (hS _ (hh e (by simp [he]))).1 hT (hS _ (hh e (by simp [he]))).2 hm)
            (collect_costs hc m s a)]
          simp
        | none =>
          simp only [hd, hm] at r1
          rw [dirsListed_ret r1]
          simp
    have k2 : (dirsListed h2).Nodup ∧ ∀ x ∈ dirsListed h2, ∃ e en y, (e, en) ∈ es ∧ en.dir = some y ∧ Inside T y x := by
      cases st1 with
      | ok =>
        exact ih (fun x hx => hes x (by simp [hx])) (by simp at hn; exact hn.2) r2 fun e he => hh e (by simp [he])
      | _ =>
        rw [dirsListed_ret r2]
        simp
    rw [dirsListed_append]
    refine ⟨List.nodup_append.mpr ⟨k1.1, k2.1, ?_⟩, ?_⟩
    · rintro x hx _ hx' rfl
      obtain ⟨y, b1, b2⟩ := k1.2 x hx
      obtain ⟨e', en', y', b3, b4, b5⟩ := k2.2 x hx'
      have := inside_apart hT hl b1 (hes _ (List.mem_cons_of_mem _ b3)) b4 b2 b5
      simp only [List.map_cons, List.nodup_cons] at hn
      exact hn.1 (List.mem_map.mpr ⟨_, b3, this.symm⟩)
    · intro x hx
      rcases List.mem_append.mp hx with hx | hx
      · obtain ⟨y, b1, b2⟩ := k1.2 x hx
        exact ⟨e, en, y, by simp, b1, b2⟩
      · obtain ⟨e', en', y', b3, b4, b5⟩ := k2.2 x hx
        exact ⟨e', en', y', List.mem_cons_of_mem _ b3, b4, b5⟩

theorem list_ids {τ : State} {d : ℕ} (ht : IsTree τ.tree) : ((sortEntries (exec w (.list d) τ).2).map Prod.fst).Nodup := by
  have h1 := ((sortEntries_perm (exec w (.list d) τ).2).map fun x => x.2.name).nodup_iff.mpr (list_names ht)
  have h2 : ∀ x ∈ sortEntries (exec w (.list d) τ).2, τ.tree.entries[x.1]? = some x.2 := fun x hx => (list_mem ht hx).2
  rw [List.Nodup, List.pairwise_map] at h1 ⊢
  refine h1.imp_of_mem fun {a b} ha hb hab he => hab ?_
  have h3 := h2 a ha
  rw [he, h2 b hb] at h3
  rw [Option.some.inj h3]

/-- a traversal lists each directory at most once, whatever other goroutines do -/
theorem traverse_once {S : State → Prop} {T : Tree MValue} (hT : IsTree T)
    (hS : ∀ τ, S τ → IsTree τ.tree ∧ Ext τ.tree T) {coll : Coll A} (hc : CollCosts (metricView T) coll) {fuel d : ℕ} (hd : d < T.dirs.length)
    {s : Session} {a : A} {σ σ' h r} (hr : RunI w (traverse coll fuel d s a) σ h σ' r) (hh : ∀ e ∈ h, S e.pre) :
    Once T d (dirsListed h) := by
  induction fuel generalizing d s a σ h σ' r with
  | zero =>
    rw [dirsListed_ret hr]
    exact ⟨List.nodup_nil, by simp⟩
  | succ n ih =>
    obtain ⟨h1, τ, h2, rfl, r1, r2⟩ := RunI_op hr
    have hτ : S τ := hh ⟨true, .list d, τ⟩ (by simp)
    have ht := (hS τ hτ).1
    have hl : ∀ x ∈ sortEntries (exec w (.list d) τ).2, Linked T d x.2.name x.1 x.2 := fun x hx =>
      (linked_of_child ht (list_mem ht hx).1 (list_mem ht hx).2).ext (hS τ hτ).2
    obtain ⟨k1, k2⟩ := forEntries_once hT hS hc (sub := traverse coll n) (fun hd hr hh => ih hd hr hh) hl (list_ids ht) r2
      fun e he => hh e (by simp [he])
    rw [dirsListed_append, dirsListed_ret r1]
    have e1 : dirsListed (⟨true, .list d, τ⟩ :: h2) = d :: dirsListed h2 := by simp [dirsListed]
    rw [List.nil_append, e1]
    refine ⟨List.nodup_cons.mpr ⟨?_, k1⟩, ?_⟩
    · intro hx
      obtain ⟨e, en, y, b1, b2, b3⟩ := k2 d hx
      have := inside_age hT b3
      have := (linked_age hT (hl _ b1) b2).1
      omega
    · intro x hx
      rcases List.mem_cons.mp hx with rfl | hx
      · exact .here hd
      · obtain ⟨e, en, y, b1, b2, b3⟩ := k2 x hx
        exact inside_trans (.step (.here hd) (hl _ b1) b2) b3

/-! ### the entries found -/

/-- the events at which the request lists a directory -/
def listings (h : List Ev) : List (ℕ × State) :=
  h.filterMap fun e => match e.own, e.cmd with
    | true, .list d => some (d, e.pre)
    | _, _ => none

theorem listings_fst (h : List Ev) : (listings h).map Prod.fst = dirsListed h := by
  unfold listings dirsListed
  rw [List.map_filterMap]
  refine List.filterMap_congr fun e _ => ?_
  obtain ⟨o, c, s⟩ := e
  cases o <;> cases c <;> rfl

theorem listings_mem {h : List Ev} {x : ℕ × State} (hx : x ∈ listings h) : ∃ e ∈ h, e.pre = x.2 := by
  obtain ⟨e, he, h1⟩ := List.mem_filterMap.mp hx
  refine ⟨e, he, ?_⟩
  split at h1
  · cases h1; rfl
  · cases h1

theorem entriesFound_listings (h : List Ev) :
    entriesFound h = ((listings h).map fun x => (x.2.tree.contents x.1).length).sum := by
  induction h with
  | nil => rfl
  | cons e h ih =>
    obtain ⟨o, c, s⟩ := e
    cases o with
    | false => simpa [entriesFound, listings] using ih
    | true =>
      cases c <;> simpa [entriesFound, listings, entriesOf] using ih

/-- if no directory is listed twice, no entry is found twice -/
theorem found_le {S : State → Prop} {T : Tree MValue} (hT : IsTree T) (hS : ∀ τ, S τ → IsTree τ.tree ∧ Ext τ.tree T)
    {L : List (ℕ × State)} (hL : ∀ x ∈ L, S x.2) (hn : (L.map Prod.fst).Nodup) :
    (L.map fun x => (x.2.tree.contents x.1).length).sum ≤ T.entries.length := by
  have h1 : ∀ x ∈ L, ∀ y ∈ x.2.tree.contents x.1, ∃ en, Linked T x.1 y.1 y.2 en := by
    intro x hx y hy
    obtain ⟨ht, hx'⟩ := hS _ (hL x hx)
    have hc : Child x.2.tree x.1 y.1 y.2 := hy
    obtain ⟨en, he, -⟩ := ht.child _ _ _ hc
    exact ⟨en, (linked_of_child ht hc he).ext hx'⟩
  have h2 : (L.flatMap fun x => (x.2.tree.contents x.1).map Prod.snd).Nodup := by
    rw [List.nodup_flatMap]
    constructor
    · intro x hx
      have hk := (hS _ (hL x hx)).1.keys x.1
      rw [List.Nodup, List.pairwise_map] at hk ⊢
      refine hk.imp_of_mem fun {a b} ha hb hab he => hab ?_
      obtain ⟨en, e1⟩ := h1 x hx a ha
      obtain ⟨en', e2⟩ := h1 x hx b hb
      have := e1.1
      rw [he, e2.1] at this
      cases this
      rw [← e1.2.1, e2.2.1]
    · rw [List.Nodup, List.pairwise_map] at hn
      refine hn.imp_of_mem fun {x y} hx hy hxy => ?_
      intro e he he'
      obtain ⟨a, ha, rfl⟩ := List.mem_map.mp he
      obtain ⟨b, hb, hab⟩ := List.mem_map.mp he'
      obtain ⟨en, e1⟩ := h1 x hx a ha
      obtain ⟨en', e2⟩ := h1 y hy b hb
      rw [hab] at e2
      have := e1.1.symm.trans e2.1
      cases this
      exact hxy (enclosing_inj hT e1.2.2.2 e2.2.2.2 (e1.2.2.1.symm.trans e2.2.2.1))
  have h3 : (L.flatMap fun x => (x.2.tree.contents x.1).map Prod.snd).length ≤ T.entries.length := by
    have hsub : (L.flatMap fun x => (x.2.tree.contents x.1).map Prod.snd) ⊆ List.range T.entries.length := by
      intro e he
      obtain ⟨x, hx, he⟩ := List.mem_flatMap.mp he
      obtain ⟨a, ha, rfl⟩ := List.mem_map.mp he
      obtain ⟨en, e1⟩ := h1 x hx a ha
      exact List.mem_range.mpr (List.getElem?_eq_some_iff.mp e1.1).1
    have := (List.subperm_of_subset h2 hsub).length_le
    simpa using this
  rw [List.length_flatMap] at h3
  simpa using h3

end Tricorder
