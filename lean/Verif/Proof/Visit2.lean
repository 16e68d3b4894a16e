import Verif.Proof.Visit
/-!
# What a traversal visits, with interference
-/

namespace Tricorder
open Go Spec Tree

variable {A α : Type} {w : World}

theorem RunI_ext_final {p : Prog α} {s s' : State} {h : List Ev} {a : α} (hr : RunI w p s h s' a) :
    ∀ e ∈ h, Ext e.pre.tree s'.tree := by
  induction hr with
  | ret => simp
  | env c hc hr ih =>
    intro e he
    rcases List.mem_cons.mp he with hh | hh
    · subst hh; exact (exec_ext c _).trans (RunI_ext hr).2
    · exact ih e hh
  | op hr ih =>
    intro e he
    rcases List.mem_cons.mp he with hh | hh
    · subst hh; exact (exec_ext _ _).trans (RunI_ext hr).2
    · exact ih e hh

theorem between_nil : Between [] := fun _ h => nomatch h

theorem _root_.Tricorder.Spec.Between.append {a b : List Ev} (ha : Between a) (hb : Between b) : Between (a ++ b) := by
  intro e he
  rcases List.mem_append.mp he with h | h
  · exact ha e h
  · exact hb e h

/-- the own steps of a run are steps of the program -/
theorem own_steps {Q : Cmd → Prop} {p : Prog α} {s s' : State} {h : List Ev} {a : α} (hp : ProgAll Q p) (hr : RunI w p s h s' a) :
    ∀ e ∈ h, e.own = true → Q e.cmd := by
  induction hr with
  | ret => intro e he; cases he
  | env c hc hr ih =>
    intro e he ho
    rcases List.mem_cons.mp he with rfl | he
    · cases ho
    · exact ih hp e he ho
  | op hr ih =>
    intro e he ho
    rcases List.mem_cons.mp he with rfl | he
    · exact hp.1
    · exact ih (hp.2 _) e he ho

theorem others_between {p : Prog α} {a b : α} {s s' : State} {h : List Ev} (hp : p = .ret a) (hr : RunI w p s h s' b) : Between h := by
  subst hp
  intro e he ho
  rw [(RunI_ret hr).2 e he] at ho
  cases ho

theorem close_steps (s : Session) : ProgAll (fun c => ∃ r, c = .runlock r) (close s) := by
  induction s with
  | nil => trivial
  | cons x s ih => exact ⟨⟨_, rfl⟩, fun _ => ih⟩

theorem getDirectory_steps (d : ℕ) (p : List Str) : ProgAll (fun c => ∃ d name, c = .getEntry d name) (getDirectory d p) := by
  induction p generalizing d with
  | nil => trivial
  | cons x p ih =>
    refine ⟨⟨_, _, rfl⟩, fun r => ?_⟩
    rcases r with _ | ⟨_, n⟩
    · trivial
    · dsimp only
      split
      · trivial
      · exact ih _

theorem lookupPath_steps (d : ℕ) (path : Str) : ProgAll (fun c => ∃ d name, c = .getEntry d name) (lookupPath d path) := by
  unfold lookupPath getDirectoryOrMetric
  split
  · refine ProgAll_bind (getDirectory_steps _ _) fun r => ?_
    rcases r with _ | d'
    · trivial
    · refine ⟨⟨_, _, rfl⟩, fun r => ?_⟩
      rcases r with _ | ⟨_, n⟩ <;> trivial
  · trivial

theorem lookup_between {d : ℕ} {path : Str} {s s' : State} {h : List Ev} {r} (hr : RunI w (lookupPath d path) s h s' r) : Between h :=
  fun e he ho => .inl (own_steps (lookupPath_steps d path) hr e he ho)

theorem close_between {se : Session} {s s' : State} {h : List Ev} {r} (hr : RunI w (close se) s h s' r) : Between h :=
  fun e he ho => .inr (.inr (own_steps (close_steps se) hr e he ho))

theorem _root_.Tricorder.Spec.Calls.before {coll : Coll A} {b H : List Ev} (hb : Between b) {ms s a s' a' st}
    (h : Calls w coll H ms s a s' a' st) : Calls w coll (b ++ H) ms s a s' a' st := by
  cases h with
  | done he => exact .done (hb.append he)
  | timeout he => exact .timeout (hb.append he)
  | more h1 h2 h3 => rw [← List.append_assoc]; exact .more (hb.append h1) h2 h3
  | stop h1 h2 h3 h4 => rw [← List.append_assoc]; exact .stop (hb.append h1) h2 h3 h4

theorem _root_.Tricorder.Spec.Calls.after {coll : Coll A} {e H : List Ev} (he : Between e) {ms s a s' a' st}
    (h : Calls w coll H ms s a s' a' st) : Calls w coll (H ++ e) ms s a s' a' st := by
  induction h with
  | done h => exact .done (h.append he)
  | timeout h => exact .timeout (h.append he)
  | more h1 h2 _ ih => rw [List.append_assoc, List.append_assoc]; exact .more h1 h2 ih
  | stop h1 h2 h3 h4 => rw [List.append_assoc, List.append_assoc]; exact .stop h1 h2 (h3.append he) h4

theorem _root_.Tricorder.Spec.Calls.append {coll : Coll A} {H H' : List Ev} {ms ms' s a s' a' s'' a'' st}
    (h1 : Calls w coll H ms s a s' a' .ok) (h2 : Calls w coll H' ms' s' a' s'' a'' st) :
    Calls w coll (H ++ H') (ms ++ ms') s a s'' a'' st := by
  generalize hst : Status.ok = x at h1
  induction h1 with
  | done he => exact h2.before he
  | timeout => cases hst
  | more hb hr _ ih => rw [List.append_assoc, List.append_assoc]; exact .more hb hr (ih h2 hst)
  | stop _ _ _ hn => exact absurd hst.symm hn

/-- a single call -/
theorem calls_one {coll : Coll A} {m : ℕ} {s a σ h σ' s' a' st} (hr : RunI w (collect coll m s a) σ h σ' (s', a', st)) :
    Calls w coll h [m] s a s' a' st := by
  have e : h = [] ++ (h ++ []) := by simp
  by_cases hst : st = .ok
  · subst hst
    rw [e]
    exact .more between_nil hr (.done between_nil)
  · rw [e]
    exact .stop between_nil hr between_nil hst

/-- what has to be shown of a traversal of directory `d` -/
structure Visited (w : World) (coll : Coll A) (S : State → Prop) (H : List Ev) (d : ℕ)
    (s : Session) (a : A) (s' : Session) (a' : A) (st : Status) (V : List (List Str × ℕ)) : Prop where
  calls : Calls w coll H (V.map Prod.snd) s a s' a' st
  sorted : V.Pairwise fun x y => x.1 < y.1
  seen : ∀ x ∈ V, Seen S d x.1 x.2
  complete : ∀ p m, Stable S d p m → (p, m) ∈ V ∨ (st ≠ .ok ∧ ∀ x ∈ V, x.1 < p)

/-- the same for a part of the entries of directory `d` -/
structure VisitedPart (w : World) (coll : Coll A) (S : State → Prop) (H : List Ev) (d : ℕ)
    (names : List Str)
    (s : Session) (a : A) (s' : Session) (a' : A) (st : Status) (V : List (List Str × ℕ)) : Prop where
  calls : Calls w coll H (V.map Prod.snd) s a s' a' st
  sorted : V.Pairwise fun x y => x.1 < y.1
  seen : ∀ x ∈ V, Seen S d x.1 x.2
  part : ∀ x ∈ V, ∃ n ∈ names, ∃ q, x.1 = n :: q
  complete : ∀ n ∈ names, ∀ q m, Stable S d (n :: q) m →
    (n :: q, m) ∈ V ∨ (st ≠ .ok ∧ ∀ x ∈ V, x.1 < n :: q)

theorem stable_sub {S : State → Prop} {T : Tree MValue} (hT : IsTree T)
    (hS : ∀ τ, S τ → IsTree τ.tree ∧ Ext τ.tree T) {τ : State} (hτ : S τ) {d name q m d'}
    (h1 : Reaches τ.tree d [name] (.dir d')) (hst : Stable S d (name :: q) m) : Stable S d' q m := by
  have hq : q ≠ [] := by
    rintro rfl
    have := hst τ hτ
    cases reaches_unique (hS τ hτ).1 h1 this
  have h2 : Reaches τ.tree d' q (.metric m) := reaches_suffix (hS τ hτ).1 (hst τ hτ) h1
  intro σ hσ
  obtain ⟨d1, h3, h4⟩ := (reaches_cons_iff hq).mp (hst σ hσ)
  have := trail_start hT ((trail_of_reaches (hS τ hτ).1 h2).ext (hS τ hτ).2)
    ((trail_of_reaches (hS σ hσ).1 h4).ext (hS σ hσ).2)
  rw [this]
  exact h4

theorem cons_lt_cons {a b : Str} {p q : List Str} (h : a < b) : a :: p < b :: q :=
  List.cons_lt_cons_iff.mpr (Or.inl h)

theorem cons_lt_same {a : Str} {p q : List Str} (h : p < q) : a :: p < a :: q :=
  List.cons_lt_cons_iff.mpr (Or.inr ⟨rfl, h⟩)

/-- one entry -/
theorem entry_visit {S : State → Prop} {T : Tree MValue} (hT : IsTree T)
    (hS : ∀ τ, S τ → IsTree τ.tree ∧ Ext τ.tree T) {τ : State} (hτ : S τ) {d : ℕ} {coll : Coll A}
    {sub : ℕ → Session → A → Prog (Session × A × Status)}
    {e : ℕ} {en : Entry} (hc : Child τ.tree d en.name e) (he : τ.tree.entries[e]? = some en)
    (hsub : ∀ {d' s a σ h σ' s' a' st}, RunI w (sub d' s a) σ h σ' (s', a', st) →
      (∀ e ∈ h, S e.pre) → ∃ V, Visited w coll S h d' s a s' a' st V)
    {s : Session} {a : A} {σ σ' h s' a' st}
    (hr : RunI w (match en.dir, en.metric with
      | some d, _ => sub d s a
      | none, some m => collect coll m s a
      | none, none => .ret (s, a, .panic)) σ h σ' (s', a', st))
    (hh : ∀ e ∈ h, S e.pre) :
    ∃ V, VisitedPart w coll S h d [en.name] s a s' a' st V := by
  have ht := (hS τ hτ).1
  cases hd : en.dir with
  | some d' =>
    rw [hd] at hr
    have h1 : Reaches τ.tree d [en.name] (.dir d') := (reaches_one_iff ht).mpr ⟨e, en, hc, he, hd⟩
    obtain ⟨V, hV⟩ := hsub hr hh
    refine ⟨V.map fun x => (en.name :: x.1, x.2), ?_, ?_, ?_, ?_, ?_⟩
    · rw [List.map_map]; exact hV.calls
    · rw [List.pairwise_map]
      exact hV.sorted.imp fun {a b} h => cons_lt_same h
    · intro x hx
      obtain ⟨y, hy, rfl⟩ := List.mem_map.mp hx
      exact .dir hτ h1 (hV.seen y hy)
    · intro x hx
      obtain ⟨y, hy, rfl⟩ := List.mem_map.mp hx
      exact ⟨en.name, by simp, y.1, rfl⟩
    · intro n hn q m hst
      rw [List.mem_singleton] at hn
      subst hn
      rcases hV.complete q m (stable_sub hT hS hτ h1 hst) with h | ⟨h2, h3⟩
      · exact Or.inl (List.mem_map.mpr ⟨(q, m), h, rfl⟩)
      · refine Or.inr ⟨h2, ?_⟩
        intro x hx
        obtain ⟨y, hy, rfl⟩ := List.mem_map.mp hx
        exact cons_lt_same (h3 y hy)
  | none =>
    cases hm : en.metric with
    | none =>
      exfalso
      rcases ht.entry e en he with ⟨m, mo, h1, _⟩ | ⟨d', _, h2, _⟩
      · rw [hm] at h1; cases h1
      · rw [hd] at h2; cases h2
    | some m =>
      rw [hd, hm] at hr
      have h1 : Reaches τ.tree d [en.name] (.metric m) := .metric hc he hm
      refine ⟨[([en.name], m)], ?_, by simp, ?_, ?_, ?_⟩
      · exact calls_one hr
      · intro x hx
        rw [List.mem_singleton] at hx
        subst hx
        exact .metric hτ h1
      · intro x hx
        rw [List.mem_singleton] at hx
        subst hx
        exact ⟨en.name, by simp, [], rfl⟩
      · intro n hn q m' hst
        rw [List.mem_singleton] at hn
        subst hn
        have h2 := hst τ hτ
        have hq : q = [] := reaches_metric_prefix (p := [en.name]) ht h2 h1
        subst hq
        cases reaches_unique ht h1 h2
        exact Or.inl (by simp)

theorem forEntries_visit {S : State → Prop} {T : Tree MValue} (hT : IsTree T)
    (hS : ∀ τ, S τ → IsTree τ.tree ∧ Ext τ.tree T) {τ : State} (hτ : S τ) {d : ℕ} {coll : Coll A}
    {sub : ℕ → Session → A → Prog (Session × A × Status)}
    (hsub : ∀ {d' s a σ h σ' s' a' st}, RunI w (sub d' s a) σ h σ' (s', a', st) →
      (∀ e ∈ h, S e.pre) → ∃ V, Visited w coll S h d' s a s' a' st V)
    {l : List (ℕ × Entry)} (hl : ∀ x ∈ l, Child τ.tree d x.2.name x.1 ∧ τ.tree.entries[x.1]? = some x.2)
    (hsort : l.Pairwise fun x y => x.2.name < y.2.name)
    {s : Session} {a : A} {σ σ' h s' a' st}
    (hr : RunI w (forEntries sub coll l s a) σ h σ' (s', a', st)) (hh : ∀ e ∈ h, S e.pre) :
    ∃ V, VisitedPart w coll S h d (l.map fun x => x.2.name) s a s' a' st V := by
  induction l generalizing s a σ h with
  | nil =>
    have hb := others_between rfl hr
    cases (RunI_ret hr).1
    exact ⟨[], .done hb, by simp, by simp, by simp, by simp⟩
  | cons x l ih =>
    obtain ⟨e, en⟩ := x
    rw [List.pairwise_cons] at hsort
    unfold forEntries at hr
    obtain ⟨h1, s1, r, h2, rfl, r1, r2⟩ := RunI_bind hr
    obtain ⟨s2, a2, st2⟩ := r
    obtain ⟨hc, he⟩ := hl _ List.mem_cons_self
    obtain ⟨V1, hV1⟩ := entry_visit hT hS hτ (w := w) hc he hsub r1
      (fun e he => hh e (List.mem_append_left _ he))
    have hhead : ∀ x ∈ V1, ∃ q, x.1 = en.name :: q := by
      intro x hx
      obtain ⟨n, hn, q, hq⟩ := hV1.part x hx
      simp only [List.mem_singleton] at hn
      subst hn
      exact ⟨q, hq⟩
    have hlt : ∀ n ∈ l.map (fun x => x.2.name), en.name < n := by
      intro n hn
      obtain ⟨y, hy, rfl⟩ := List.mem_map.mp hn
      exact hsort.1 y hy
    have stop : st2 ≠ .ok → Between h2 → s2 = s' → a2 = a' → st2 = st →
        ∃ V, VisitedPart w coll S (h1 ++ h2) d (((e, en) :: l).map fun x => x.2.name) s a s' a' st V := by
      rintro hne hb rfl rfl rfl
      refine ⟨V1, hV1.calls.after hb, hV1.sorted, hV1.seen, ?_, ?_⟩
      · intro x hx
        obtain ⟨q, hq⟩ := hhead x hx
        exact ⟨en.name, by simp, q, hq⟩
      · intro n hn q m hst
        rw [List.map_cons, List.mem_cons] at hn
        rcases hn with rfl | hn
        · exact hV1.complete _ (by simp) q m hst
        · refine Or.inr ⟨hne, ?_⟩
          intro x hx
          obtain ⟨q', hq'⟩ := hhead x hx
          rw [hq']
          exact cons_lt_cons (hlt n hn)
    cases st2 with
    | err er =>
      have := (RunI_ret r2).1
      simp only [Prod.mk.injEq] at this
      exact stop (by simp) (others_between rfl r2) this.1 this.2.1 this.2.2
    | panic =>
      have := (RunI_ret r2).1
      simp only [Prod.mk.injEq] at this
      exact stop (by simp) (others_between rfl r2) this.1 this.2.1 this.2.2
    | timeout =>
      have := (RunI_ret r2).1
      simp only [Prod.mk.injEq] at this
      exact stop (by simp) (others_between rfl r2) this.1 this.2.1 this.2.2
    | ok =>
      obtain ⟨V2, hV2⟩ := ih (fun x hx => hl x (List.mem_cons_of_mem _ hx)) hsort.2 r2
        (fun e he => hh e (List.mem_append_right _ he))
      have hcross : ∀ x ∈ V1, ∀ y ∈ V2, x.1 < y.1 := by
        intro x hx y hy
        obtain ⟨q, hq⟩ := hhead x hx
        obtain ⟨n, hn, q', hq'⟩ := hV2.part y hy
        rw [hq, hq']
        exact cons_lt_cons (hlt n hn)
      refine ⟨V1 ++ V2, ?_, ?_, ?_, ?_, ?_⟩
      · rw [List.map_append]
        exact hV1.calls.append hV2.calls
      · rw [List.pairwise_append]
        exact ⟨hV1.sorted, hV2.sorted, hcross⟩
      · intro x hx
        rcases List.mem_append.mp hx with hx | hx
        · exact hV1.seen x hx
        · exact hV2.seen x hx
      · intro x hx
        rcases List.mem_append.mp hx with hx | hx
        · obtain ⟨q, hq⟩ := hhead x hx
          exact ⟨en.name, by simp, q, hq⟩
        · obtain ⟨n, hn, q, hq⟩ := hV2.part x hx
          exact ⟨n, by rw [List.map_cons]; exact List.mem_cons_of_mem _ hn, q, hq⟩
      · intro n hn q m hst
        rw [List.map_cons, List.mem_cons] at hn
        rcases hn with rfl | hn
        · rcases hV1.complete _ (by simp) q m hst with h | ⟨h, _⟩
          · exact Or.inl (List.mem_append_left _ h)
          · exact absurd rfl h
        · rcases hV2.complete n hn q m hst with h | ⟨h3, h4⟩
          · exact Or.inl (List.mem_append_right _ h)
          · refine Or.inr ⟨h3, ?_⟩
            intro x hx
            rcases List.mem_append.mp hx with hx | hx
            · obtain ⟨q', hq'⟩ := hhead x hx
              rw [hq']
              exact cons_lt_cons (hlt n hn)
            · exact h4 x hx

/-! ### the entries of a listing -/

theorem list_mem {τ : State} {d : ℕ} {x : ℕ × Entry} (ht : IsTree τ.tree)
    (hx : x ∈ sortEntries (exec w (.list d) τ).2) :
    Child τ.tree d x.2.name x.1 ∧ τ.tree.entries[x.1]? = some x.2 := by
  replace hx := (sortEntries_perm _).mem_iff.mp hx
  change x ∈ withEntries τ.tree _ at hx
  unfold withEntries at hx
  obtain ⟨e, he, h1⟩ := List.mem_filterMap.mp hx
  cases hen : τ.tree.entries[e]? with
  | none => rw [hen] at h1; cases h1
  | some en =>
    rw [hen] at h1
    cases h1
    rw [(w.ord_perm _ _).mem_iff] at he
    obtain ⟨y, hy, rfl⟩ := List.mem_map.mp he
    obtain ⟨n, e'⟩ := y
    have hc : Child τ.tree d n e' := hy
    rw [(child_entry ht hc hen).1]
    exact ⟨hc, hen⟩

theorem list_complete {τ : State} {d : ℕ} {name e en} (hc : Child τ.tree d name e)
    (he : τ.tree.entries[e]? = some en) : (e, en) ∈ sortEntries (exec w (.list d) τ).2 := by
  refine (sortEntries_perm _).mem_iff.mpr ?_
  change (e, en) ∈ withEntries τ.tree _
  unfold withEntries
  refine List.mem_filterMap.mpr ⟨e, ?_, by rw [he]; rfl⟩
  rw [(w.ord_perm _ _).mem_iff]
  exact List.mem_map.mpr ⟨(name, e), hc, rfl⟩

theorem withEntries_map {t : Tree MValue} (ht : IsTree t) {l : List (Str × ℕ)} {d : ℕ}
    (hl : ∀ x ∈ l, Child t d x.1 x.2) :
    (withEntries t (l.map Prod.snd)).map (fun x => x.2.name) = l.map Prod.fst := by
  induction l with
  | nil => rfl
  | cons x l ih =>
    obtain ⟨n, e⟩ := x
    obtain ⟨en, h1, h2, -⟩ := ht.child _ _ _ (hl _ List.mem_cons_self)
    have := ih (fun x hx => hl x (List.mem_cons_of_mem _ hx))
    unfold withEntries at this ⊢
    simp only [List.map_cons, List.filterMap_cons]
    simp only at h1
    rw [h1]
    simp only [Option.map_some, List.map_cons, this, h2]

theorem list_names {τ : State} {d : ℕ} (ht : IsTree τ.tree) :
    ((exec w (.list d) τ).2.map fun (x : ℕ × Entry) => x.2.name).Nodup := by
  have h1 : (exec w (.list d) τ).2.Perm (withEntries τ.tree ((τ.tree.contents d).map Prod.snd)) :=
    List.Perm.filterMap _ (w.ord_perm _ _)
  refine ((h1.map _).nodup_iff).mpr ?_
  rw [withEntries_map ht (d := d) (fun x hx => hx)]
  exact ht.keys d

/-- what a traversal visits: in canonical order, everything that is there all the time, and nothing
that is not there at some time -/
theorem traverse_visit {S : State → Prop} {T : Tree MValue} (hT : IsTree T)
    (hS : ∀ τ, S τ → IsTree τ.tree ∧ Ext τ.tree T) {coll : Coll A} {fuel d : ℕ}
    {s : Session} {a : A} {σ σ' h s' a' st}
    (hr : RunI w (traverse coll fuel d s a) σ h σ' (s', a', st)) (hh : ∀ e ∈ h, S e.pre) :
    ∃ V, Visited w coll S h d s a s' a' st V := by
  induction fuel generalizing d s a σ h σ' s' a' st with
  | zero =>
    have hb := others_between rfl hr
    have := (RunI_ret hr).1
    simp only [Prod.mk.injEq] at this
    obtain ⟨rfl, rfl, rfl⟩ := this
    exact ⟨[], .timeout hb, by simp, by simp, fun _ _ _ => Or.inr ⟨by simp, by simp⟩⟩
  | succ n ih =>
    obtain ⟨h1, τ, h2, rfl, r1, r2⟩ := RunI_op hr
    have hτ : S τ := hh ⟨true, .list d, τ⟩ (by simp)
    have ht := (hS τ hτ).1
    obtain ⟨V, hV⟩ := forEntries_visit hT hS hτ (w := w) (d := d) (coll := coll)
      (sub := traverse coll n) (fun hr hh => ih hr hh)
      (fun x hx => list_mem ht hx) (sortEntries_sorted _ (list_names ht)) r2
      (fun e he => hh e (by simp [he]))
    have hb : Between (h1 ++ [⟨true, .list d, τ⟩]) := by
      intro e he ho
      rcases List.mem_append.mp he with he | he
      · rw [(RunI_ret r1).2 e he] at ho; cases ho
      · rw [List.mem_singleton.mp he]; exact .inr (.inl ⟨d, rfl⟩)
    refine ⟨V, by simpa using hV.calls.before hb, hV.sorted, hV.seen, ?_⟩
    intro p m hst
    have h3 := hst τ hτ
    cases p with
    | nil => cases h3
    | cons name q =>
      obtain ⟨nd, h4⟩ := reaches_prefix (p := [name]) (q := q) h3
      obtain ⟨e, en, hc, he, -⟩ := (reaches_one_iff ht).mp h4
      refine hV.complete name ?_ q m hst
      refine List.mem_map.mpr ⟨(e, en), list_complete hc he, ?_⟩
      exact (child_entry ht hc he).1

/-! ### the end of fuel -/

/-- the collector itself never reports `timeout` -/
def NoTimeout (w : World) (coll : Coll A) : Prop :=
  ∀ {m s a σ h σ' r}, RunI w (coll m s a) σ h σ' r → r.2.2 ≠ .timeout

theorem collect_no_timeout {coll : Coll A} (hc : NoTimeout w coll) {m s a σ h σ' r}
    (hr : RunI w (collect coll m s a) σ h σ' r) : r.2.2 ≠ .timeout := by
  obtain ⟨h1, s1, h2, rfl, r1, r2⟩ := RunI_op hr
  cases hm : (exec w (.metric m) s1).2 with
  | none =>
    rw [hm] at r2
    rw [← (RunI_ret r2).1]; simp
  | some mv =>
    rw [hm] at r2
    obtain ⟨h3, s3, x, h4, rfl, r3, r4⟩ := RunI_bind r2
    obtain ⟨x1, x2⟩ := x
    rcases x2 with (_ | _) | _
    · exact hc r4
    · rw [← (RunI_ret r4).1]; simp
    · rw [← (RunI_ret r4).1]; simp

/-- depth of a directory, as far as the fuel is concerned -/
def level (T : Tree MValue) (d : ℕ) : ℕ :=
  match T.enclosing d with
  | none => 0
  | some e => e + 1

theorem level_lt {T : Tree MValue} (hT : IsTree T) {d name e en d'} (h : Linked T d name e en)
    (hd : en.dir = some d') : level T d < level T d' := by
  have h1 := (entry_dir hT h.1 hd).2.2.2
  unfold level
  rw [h1]
  cases he : T.enclosing d with
  | none => simp
  | some p =>
    have := (hT.parent e en p h.1 (by rw [h.2.2.1, he])).1
    simp only
    omega

theorem level_le {T : Tree MValue} (hT : IsTree T) {d} (hd : d < T.dirs.length) :
    level T d ≤ T.entries.length := by
  unfold level
  by_cases h0 : d = 0
  · subst h0; rw [hT.root]; simp
  · obtain ⟨e, en, h1, h2, -⟩ := hT.dirs d (by omega) hd
    rw [h1]
    have := (List.getElem?_eq_some_iff.mp h2).1
    simp only
    omega

theorem traverse_total {S : State → Prop} {T : Tree MValue} (hT : IsTree T)
    (hS : ∀ τ, S τ → IsTree τ.tree ∧ Ext τ.tree T) {coll : Coll A} (hcoll : NoTimeout w coll) {fuel d : ℕ}
    (hd : d < T.dirs.length) (hfuel : T.entries.length < level T d + fuel)
    {s : Session} {a : A} {σ σ' h s' a' st}
    (hr : RunI w (traverse coll fuel d s a) σ h σ' (s', a', st)) (hh : ∀ e ∈ h, S e.pre) :
    st ≠ .timeout := by
  induction fuel generalizing d s a σ h σ' s' a' st with
  | zero =>
    have := level_le hT hd
    omega
  | succ n ih =>
    obtain ⟨h1, τ, h2, rfl, r1, r2⟩ := RunI_op hr
    have hτ : S τ := hh ⟨true, .list d, τ⟩ (by simp)
    have ht := (hS τ hτ).1
    have hh2 : ∀ e ∈ h2, S e.pre := fun e he => hh e (by simp [he])
    have hl : ∀ x ∈ sortEntries (exec w (.list d) τ).2, Linked T d x.2.name x.1 x.2 := fun x hx =>
      (linked_of_child ht (list_mem ht hx).1 (list_mem ht hx).2).ext (hS τ hτ).2
    clear hr r1 hh
    revert r2
    generalize sortEntries (exec w (.list d) τ).2 = l at hl
    generalize (exec w (.list d) τ).1 = σ1
    intro r2
    clear hτ ht
    induction l generalizing s a σ1 h2 with
    | nil =>
      have := (RunI_ret r2).1
      simp only [Prod.mk.injEq] at this
      rw [← this.2.2]; simp
    | cons x l ihl =>
      obtain ⟨e, en⟩ := x
      have hl1 := hl _ List.mem_cons_self
      unfold forEntries at r2
      obtain ⟨h3, s3, r, h4, rfl, r3, r4⟩ := RunI_bind r2
      obtain ⟨s5, a5, st5⟩ := r
      have h5 : st5 ≠ .timeout := by
        cases hdd : en.dir with
        | some d' =>
          rw [hdd] at r3
          have hlt := level_lt hT hl1 hdd
          exact ih (entry_dir hT hl1.1 hdd).2.2.1 (by omega) r3
            (fun e he => hh2 e (List.mem_append_left _ he))
        | none =>
          rw [hdd] at r3
          cases hm : en.metric with
          | none =>
            rw [hm] at r3
            have := (RunI_ret r3).1
            simp only [Prod.mk.injEq] at this
            rw [← this.2.2]; simp
          | some m =>
            rw [hm] at r3
            exact collect_no_timeout hcoll r3
      cases st5 with
      | ok =>
        exact ihl h4 (fun e he => hh2 e (List.mem_append_right _ he))
          (fun x hx => hl x (List.mem_cons_of_mem _ hx)) _ r4
      | err er =>
        have := (RunI_ret r4).1
        simp only [Prod.mk.injEq] at this
        rw [← this.2.2]; simp
      | panic =>
        have := (RunI_ret r4).1
        simp only [Prod.mk.injEq] at this
        rw [← this.2.2]; simp
      | timeout => exact absurd rfl h5

end Tricorder
