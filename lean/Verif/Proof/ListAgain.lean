import Verif.Spec.ListAgain
import Verif.Proof.Poll
import Verif.Proof.Lists
/-!
# Asking again for a list: proofs
-/

namespace Tricorder.Whole
open Go _root_.Spec

variable {w : World}

/-! ### one list -/

/-- list `i` does not exist, or is a copy and looks like `lv` -/
def Stands (σ : State) (i : ℕ) : Option ListView → Prop
  | none => σ.lists[i]? = none
  | some lv => Safe σ i lv

/-- the command sets list `i` -/
abbrev CmdSets (i : ℕ) (cmd : Cmd) (σ : State) (cell : Cell) (m : Bool) (ts : Time) : Prop :=
  Tricorder.Spec.Sets i ⟨true, cmd, σ⟩ cell m ts

theorem changeList_sets {σ : State} {i : ℕ} {a : SliceArg} {m : Bool} {ts : Time} (h : (σ.changeList i a m ts).2 = true) :
    ∃ cell, CmdSets i (.changeList i a m ts) σ cell m ts := by
  obtain ⟨l, mem, c, -, h1, -⟩ := changeList_true (s1 := (σ.changeList i a m ts).1) (by rw [← h])
  obtain ⟨c0, cell, rfl, h2, -⟩ := asSliceValue_some h1
  exact ⟨cell, c0, h2, .inr ⟨rfl, h⟩⟩

theorem newList_sets {σ : State} {i : ℕ} {a : SliceArg} {m : Bool} {ts : Time} (h : (σ.newList a m ts).2 = some i) :
    ∃ cell, CmdSets i (.newList a m ts) σ cell m ts := by
  obtain ⟨mem, c, t, h1, -⟩ := newList_some (s1 := (σ.newList a m ts).1) (by rw [← h])
  obtain ⟨c0, cell, rfl, h2, -⟩ := asSliceValue_some h1
  exact ⟨cell, c0, h2, .inl ⟨rfl, h⟩⟩

/-- one step: it sets the list, or the list stays -/
theorem stands_step {σ : State} {i : ℕ} {o : Option ListView} (h : Stands σ i o) (cmd : Cmd) :
    (∃ cell m ts, CmdSets i cmd σ cell m ts) ∨ (∀ cell m ts, ¬ CmdSets i cmd σ cell m ts) ∧ Stands (exec w cmd σ).1 i o := by
  by_cases hs : ∃ cell m ts, CmdSets i cmd σ cell m ts
  · exact .inl hs
  refine .inr ⟨fun cell m ts hc => hs ⟨cell, m, ts, hc⟩, ?_⟩
  cases o with
  | some lv =>
    obtain ⟨l, c, h1, h2, h3, h4⟩ := h
    refine ⟨l, c, exec_list h1 ?_, exec_internal h2 h3, h3, h4⟩
    intro a m ts hc
    subst hc
    cases hb : (σ.changeList i a m ts).2 with
    | false => rfl
    | true =>
      obtain ⟨cell, hc⟩ := changeList_sets hb
      exact absurd ⟨cell, m, ts, hc⟩ hs
  | none =>
    have hlen : σ.lists.length ≤ i := List.getElem?_eq_none_iff.mp h
    show (exec w cmd σ).1.lists[i]? = none
    cases cmd with
    | newList a m ts =>
      show (σ.newList a m ts).1.lists[i]? = none
      cases ha : asSliceValue σ.mem a m with
      | none => simp only [State.newList, ha]; exact h
      | some x =>
        obtain ⟨mem, c, t⟩ := x
        by_cases hi : i = σ.lists.length
        · obtain ⟨cell, hc⟩ := newList_sets (σ := σ) (i := i) (a := a) (m := m) (ts := ts) (by simp only [State.newList, ha, hi])
          exact absurd ⟨cell, m, ts, hc⟩ hs
        · simp only [State.newList, ha]
          rw [List.getElem?_eq_none_iff, List.length_append]
          simp only [List.length_singleton]
          omega
    | changeList j a m ts =>
      show (σ.changeList j a m ts).1.lists[i]? = none
      unfold State.changeList
      repeat' (first | exact h | split)
      rw [List.getElem?_eq_none_iff, List.length_set]
      exact hlen
    | setUnit j u => unfold exec; simp only; repeat' (first | exact h | split)
    | distCall j u => unfold exec; simp only; repeat' (first | exact h | split)
    | writeVar v x => unfold exec; simp only; repeat' (first | exact h | split)
    | _ => exact h

/-- the steps begin in `σ` -/
def From (w : World) (σ : State) (l : List (Item Answer)) : Prop :=
  ∀ A e C, l = A ++ e :: C → e.pre = after w (A.filterMap memStep) σ

theorem From.left {σ : State} {l l' : List (Item Answer)} (h : From w σ (l ++ l')) : From w σ l :=
  fun A e C hC => h A e (C ++ l') (by rw [hC]; simp)

theorem From.right {σ : State} {l l' : List (Item Answer)} (h : From w σ (l ++ l')) :
    From w (after w (l.filterMap memStep) σ) l' := fun A e C hC => by
  rw [← after_append, ← List.filterMap_append]
  exact h (l ++ A) e C (by rw [hC]; simp)

/-- step `it` sets list `i` -/
def ItSets (i : ℕ) (it : Item Answer) (cell : Cell) (m : Bool) (ts : Time) : Prop :=
  ∃ cmd, memStep it = some cmd ∧ CmdSets i cmd it.pre cell m ts

/-- Many steps: the list stays as long as it is not set; otherwise it is what the last step that sets it makes of it. -/
theorem stands_steps {σ : State} {i : ℕ} {o : Option ListView} (h : Stands σ i o) (l : List (Item Answer)) (hl : From w σ l)
    (hc : ∀ it ∈ l, ∀ cell m ts, ItSets i it cell m ts → Tricorder.Spec.CellOk cell ∧ (m = true ∨ Tricorder.Spec.Unsized cell)) :
    ((∀ e ∈ l, ∀ cell m ts, ¬ ItSets i e cell m ts) ∧ Stands (after w (l.filterMap memStep) σ) i o) ∨
    ∃ P u Q cell m ts lv, l = P ++ u :: Q ∧ ItSets i u cell m ts ∧ (∀ e ∈ Q, ∀ cell m ts, ¬ ItSets i e cell m ts) ∧
      Safe (after w (l.filterMap memStep) σ) i lv ∧ Tricorder.Spec.Shows lv.val cell ∧ lv.timeStamp = ts ∧
      Tricorder.Spec.elemType cell.elem = some lv.subType := by
  induction l using List.reverseRecOn with
  | nil => exact .inl ⟨by simp, h⟩
  | append_singleton l e ih =>
    have hpre := hl l e [] rfl
    have ih := ih hl.left (fun it hit => hc it (by simp [hit]))
    have fin : ∀ o', Stands (after w (l.filterMap memStep) σ) i o' →
        (∃ cell m ts lv, ItSets i e cell m ts ∧ Safe (after w ((l ++ [e]).filterMap memStep) σ) i lv ∧
          Tricorder.Spec.Shows lv.val cell ∧ lv.timeStamp = ts ∧ Tricorder.Spec.elemType cell.elem = some lv.subType) ∨
        (∀ cell m ts, ¬ ItSets i e cell m ts) ∧ Stands (after w ((l ++ [e]).filterMap memStep) σ) i o' := by
      intro o' ho
      rw [List.filterMap_append, after_append]
      cases hm : memStep e with
      | none =>
        refine .inr ⟨?_, by rw [List.filterMap_cons, hm]; exact ho⟩
        rintro cell m ts ⟨cmd, h1, -⟩
        rw [hm] at h1; cases h1
      | some cmd =>
        rw [show after w ([e].filterMap memStep) (after w (l.filterMap memStep) σ) = (exec w cmd e.pre).1 by
          rw [hpre]; simp [hm, after]]
        rw [← hpre] at ho
        rcases stands_step (w := w) ho cmd with ⟨cell, m, ts, hs⟩ | ⟨h1, h2⟩
        · have hi : ItSets i e cell m ts := ⟨cmd, hm, hs⟩
          obtain ⟨k1, k2⟩ := hc e (by simp) cell m ts hi
          obtain ⟨lv, e1, e2, e3, e4⟩ := sets_safe (w := w) hs k1 k2
          exact .inl ⟨cell, m, ts, lv, hi, e1, e2, e3, e4⟩
        · refine .inr ⟨?_, h2⟩
          rintro cell m ts ⟨cmd', h3, h4⟩
          rw [hm] at h3; cases h3
          exact h1 cell m ts h4
    rcases ih with ⟨i1, i2⟩ | ⟨P, u, Q, cell, m, ts, lv, rfl, i2, i3, i4, i5⟩
    · rcases fin o i2 with ⟨cell, m, ts, lv, j1, j2⟩ | ⟨j1, j2⟩
      · exact .inr ⟨l, e, [], cell, m, ts, lv, rfl, j1, by simp, j2⟩
      · refine .inl ⟨fun e' he' => ?_, j2⟩
        rcases List.mem_append.mp he' with h' | h'
        · exact i1 e' h'
        · cases List.mem_singleton.mp h'; exact j1
    · rcases fin (some lv) i4 with ⟨cell', m', ts', lv', j1, j2⟩ | ⟨j1, j2⟩
      · exact .inr ⟨_, e, [], cell', m', ts', lv', rfl, j1, by simp, j2⟩
      · refine .inr ⟨P, u, Q ++ [e], cell, m, ts, lv, by simp, i2, fun e' he' => ?_, j2, i5⟩
        rcases List.mem_append.mp he' with h' | h'
        · exact i3 e' h'
        · cases List.mem_singleton.mp h'; exact j1

/-! ### group ids -/

theorem list_id {σ : State} {i g : ℕ} : ListHasId σ i g ↔ σ.listIds[i]? = some g := by
  unfold ListHasId State.listIds; rw [List.getElem?_map]

theorem safe_id {σ : State} {i : ℕ} {lv : ListView} (h : Safe σ i lv) : ListHasId σ i lv.groupId := by
  obtain ⟨l, c, h1, -, -, rfl⟩ := h
  unfold ListHasId; rw [h1]; rfl

theorem view_id {σ : State} {i : ℕ} {lv : ListView} (h : listView σ i = some lv) : ListHasId σ i lv.groupId := by
  unfold listView at h
  split at h
  · cases h
  · rename_i l hl
    split at h
    · cases h
    · cases h; unfold ListHasId; rw [hl]; rfl

theorem same_list {σ : State} (hok : IdsOk σ) {i j g : ℕ} (hi : ListHasId σ i g) (hj : ListHasId σ j g) : i = j :=
  nodup_index (List.nodup_append.mp hok.1).2.1 (list_id.mp hi) (list_id.mp hj)

theorem ids_step {σ : State} {l : List (Item Answer)} (hok : IdsOk σ) (hl : From w σ l) {it : Item Answer} (hit : it ∈ l) {cmd : Cmd}
    (hm : memStep it = some cmd) : IdsExt (exec w cmd it.pre).1 (after w (l.filterMap memStep) σ) := by
  obtain ⟨A, C, rfl⟩ := List.append_of_mem hit
  have hp := hl A it C rfl
  rw [List.filterMap_append, after_append, List.filterMap_cons, hm, ← hp]
  exact (after_ids (w := w) (C.filterMap memStep) (σ := (exec w cmd it.pre).1)
    (exec_idsOk cmd (hp ▸ (after_ids (A.filterMap memStep) hok).1))).2

/-- setting list `i` and setting the list with id `g` is the same -/
theorem itSets_iff {σ : State} {l : List (Item Answer)} (hok : IdsOk σ) (hl : From w σ l) {i g : ℕ}
    (hg : ListHasId (after w (l.filterMap memStep) σ) i g) {it : Item Answer} (hit : it ∈ l) {cell : Cell} {m : Bool} {ts : Time} :
    SetsList w g it cell m ts ↔ ItSets i it cell m ts := by
  have hfin := (after_ids (w := w) (l.filterMap memStep) hok).1
  constructor
  · rintro ⟨cmd, j, h1, h2, h3⟩
    have hj : ListHasId (after w (l.filterMap memStep) σ) j g :=
      list_id.mpr (prefix_index (ids_step hok hl hit h1).lists (list_id.mp h3))
    obtain rfl := same_list hfin hj hg
    exact ⟨cmd, h1, h2⟩
  · rintro ⟨cmd, h1, h2⟩
    refine ⟨cmd, i, h1, h2, ?_⟩
    have hex : ∃ g', ListHasId (exec w cmd it.pre).1 i g' := by
      obtain ⟨c, -, ⟨e1, e2⟩ | ⟨e1, e2⟩⟩ := h2
      · simp only at e1 e2
        subst e1
        obtain ⟨mem, c, t, -, rfl, e3⟩ := newList_some (s1 := (it.pre.newList _ m ts).1) (by rw [← e2])
        refine ⟨it.pre.nextId, ?_⟩
        show (State.newList it.pre _ m ts).1.lists[_]?.map _ = _
        rw [e3]; simp
      · simp only at e1 e2
        subst e1
        obtain ⟨l', mem, c, e4, -, e3⟩ := changeList_true (s1 := (it.pre.changeList i _ m ts).1) (by rw [← e2])
        refine ⟨l'.groupId, ?_⟩
        show (State.changeList it.pre i _ m ts).1.lists[_]?.map _ = _
        rw [e3]; simp only
        rw [List.getElem?_set_self (List.getElem?_eq_some_iff.mp e4).1]; rfl
    obtain ⟨g', hg'⟩ := hex
    have := prefix_index (ids_step hok hl hit h1).lists (list_id.mp hg')
    rw [list_id.mp hg] at this
    cases this
    exact hg'

/-! ### what a request says about a list -/

theorem encode_list {json : Bool} {y m : Metric} (h : encodeMetric json y = .ok m) (hk : m.kind = .list) :
    y.kind = .list ∧ m.groupId = y.groupId ∧ m.unit = y.unit ∧ ∀ t, y.timeStamp = .time t → m.timeStamp = stamp json t := by
  unfold encodeMetric at h
  cases json with
  | false => cases h; exact ⟨hk, rfl, rfl, fun t ht => ht⟩
  | true =>
    simp only [if_true] at h
    cases h1 : y.convertToJson with
    | none => rw [h1] at h; cases h
    | some z =>
      rw [h1] at h; cases h
      unfold Metric.convertToJson at h1
      cases h2 : asJson y.value y.kind y.subType y.unit with
      | none => rw [h2] at h1; cases h1
      | some r =>
        obtain ⟨v, k, st⟩ := r
        rw [h2] at h1; cases h1
        simp only at hk
        subst hk
        refine ⟨?_, rfl, rfl, fun t ht => ?_⟩
        · unfold asJson at h2
          split at h2
          · split at h2 <;> cases h2
          · split at h2 <;> cases h2
          · rename_i hkind; exact hkind
          · simp only [Option.some.injEq, Prod.mk.injEq] at h2; exact h2.2.1
        · simp only [ht]; rfl

/-- the sub type after the conversion -/
theorem asJson_sub {v : Val} {k st : Ty} {u : MUnit} {r : Val × Ty × Ty} (h : asJson v k st u = some r) :
    r.2.2 = if k = .list then (if st = .goDuration then .duration else if st = .goTime then .time else st) else .unknown := by
  unfold asJson at h
  split at h
  · split at h <;> cases h; rfl
  · split at h <;> cases h; rfl
  · rw [if_pos rfl]
    split at h
    · split at h <;> cases h; rfl
    · split at h <;> cases h; rfl
    · rename_i h1 h2
      rw [if_neg h1, if_neg h2]
      split at h <;> cases h <;> rfl
  · rename_i h1 h2 h3
    cases h
    rw [if_neg h3]

/-- the conversion depends on value, kind, sub type and unit -/
theorem encode_same {json : Bool} {y y' m n : Metric} (h : encodeMetric json y = .ok m) (h' : encodeMetric json y' = .ok n)
    (h1 : y'.value = y.value) (h2 : y'.kind = y.kind) (h3 : y'.subType = y.subType) :
    (n.unit = m.unit → n.value = m.value) ∧ n.subType = m.subType := by
  unfold encodeMetric at h h'
  cases json with
  | false => cases h; cases h'; exact ⟨fun _ => h1, h3⟩
  | true =>
    simp only [if_true] at h h'
    cases e1 : y.convertToJson with
    | none => rw [e1] at h; cases h
    | some z =>
      cases e2 : y'.convertToJson with
      | none => rw [e2] at h'; cases h'
      | some z' =>
        rw [e1] at h; rw [e2] at h'
        cases h; cases h'
        unfold Metric.convertToJson at e1 e2
        rw [h1, h2, h3] at e2
        have key : ∀ u u' r r', asJson y.value y.kind y.subType u = some r → asJson y.value y.kind y.subType u' = some r' →
            r'.2.2 = r.2.2 := by
          exact fun u u' r r' a1 a2 => (asJson_sub a2).trans (asJson_sub a1).symm
        cases f1 : asJson y.value y.kind y.subType y.unit with
        | none => rw [f1] at e1; cases e1
        | some r =>
          cases f2 : asJson y.value y.kind y.subType y'.unit with
          | none => rw [f2] at e2; cases e2
          | some r' =>
            have hk := key _ _ _ _ f1 f2
            rw [f1] at e1; rw [f2] at e2
            obtain ⟨v, k, st⟩ := r
            obtain ⟨v', k', st'⟩ := r'
            simp only at hk
            subst hk
            cases e1; cases e2
            refine ⟨fun hu => ?_, rfl⟩
            simp only at hu
            rw [hu, f1] at f2
            cases f2; rfl

theorem answered_list {a b : List (Item Answer)} {x : Item Answer} {s : St Answer} (hr : Run w (a ++ x :: b) s) {json : Bool}
    {m : Metric} (h : Answered json x s m) (hk : m.kind = .list) :
    ∃ p q i y lv, b = p ++ q ∧ listView (after w ((a ++ x :: p).filterMap memStep) State.init) i = some lv ∧
      encodeMetric json y = .ok m ∧ y.kind = .list ∧ y.value = lv.val ∧ y.timeStamp = .time lv.timeStamp ∧ m.groupId = lv.groupId ∧
      y.subType = lv.subType := by
  have fin : ∀ {i : ℕ} {lv : ListView} {σ : State} {y : Metric}, During b s.mem σ → listView σ i = some lv →
      y.value = lv.val → y.timeStamp = .time lv.timeStamp → y.groupId = lv.groupId → y.subType = lv.subType →
      encodeMetric json y = .ok m → ∃ p q i y lv, b = p ++ q ∧
      listView (after w ((a ++ x :: p).filterMap memStep) State.init) i = some lv ∧
      encodeMetric json y = .ok m ∧ y.kind = .list ∧ y.value = lv.val ∧ y.timeStamp = .time lv.timeStamp ∧ m.groupId = lv.groupId ∧
      y.subType = lv.subType := by
    intro i lv σ y h1 h2 h3 h4 h5 h6 h7
    obtain ⟨p, q, e1, rfl⟩ := during_split hr rfl h1
    obtain ⟨f1, f2, -, f4⟩ := encode_list h7 hk
    exact ⟨p, q, i, y, lv, e1, h2, h7, f1, h3, h4, f2.trans h5, h6⟩
  cases h with
  | listing hx hd hm =>
    obtain ⟨hre, -, hrun⟩ := listCall_run hr rfl hx hd
    obtain ⟨⟨U, sess, rfl, -, hU, -⟩, -⟩ := listMetrics_run hre hrun
    obtain ⟨u, hu, rfl⟩ := List.mem_map.mp hm
    obtain ⟨-, -, -, mv, y, -, b2, b3, b4, -⟩ := hU u hu
    have hy := (encode_list b2 hk).1
    have hv : mv.value.valType = .list := b3.2.2.2.1.symm.trans hy
    cases b4 with
    | list a1 a2 a3 a4 a5 a6 a7 a8 =>
      obtain ⟨τ, j, hτ, rfl⟩ := image_states a3
      exact fin hτ a4 a5 a6 a7 a8 b2
    | dist a1 => rw [hv] at a1; cases a1
    | scalar a1 a2 => exact absurd hv a2
  | single hx hd =>
    obtain ⟨hre, -, hrun⟩ := hr.call hx
      (notTick_reads (ProgAll_bind (getMetricMsg_reads json _) fun _ => trivial)) hd
    obtain ⟨r, h4, h5⟩ := RunI_map hrun
    cases h5
    obtain ⟨-, mv, y, -, b2, b3, b4⟩ := getMetricMsg_run h4
    have hy := (encode_list b2 hk).1
    have hv : mv.value.valType = .list := b3.2.2.2.1.symm.trans hy
    cases b4 with
    | list a1 a2 a3 a4 a5 a6 a7 a8 =>
      obtain ⟨τ, j, hτ, rfl⟩ := image_states a3
      exact fin hτ a4 a5 a6 a7 a8 b2
    | dist a1 => rw [hv] at a1; cases a1
    | scalar a1 a2 => exact absurd hv a2

end Tricorder.Whole
