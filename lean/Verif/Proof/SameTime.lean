import Verif.Proof.ListRun2
import Verif.Proof.Ids
import Verif.Spec.Request
/-!
# Same group, same time
-/

namespace Tricorder
open Go Spec Tree

variable {w : World} {s s' : State}

theorem nodup_index {l : List ℕ} (h : l.Nodup) {i j g : ℕ} (hi : l[i]? = some g) (hj : l[j]? = some g) : i = j := by
  obtain ⟨a1, a2⟩ := List.getElem?_eq_some_iff.mp hi
  obtain ⟨b1, b2⟩ := List.getElem?_eq_some_iff.mp hj
  exact (List.Nodup.getElem_inj_iff h).mp (a2.trans b2.symm)

theorem prefix_index {l l' : List ℕ} (h : l <+: l') {i g : ℕ} (hi : l[i]? = some g) : l'[i]? = some g := by
  obtain ⟨t, rfl⟩ := h
  rw [List.getElem?_append_left (List.getElem?_eq_some_iff.mp hi).1]
  exact hi

theorem snapshot_time {d : Dist Fl} {sn : Snapshot Fl} (h : d.snapshot = some sn) : sn.timeStamp = d.timeStamp := by
  unfold Dist.snapshot at h
  split at h
  · cases h
  · simp only at h
    split at h
    · cases h; rfl
    · split at h
      · cases h
      · cases h; rfl

theorem encode_time {json} {x x' y y' : Metric} (h : encodeMetric json y = .ok x) (h' : encodeMetric json y' = .ok x')
    (ht : y.timeStamp = y'.timeStamp) : x.timeStamp = x'.timeStamp := by
  have key : ∀ {z z' : Metric}, z.convertToJson = some z' → z'.timeStamp = (match z.timeStamp with
      | .nil => TS.str []
      | .time t => TS.str (Dur.sinceEpoch t).toString
      | .str s => TS.str s
      | .other shown => TS.str shown) := by
    intro z z' hz
    unfold Metric.convertToJson at hz
    split at hz
    · cases hz
    · cases hz; rfl
  unfold encodeMetric at h h'
  cases json with
  | false =>
    cases h; cases h'; exact ht
  | true =>
    simp only [if_true] at h h'
    cases h1 : y.convertToJson with
    | none => rw [h1] at h; cases h
    | some z =>
      cases h2 : y'.convertToJson with
      | none => rw [h2] at h'; cases h'
      | some z' =>
        rw [h1] at h; rw [h2] at h'
        cases h; cases h'
        rw [key h1, key h2, ht]

theorem same_time {S : State → Prop} {sess : Session} (hok : IdsOk s') (hS : ∀ τ, S τ → IdsExt τ s')
    {mv mv' : MetricView} {y y' : Metric} (h : PreTells w S mv y) (ht : Timed sess mv y)
    (h' : PreTells w S mv' y') (ht' : Timed sess mv' y') (hg : y.groupId = y'.groupId)
    (hset : Settled S y.groupId) : y.timeStamp = y'.timeStamp := by
  have hn := hok.1
  have nA : s'.regions.Nodup := (List.nodup_append.mp (List.nodup_append.mp hn).1).1
  have nB : s'.distIds.Nodup := (List.nodup_append.mp (List.nodup_append.mp hn).1).2.1
  have nC : s'.listIds.Nodup := (List.nodup_append.mp hn).2.1
  have dAB : ∀ g, g ∈ s'.regions → g ∈ s'.distIds → False := fun g a b =>
    (List.nodup_append.mp (List.nodup_append.mp hn).1).2.2 g a g b rfl
  have dAC : ∀ g, g ∈ s'.regions → g ∈ s'.listIds → False := fun g a b =>
    (List.nodup_append.mp hn).2.2 g (List.mem_append_left _ a) g b rfl
  have dBC : ∀ g, g ∈ s'.distIds → g ∈ s'.listIds → False := fun g a b =>
    (List.nodup_append.mp hn).2.2 g (List.mem_append_right _ a) g b rfl
  have mem : ∀ {l : List ℕ} {i g : ℕ}, l[i]? = some g → g ∈ l := fun h => List.mem_of_getElem? h
  have hd : ∀ {σ : State} {i : ℕ} {d : Dist Fl}, S σ → σ.dists[i]? = some d → s'.distIds[i]? = some d.groupId := by
    intro σ i d hσ hi
    refine prefix_index (hS σ hσ).dists ?_
    unfold State.distIds
    rw [List.getElem?_map, hi]; rfl
  have hl : ∀ {σ : State} {i : ℕ} {lv : ListView}, S σ → listView σ i = some lv → s'.listIds[i]? = some lv.groupId ∧
      ∃ l : ListObj, σ.lists[i]? = some l ∧ l.timeStamp = lv.timeStamp ∧ l.groupId = lv.groupId := by
    intro σ i lv hσ hi
    unfold listView at hi
    cases h1 : σ.lists[i]? with
    | none => rw [h1] at hi; cases hi
    | some l =>
      rw [h1] at hi
      simp only at hi
      split at hi
      · cases hi
      · cases hi
        refine ⟨prefix_index (hS σ hσ).lists ?_, l, rfl, rfl, rfl⟩
        unfold State.listIds
        rw [List.getElem?_map, h1]; rfl
  have hr : ∀ {σ : State} {r g : ℕ}, S σ → σ.regions[r]? = some g → s'.regions[r]? = some g := fun hσ hi =>
    prefix_index (hS _ hσ).regions hi
  cases h with
  | dist a1 a2 a3 a4 a5 a6 a7 a8 =>
    cases h' with
    | dist b1 b2 b3 b4 b5 b6 b7 b8 =>
      have i1 := hd a3 a4
      have i2 := hd b3 b4
      rw [← a8] at i1
      rw [← b8, ← hg] at i2
      have := nodup_index nB i1 i2
      subst this
      rw [a7, b7, snapshot_time a5, snapshot_time b5, hset.1 _ _ _ _ _ a3 b3 a4 b4 a8.symm]
    | list b1 b2 b3 b4 b5 b6 b7 b8 =>
      exact (dBC y.groupId (a8 ▸ mem (hd a3 a4)) (hg ▸ b7 ▸ mem (hl b3 b4).1)).elim
    | scalar b1 b2 b3 b4 b5 b6 b7 b8 b9 =>
      exact (dAB y.groupId (hg ▸ mem (hr b8 b9)) (a8 ▸ mem (hd a3 a4))).elim
  | list a1 a2 a3 a4 a5 a6 a7 a8 =>
    cases h' with
    | dist b1 b2 b3 b4 b5 b6 b7 b8 =>
      exact (dBC y.groupId (hg ▸ b8 ▸ mem (hd b3 b4)) (a7 ▸ mem (hl a3 a4).1)).elim
    | list b1 b2 b3 b4 b5 b6 b7 b8 =>
      obtain ⟨i1, l, j1, j2, j3⟩ := hl a3 a4
      obtain ⟨i2, l', k1, k2, k3⟩ := hl b3 b4
      rw [← a7] at i1
      rw [← b7, ← hg] at i2
      have := nodup_index nC i1 i2
      subst this
      rw [a6, b6, ← j2, ← k2, hset.2 _ _ _ _ _ a3 b3 j1 k1 (j3.trans a7.symm)]
    | scalar b1 b2 b3 b4 b5 b6 b7 b8 b9 =>
      exact (dAC y.groupId (hg ▸ mem (hr b8 b9)) (a7 ▸ mem (hl a3 a4).1)).elim
  | scalar a1 a2 a3 a4 a5 a6 a7 a8 a9 =>
    cases h' with
    | dist b1 b2 b3 b4 b5 b6 b7 b8 =>
      exact (dAB y.groupId (mem (hr a8 a9)) (hg ▸ b8 ▸ mem (hd b3 b4))).elim
    | list b1 b2 b3 b4 b5 b6 b7 b8 =>
      exact (dAC y.groupId (mem (hr a8 a9)) (hg ▸ b7 ▸ mem (hl b3 b4).1)).elim
    | scalar b1 b2 b3 b4 b5 b6 b7 b8 b9 =>
      obtain ⟨r, t, j1, j2, j3⟩ := ht a1 a2
      obtain ⟨r', t', k1, k2, k3⟩ := ht' b1 b2
      have i1 := hr a8 a9
      have i2 := hr b8 b9
      rw [← hg] at i2
      have := nodup_index nA i1 i2
      subst this
      rw [a7] at j1; cases j1
      rw [b7] at k1; cases k1
      rw [j2] at k2; cases k2
      rw [j3, k3]

end Tricorder
