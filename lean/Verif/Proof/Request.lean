import Verif.Proof.SameTime
import Verif.Proof.Track
/-!
# Requests: groups taken and released
-/

namespace Tricorder
open Go Spec Tree

variable {α : Type} {w : World}

theorem lookup_none_ne {s : Session} {r r' : ℕ} {t : Time} (h : List.lookup r' ((r, t) :: s) = none) :
    r ≠ r' ∧ s.lookup r' = none := by
  rw [List.lookup_cons] at h
  split at h
  · cases h
  · rename_i hne
    exact ⟨fun hh => by simp [hh] at hne, h⟩

theorem moves_paired {h : List Ev} {s : Session} (hn : (s.map Prod.fst).Nodup) (ho : Orderly w h s)
    (he : replay w h s = []) (r : ℕ) :
    (r ∉ s.map Prod.fst → Paired (moves r h)) ∧
    (r ∈ s.map Prod.fst → ∃ l, moves r h = false :: l ∧ Paired l) := by
  induction h generalizing s with
  | nil =>
    have : s = [] := he
    subst this
    exact ⟨fun _ => .none, fun h => (nomatch h)⟩
  | cons e h ih =>
    obtain ⟨own, c, σ⟩ := e
    cases own with
    | false => cases c <;> exact ih hn ho he
    | true =>
      cases c with
      | rlock r' =>
        obtain ⟨h1, h2⟩ := ho
        have h1' : r' ∉ s.map Prod.fst := by
          intro hm
          obtain ⟨x, hx, rfl⟩ := List.mem_map.mp hm
          rw [List.lookup_eq_none_iff] at h1
          simpa using h1 x hx
        have ih' := ih (s := (r', w.lockTime σ r') :: s) (by simpa using ⟨by simpa using h1', hn⟩) h2 he
        simp only [moves]
        by_cases hr : r' = r
        · subst hr
          simp only [if_true]
          obtain ⟨l, h3, h4⟩ := ih'.2 (by simp)
          rw [h3]
          exact ⟨fun _ => .more h4, fun h => absurd h h1'⟩
        · simp only [if_neg hr]
          have hr' : ¬ r = r' := fun h => hr h.symm
          refine ⟨fun h => ih'.1 ?_, fun h => ih'.2 ?_⟩
          · rw [List.map_cons, List.mem_cons]
            rintro (h5 | h5)
            · exact hr' h5
            · exact h h5
          · rw [List.map_cons, List.mem_cons]; exact Or.inr h
      | runlock r' =>
        obtain ⟨⟨t, s', rfl⟩, h2⟩ := ho
        rw [List.map_cons, List.nodup_cons] at hn
        have ih' := ih (s := s') hn.2 h2 he
        simp only [moves]
        by_cases hr : r' = r
        · subst hr
          simp only [if_true]
          exact ⟨fun h => absurd (by simp) h, fun _ => ⟨_, rfl, ih'.1 hn.1⟩⟩
        · simp only [if_neg hr]
          have hr' : ¬ r = r' := fun h => hr h.symm
          refine ⟨fun h => ih'.1 ?_, fun h => ih'.2 ?_⟩
          · exact fun h5 => h (by rw [List.map_cons]; exact List.mem_cons_of_mem _ h5)
          · rw [List.map_cons, List.mem_cons] at h
            rcases h with h | h
            · exact absurd h hr'
            · exact h
      | _ => exact ih hn ho he

theorem balanced_paired {p : Prog α} (hp : Balanced p) {s s' : State} {h : List Ev} {a : α}
    (hr : RunI w p s h s' a) (r : ℕ) : Paired (moves r h) := by
  obtain ⟨h1, h2⟩ := track_run hp hr
  exact (moves_paired (by simp) h2 h1.symm r).1 (by simp)

/-! ### infinite and NaN numbers -/

theorem asJson_float {v v' k k' st st' u} (h : asJson v k st u = some (v', k', st')) (hf : k'.isFloat = true) :
    k = k' ∧ v = v' := by
  unfold asJson at h
  repeat' split at h
  all_goals first
    | (cases h; first | exact ⟨rfl, rfl⟩ | (exact absurd hf (by decide)))
    | cases h

theorem encode_float {json} {x y : Metric} (h : encodeMetric json y = .ok x) (hf : x.kind.isFloat = true) :
    y.kind = x.kind ∧ y.value = x.value := by
  unfold encodeMetric at h
  split at h
  · split at h
    · cases h
    · rename_i m' hm
      cases h
      unfold Metric.convertToJson at hm
      split at hm
      · cases hm
      · rename_i hj
        cases hm
        exact asJson_float hj hf
  · cases h; exact ⟨rfl, rfl⟩

theorem interface_odd {d : Dyn} {t : Ty} {p : Bool} {v : Val} (ht : t.isFloat = true)
    (h : valueToInterface d t p = some v) (ho : OddFloat v) : InfNaN d := by
  unfold valueToInterface at h
  have h1 : t = .float32 ∨ t = .float64 := by simpa [Ty.isFloat] using ht
  have : d.interface = some v := by
    rcases h1 with rfl | rfl <;> simp at h <;> exact h.2
  cases d with
  | scalar n b => cases this; cases b <;> exact ho
  | timePtr o => cases this; exact ho
  | other o => cases this; exact ho
  | invalid => cases this

end Tricorder
