import Verif.Spec.Counter
import Verif.Proof.Order
/-!
# Counters: proofs
-/

namespace Tricorder.Whole
open Go _root_.Spec Tricorder.Tree

variable {w : World} {json : Bool}

theorem answered_read {a b : List (Item Answer)} {x : Item Answer} {s : St Answer} (hr : Run w (a ++ x :: b) s) {m : Metric}
    (h : Answered json x s m) :
    ∃ p q, b = p ++ q ∧ ReadIn w json s.mem.tree (after w ((a ++ x :: p).filterMap memStep) State.init) m := by
  cases h with
  | listing hx hd hm =>
    obtain ⟨ks, -, h2⟩ := listing_order hr hx hd
    obtain ⟨A, B, rfl⟩ := List.append_of_mem hm
    obtain ⟨k1, k2, -, h4, rfl⟩ := forall₂_cut h2
    cases h4 with
    | @cons _ i _ k2 g1 _ => exact ⟨b.take i, b.drop i, (List.take_append_drop _ _).symm, g1.2⟩
  | @single cc _ _ hx hd =>
    obtain ⟨hre, -, hrun⟩ := hr.call hx
      (notTick_reads (ProgAll_bind (getMetricMsg_reads json _) fun _ => trivial)) hd
    obtain ⟨r, h4, h5⟩ := RunI_map hrun
    cases h5
    obtain ⟨id, mv, y, ⟨σ, hσ, hm⟩, b2, b3, b4⟩ := getMetricMsg_run h4
    have hre' := (RunI_reads (getMetricMsg_reads _ _) h4 hre).1
    obtain ⟨hT, hS⟩ := states_tree h4 hre'
    have hm' : metricView s.mem.tree id = some mv := metricView_ext (hS σ hσ).1 hT (hS σ hσ).2 hm
    have fin : ∀ {τ : State}, τ ∈ statesOf (image cc 0 b) (code (answers cc b).length s.mem) →
        (∀ σ j, τ = code j σ → ShowsIn w σ mv y) →
        ∃ p q, b = p ++ q ∧ ReadIn w json s.mem.tree (after w ((a ++ x :: p).filterMap memStep) State.init) m := by
      intro τ hτ hs
      obtain ⟨σ', j, h1, rfl⟩ := image_states hτ
      obtain ⟨p, q, e1, rfl⟩ := during_split hr rfl h1
      exact ⟨p, q, e1, id, mv, y, hm', b2, b3, hs _ j rfl⟩
    cases b4 with
    | dist a1 a2 a3 a4 a5 a6 a7 a8 => exact fin a3 (by rintro σ j rfl; exact .dist a1 a2 a4 a5 a6 a7 a8)
    | list a1 a2 a3 a4 a5 a6 a7 a8 => exact fin a3 (by rintro σ j rfl; exact .list a1 a2 a4 a5 a6 a7 a8)
    | scalar a1 a2 a3 a4 a5 a6 => exact fin a4 (by rintro σ j rfl; exact .scalar a1 a2 a3 (by rwa [current_code] at a5) a6)

theorem encode_int {k : IntKind} {y m : Metric} (h : encodeMetric json y = .ok m) (hk : m.kind = intTy k) :
    y.kind = intTy k ∧ m.value = y.value := by
  unfold encodeMetric at h
  cases json with
  | false => cases h; exact ⟨hk, rfl⟩
  | true =>
    simp only [if_true] at h
    cases h1 : y.convertToJson with
    | none => rw [h1] at h; cases h
    | some z =>
      rw [h1] at h; cases h
      unfold Metric.convertToJson at h1
      cases h2 : asJson y.value y.kind y.subType y.unit with
      | none => rw [h2] at h1; cases h1
      | some r =>
        obtain ⟨v, k', st⟩ := r
        rw [h2] at h1; cases h1
        simp only at hk
        subst hk
        unfold asJson at h2
        split at h2
        · split at h2 <;> cases k <;> cases h2
        · split at h2 <;> cases k <;> cases h2
        · split at h2 <;> split at h2 <;> cases k <;> cases h2
        · simp only [Option.some.injEq, Prod.mk.injEq] at h2
          exact ⟨h2.2.1, h2.1.symm⟩

theorem interface_int {k : IntKind} {x : ℤ} (hx : k.InRange x) {nm : Option ℕ} {p : Bool} {v : Val}
    (h : valueToInterface (.scalar nm (.int k x)) (intTy k) p = some v) : ∃ nm' k', v = .scalar nm' (.int k' x) := by
  cases p with
  | true => cases k <;> simp [valueToInterface, intTy] at h
  | false =>
    cases k <;> simp [IntKind.InRange, IntKind.signed, IntKind.bits] at hx <;>
      simp [valueToInterface, intTy, Dyn.int, Dyn.uint, Dyn.interface, IntKind.signed] at h <;> subst h <;>
      first
        | exact ⟨_, _, rfl⟩
        | (have e : i32 x = x := by simp only [i32]; omega
           rw [e]; exact ⟨_, _, rfl⟩)
        | (have e : i64 x = x := by simp only [i64]; omega
           rw [e]; exact ⟨_, _, rfl⟩)
        | (refine ⟨none, .uint32, ?_⟩; congr 2; omega)
        | (refine ⟨none, .uint64, ?_⟩; congr 2; simp only [u64]; omega)

theorem readIn_int {sc : Src} {k : IntKind} {T : Tree MValue} {tr q : List (Item Answer)} {m : Metric}
    (h : ReadIn w json T (after w (tr.filterMap memStep) State.init) m) (hk : m.kind = intTy k) (hs : FromSource T m.path sc)
    (hc : Counter w sc k (tr ++ q)) : ∃ x, GivesInt w sc tr x ∧ ShowsInt m x := by
  obtain ⟨id, mv, y, h1, h2, h3, h4⟩ := h
  obtain ⟨f1, f2⟩ := encode_int h2 hk
  have hv : mv.value.valType = intTy k := h3.2.2.2.1.symm.trans f1
  have hsrc := hs id mv h1 (by rw [(encode_keeps h2).1, h3.1])
  cases h4 with
  | dist a1 => rw [hv] at a1; cases k <;> cases a1
  | list a1 => rw [hv] at a1; cases k <;> cases a1
  | scalar a1 a2 a3 a4 a5 =>
    rw [hsrc] at a3; cases a3
    obtain ⟨nm, x, rfl, hx⟩ := hc.int tr q _ rfl a4
    rw [hv] at a5
    obtain ⟨nm', k', e⟩ := interface_int hx a5
    exact ⟨x, ⟨nm, k, a4⟩, nm', k', f2.trans e⟩

end Tricorder.Whole
