import Verif.Spec.CounterPage
import Verif.Proof.TextOrder
import Verif.Proof.Counter
import Verif.Proof.Text
/-!
# Counters on text pages: proofs
-/

namespace Tricorder.Whole
open Go _root_.Spec Tricorder.Spec Tree

variable {A W : Type} {w : World} {fm : Fmts} {wr : Writer W}

theorem text_int {k : IntKind} {x : ℤ} (hx : k.InRange x) {nm : Option ℕ} {u : MUnit} {p : Bool} {y : Str}
    (h : valueToTextString fm (.scalar nm (.int k x)) (intTy k) u p = some y) : DenotesInt y x := by
  cases p with
  | true => cases k <;> simp [valueToTextString, intTy, Ty.isInt, Ty.isUint] at h
  | false =>
    cases k <;> simp [IntKind.InRange, IntKind.signed, IntKind.bits] at hx <;>
      simp [valueToTextString, intTy, Dyn.int, Dyn.uint, IntKind.signed, Ty.isInt, Ty.isUint] at h <;> subst h <;>
      first
        | exact fmtInt_spec x
        | (have e : (x.toNat : ℤ) = x := Int.toNat_of_nonneg (by omega)
           have := fmtNat_denotes x.toNat
           rwa [e] at this)

theorem tells_int {S : State → Prop} {mv : MetricView} {cs : List Str} {sc : Src} {k : IntKind} (h : TextTells w fm S mv cs)
    (hs : mv.value.src = some sc) (hk : mv.value.valType = intTy k)
    (hc : ∀ σ d, S σ → current w σ sc = some d → ∃ nm x, d = .scalar nm (.int k x) ∧ k.InRange x) :
    ∃ σ nm x y, S σ ∧ current w σ sc = some (.scalar nm (.int k x)) ∧ DenotesInt y x ∧ cs = [y ++ lit "\n"] := by
  cases h with
  | dist a => rw [hk] at a; cases k <;> cases a
  | list a => rw [hk] at a; cases k <;> cases a
  | scalar a b c d e f =>
    rw [hs] at b; cases b
    obtain ⟨nm, x, rfl, hx⟩ := hc _ _ c d
    unfold textConv at e
    rw [hk] at e
    exact ⟨_, nm, x, _, c, d, text_int hx e, f⟩

theorem line_int {sc : Src} {k : IntKind} {T : Tree MValue} {tr q : List (Item A)} {l : List Str} {p : Str}
    (h : LineIn w fm T (after w (tr.filterMap memStep) State.init) l) (hp : l.head? = some (p ++ lit " ")) (hk : CounterAt T p sc k)
    (hc : Counter w sc k (tr ++ q)) : ∃ x, GivesInt w sc tr x ∧ LineOf p x l := by
  obtain ⟨id, mv, ds, h1, rfl, h3⟩ := h
  simp only [List.head?_cons, Option.some.injEq] at hp
  have hp := List.append_cancel_right hp
  obtain ⟨k1, k2⟩ := hk id mv h1 hp
  obtain ⟨σ, nm, x, y, rfl, h5, h6, rfl⟩ := tells_int h3 k1 k2 (by rintro σ d rfl hd; exact hc.int tr q d rfl hd)
  exact ⟨x, ⟨nm, k, h5⟩, y, h6, by rw [hp]⟩

theorem forall₂_pairwise {X Y : Type} {R : X → Y → Prop} {P : Y → Y → Prop} {Q : X → X → Prop} {l : List X} {m : List Y}
    (h : List.Forall₂ R l m) (hp : m.Pairwise P) (hq : ∀ x x' y y', R x y → R x' y' → P y y' → Q x x') : l.Pairwise Q := by
  induction h with
  | nil => exact .nil
  | cons hr ht ih =>
    obtain ⟨h1, h2⟩ := List.pairwise_cons.mp hp
    refine List.pairwise_cons.mpr ⟨fun x' hx' => ?_, ih h2⟩
    obtain ⟨y', hy', hr'⟩ := forall₂_left ht x' hx'
    exact hq _ _ _ _ hr hr' (h1 y' hy')

theorem during_cut {a b : List (Item A)} {x : Item A} {s : St A} (hr : Run w (a ++ x :: b) s)
    {σ : State} (h : During b s.mem σ) : ∃ p q, b = p ++ q ∧ σ = after w ((a ++ x :: p).filterMap memStep) State.init := by
  rcases h with ⟨it, hit, rfl⟩ | rfl
  · obtain ⟨p, q, rfl⟩ := List.append_of_mem hit
    exact ⟨p, it :: q, rfl, hr.after_pre (B := a ++ x :: p) (C := q) (by simp)⟩
  · exact ⟨b, [], by simp, hr.after⟩

/-- the text page of a metric that is registered all the time -/
theorem textEndpoint_single {s s' : State} (hs : Reachable w s) {fuel path h} {a a' : W} {st : Status}
    (hr : RunI w (textEndpoint fm wr fuel path a) s h s' (a', st)) {m : ℕ}
    (hst : Stable (fun τ => τ ∈ statesOf h s') 0 (newPathSpec path) m) :
    (a' = a ∧ st = .panic) ∨ ∃ mv cs, metricView s'.tree m = some mv ∧ TextTells w fm (fun τ => τ ∈ statesOf h s') mv cs ∧
      wr.all a cs = (a', st) := by
  have hre := (RunI_reads (textEndpoint_reads ..) hr hs).1
  obtain ⟨hT, hS⟩ := states_tree hr hre
  have hh : ∀ e ∈ h, e.pre ∈ statesOf h s' := fun e he => List.mem_append_left _ (List.mem_map.mpr ⟨e, he, rfl⟩)
  obtain ⟨h1, s1, x, h2, rfl, r1, r2⟩ := RunI_bind hr
  have hh1 : ∀ e ∈ h1, e.pre ∈ statesOf (h1 ++ h2) s' := fun e he => hh e (by simp [he])
  have hh2 : ∀ e ∈ h2, e.pre ∈ statesOf (h1 ++ h2) s' := fun e he => hh e (by simp [he])
  have hend : s' ∈ statesOf (h1 ++ h2) s' := List.mem_append_right _ (by simp)
  rcases lookup_seen hT hS r1 hh1 with ⟨d, rfl, a1, a2⟩ | ⟨m', rfl, a1, a2⟩ | ⟨rfl, a1⟩
  · have := a2 [] m (by simpa using hst) s' hend
    cases this
  · obtain ⟨-, rfl⟩ := a2 [] m (by simpa using hst)
    obtain ⟨h3, s3, h4, rfl, r3, r4⟩ := RunI_op r2
    have hs3 := hh2 ⟨true, .metric m, s3⟩ (by simp)
    cases hm : (exec w (.metric m) s3).2 with
    | none =>
      rw [hm] at r4
      cases (RunI_ret r4).1
      exact .inl ⟨rfl, rfl⟩
    | some mv =>
      rw [hm] at r4
      change metricView s3.tree m = some mv at hm
      obtain ⟨h7, s7, y, h8, rfl, r7, r8⟩ := RunI_bind r4
      have hy := (RunI_ret r8).1
      obtain ⟨sy, ay, sty⟩ := y
      simp only [Prod.mk.injEq] at hy
      obtain ⟨rfl, rfl⟩ := hy
      rcases textEmit_any r7 with h | ⟨cs, c1, c2⟩
      · exact .inl h
      · refine .inr ⟨mv, cs, metricView_ext (hS s3 hs3).1 hT (hS s3 hs3).2 hm, c1.mono ?_, c2⟩
        rintro τ ⟨e, he, rfl⟩
        exact hh2 e (by simp [he])
  · exact absurd (by simpa using hst) (a1 [] m)

/-- the text page of a counter -/
theorem text_counter {a b q : List (Item A)} {x : Item A} {s : St A} (hr : Run w (a ++ x :: b) s) {c fuel : ℕ} {path : Str}
    {x0 : W} {f : W × Status → A}
    (hx : x.lab = .spawn c ((textEndpoint fm wr fuel path x0).bind fun r => .ret (f r))) {ans : A} {held : List (ℕ × ℕ)}
    (hd : s.procs[c]? = some ⟨.run (.ret ans), held⟩) {m : ℕ} (hm : Stable (During b s.mem) 0 (newPathSpec path) m)
    {sc : Src} {k : IntKind} (hk : CounterIs s.mem.tree m sc k) (hc : Counter w sc k (a ++ x :: b ++ q)) :
    ∃ x1 st, ans = f (x1, st) ∧ ((x1 = x0 ∧ st = .panic) ∨ ∃ p p' u y, b = p ++ p' ∧ GivesInt w sc (a ++ x :: p) u ∧ DenotesInt y u ∧
      wr.all x0 [y ++ lit "\n"] = (x1, st)) := by
  obtain ⟨hre, -, h3⟩ := hr.call hx (notTick_reads (ProgAll_bind (textEndpoint_reads ..) fun _ => trivial)) hd
  obtain ⟨⟨x1, st⟩, hrun, h5⟩ := RunI_map h3
  refine ⟨x1, st, h5, ?_⟩
  have hS : ∀ τ, τ ∈ statesOf (image c 0 b) (code (answers c b).length s.mem) → ∃ τ' j, During b s.mem τ' ∧ τ = code j τ' :=
    fun τ hτ => image_states hτ
  rcases textEndpoint_single hre hrun (stable_code hS hm) with h | ⟨mv, cs, h6, h7, h8⟩
  · exact .inl h
  · obtain ⟨k1, k2⟩ := hk mv h6
    obtain ⟨σ, nm, u, y, g1, g2, g3, rfl⟩ := tells_int (h7.code hS) k1 k2 (by
      intro σ d hσ hd
      obtain ⟨p, p', rfl, rfl⟩ := during_cut hr hσ
      exact hc.int (a ++ x :: p) (p' ++ q) d (by simp) hd)
    obtain ⟨p, p', rfl, rfl⟩ := during_cut hr g1
    exact .inr ⟨p, p', u, y, rfl, ⟨nm, k, g2⟩, g3, h8⟩

end Tricorder.Whole
