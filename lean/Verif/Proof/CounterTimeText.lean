import Verif.Spec.CounterTimeText
import Verif.Proof.CounterTime
/-!
# Running totals of time on text pages: proofs
-/

namespace Tricorder.Whole
open Go _root_.Spec Tricorder.Spec Tree

variable {A W : Type} {w : World} {fm : Fmts} {wr : Writer W}

theorem text_time {x : ℤ} (hx : InI64 x) {u : MUnit} {p : Bool} {y : Str}
    (h : valueToTextString fm (.scalar none (.duration x)) .goDuration u p = some y) : Denotes9 y (x * perSecond u) := by
  cases p with
  | true => simp [valueToTextString, Ty.isInt, Ty.isUint] at h
  | false =>
    have e : valueToTextString fm (.scalar none (.duration x)) .goDuration u false = some (durationAsString x u) := by
      simp [valueToTextString, Ty.isInt, Ty.isUint, valueToGoDuration, Dyn.int, durationAsString]
    rw [h] at e
    cases e
    exact durationAsString_denotes x hx u

theorem tells_time {S : State → Prop} {mv : MetricView} {cs : List Str} {sc : Src} (h : TextTells w fm S mv cs)
    (hs : mv.value.src = some sc) (hk : mv.value.valType = .goDuration)
    (hc : ∀ σ d, S σ → current w σ sc = some d → ∃ x, d = .scalar none (.duration x) ∧ InI64 x) :
    ∃ σ x y, S σ ∧ current w σ sc = some (.scalar none (.duration x)) ∧ Denotes9 y (x * perSecond mv.value.unit) ∧ cs = [y ++ lit "\n"] := by
  cases h with
  | dist a => rw [hk] at a; cases a
  | list a => rw [hk] at a; cases a
  | scalar a b c d e f =>
    rw [hs] at b; cases b
    obtain ⟨x, rfl, hx⟩ := hc _ _ c d
    unfold textConv at e
    rw [hk] at e
    exact ⟨_, x, _, c, d, text_time hx e, f⟩

theorem line_time {sc : Src} {u : MUnit} {T : Tree MValue} {tr q : List (Item A)} {l : List Str} {p : Str}
    (h : LineIn w fm T (after w (tr.filterMap memStep) State.init) l) (hp : l.head? = some (p ++ lit " ")) (hk : TotalAt T p sc u)
    (hc : TimeTotal w sc (tr ++ q)) : ∃ x, GivesTime w sc tr x ∧ TimeLine p u x l := by
  obtain ⟨id, mv, ds, h1, rfl, h3⟩ := h
  simp only [List.head?_cons, Option.some.injEq] at hp
  have hp := List.append_cancel_right hp
  obtain ⟨k1, k2, rfl⟩ := hk id mv h1 hp
  obtain ⟨σ, x, y, rfl, h5, h6, rfl⟩ := tells_time h3 k1 k2 (by rintro σ d rfl hd; exact hc.time tr q d rfl hd)
  exact ⟨x, h5, y, h6, by rw [hp]⟩

/-- the text page of a total -/
theorem text_total {a b q : List (Item A)} {x : Item A} {s : St A} (hr : Run w (a ++ x :: b) s) {c fuel : ℕ} {path : Str}
    {x0 : W} {f : W × Status → A}
    (hx : x.lab = .spawn c ((textEndpoint fm wr fuel path x0).bind fun r => .ret (f r))) {ans : A} {held : List (ℕ × ℕ)}
    (hd : s.procs[c]? = some ⟨.run (.ret ans), held⟩) {m : ℕ} (hm : Stable (During b s.mem) 0 (newPathSpec path) m)
    {sc : Src} {v : MUnit} (hk : TotalIn s.mem.tree m sc v) (hc : TimeTotal w sc (a ++ x :: b ++ q)) :
    ∃ x1 st, ans = f (x1, st) ∧ ((x1 = x0 ∧ st = .panic) ∨ ∃ p p' u y, b = p ++ p' ∧ GivesTime w sc (a ++ x :: p) u ∧ Denotes9 y (u * perSecond v) ∧
      wr.all x0 [y ++ lit "\n"] = (x1, st)) := by
  obtain ⟨hre, -, h3⟩ := hr.call hx (notTick_reads (ProgAll_bind (textEndpoint_reads ..) fun _ => trivial)) hd
  obtain ⟨⟨x1, st⟩, hrun, h5⟩ := RunI_map h3
  refine ⟨x1, st, h5, ?_⟩
  have hS : ∀ τ, τ ∈ statesOf (image c 0 b) (code (answers c b).length s.mem) → ∃ τ' j, During b s.mem τ' ∧ τ = code j τ' :=
    fun τ hτ => image_states hτ
  rcases textEndpoint_single hre hrun (stable_code hS hm) with h | ⟨mv, cs, h6, h7, h8⟩
  · exact .inl h
  · obtain ⟨k1, k2, rfl⟩ := hk mv h6
    obtain ⟨σ, u, y, g1, g2, g3, rfl⟩ := tells_time (h7.code hS) k1 k2 (by
      intro σ d hσ hd
      obtain ⟨p, p', rfl, rfl⟩ := during_cut hr hσ
      exact hc.time (a ++ x :: p) (p' ++ q) d (by simp) hd)
    obtain ⟨p, p', rfl, rfl⟩ := during_cut hr g1
    exact .inr ⟨p, p', u, y, rfl, g2, g3, h8⟩

end Tricorder.Whole
