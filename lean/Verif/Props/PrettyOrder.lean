import Verif.Proof.PrettyOrder
/-!
# C116: readable durations keep the order
-/

namespace Tricorder
open Go Spec _root_.Spec

/-- **C116** `PrettyFormat` of two non-negative durations: the text of the longer one does not stand for less time than that of the other
one, and no text stands for more time than the duration. -/
theorem C116_order {d d' : Dur} (hd : Coherent d) (hd' : Coherent d') (h0 : 0 ≤ ns d) (h : ns d ≤ ns d') :
    ∃ s s' v v', d.prettyFormat = some s ∧ d'.prettyFormat = some s' ∧ PrettyOf s v ∧ PrettyOf s' v' ∧ v ≤ v' ∧
      (v : ℤ) ≤ ns d ∧ (v' : ℤ) ≤ ns d' := by
  obtain ⟨s, h1, h2⟩ := C46_prettyFormat d hd h0
  obtain ⟨s', h3, h4⟩ := C46_prettyFormat d' hd' (by omega)
  refine ⟨s, s', _, _, h1, h3, pretty_of h2, pretty_of h4, prettyShown_mono (by omega), ?_, ?_⟩
  · have := prettyShown_le (ns d).toNat
    omega
  · have := prettyShown_le (ns d').toNat
    omega

/-- **C116 (one duration)** Such a text stands for one duration only. -/
theorem C116_unique {s : Str} {v v' : ℕ} (h : PrettyOf s v) (h' : PrettyOf s v') : v = v' := pretty_unique h h'

/-- **C116 (close)** What the text of a duration stands for is less than a second and at most a tenth below the duration. -/
theorem C116_close {d : Dur} {s : Str} {v : ℕ} (hd : Coherent d) (h0 : 0 ≤ ns d) (hs : d.prettyFormat = some s) (hv : PrettyOf s v) :
    (v : ℤ) ≤ ns d ∧ ns d < v + 1000000000 ∧ 10 * (ns d - v) ≤ ns d := by
  obtain ⟨s', h1, h2⟩ := C46_prettyFormat d hd h0
  obtain rfl : s' = s := by rw [h1] at hs; exact Option.some.inj hs
  obtain rfl := pretty_unique hv (pretty_of h2)
  have := prettyShown_le (ns d).toNat
  have := prettyShown_close (ns d).toNat
  omega

/-- **C116 (same text)** Two durations with the same text differ by less than a second. -/
theorem C116_same {d d' : Dur} {s : Str} (hd : Coherent d) (hd' : Coherent d') (h0 : 0 ≤ ns d) (h0' : 0 ≤ ns d')
    (hs : d.prettyFormat = some s) (hs' : d'.prettyFormat = some s) : |ns d - ns d'| < 1000000000 := by
  obtain ⟨s', h1, h2⟩ := C46_prettyFormat d hd h0
  obtain rfl : s' = s := by rw [h1] at hs; exact Option.some.inj hs
  have a := C116_close hd h0 hs (pretty_of h2)
  have b := C116_close hd' h0' hs' (pretty_of h2)
  rw [abs_lt]
  omega

/-- **C116 (HTML)** The same for durations on HTML pages. -/
theorem C116_html (fm : Fmts) (u u' : MUnit) {x x' : ℤ} (hx : InI64 x) (hx' : InI64 x') (h0 : 0 ≤ x) (h : x ≤ x') :
    ∃ s s' v v', valueToHtmlString fm (.scalar none (.duration x)) .goDuration u false = some s ∧
      valueToHtmlString fm (.scalar none (.duration x')) .goDuration u' false = some s' ∧ PrettyOf s v ∧ PrettyOf s' v' ∧ v ≤ v' ∧
      (v : ℤ) ≤ x ∧ (v' : ℤ) ≤ x' := by
  have key : ∀ {y : ℤ} (v : MUnit), InI64 y → 0 ≤ y → Coherent (Dur.new y) ∧ ns (Dur.new y) = y ∧
      valueToHtmlString fm (.scalar none (.duration y)) .goDuration v false = (Dur.new y).prettyFormat := by
    intro y v hy hy0
    obtain ⟨h1, h2, -⟩ := Dur.new_coherent y hy
    have hneg : ¬ (Dur.new y).isNegative = true := by
      have e : (Dur.new y).sec * 1000000000 + (Dur.new y).nsec = y := h2
      unfold Coherent at h1
      unfold Dur.isNegative
      rw [Bool.or_eq_true, decide_eq_true_eq, decide_eq_true_eq]
      omega
    have he : valueToHtmlString fm (.scalar none (.duration y)) .goDuration v false =
        if (Dur.new y).isNegative then valueToTextString fm (.scalar none (.duration y)) .goDuration v false
        else (Dur.new y).prettyFormat := rfl
    exact ⟨h1, h2, by rw [he, if_neg hneg]⟩
  obtain ⟨a1, a2, a3⟩ := key u hx h0
  obtain ⟨b1, b2, b3⟩ := key u' hx' (h0.trans h)
  rw [a3, b3]
  have := C116_order a1 b1 (by omega) (by omega)
  rwa [a2, b2] at this

/-! ### Examples -/

example : Coherent ⟨3599, 999999999⟩ ∧ Coherent ⟨3600, 0⟩ ∧ 0 ≤ ns ⟨3599, 999999999⟩ ∧ ns ⟨3599, 999999999⟩ ≤ ns ⟨3600, 0⟩ ∧
    (Dur.mk 3599 999999999).prettyFormat = some (lit "59m 59.999s") ∧ (Dur.mk 3600 0).prettyFormat = some (lit "1h 0m 0s") := by
  decide +kernel

example : (Dur.mk 3600 1).prettyFormat = some (lit "1h 0m 0s") ∧ (Dur.mk 3600 999999999).prettyFormat = some (lit "1h 0m 0s") := by
  decide +kernel

example : PrettyOf (lit "59m 59.999s") 3599999000000 :=
  ⟨[(lit "59", lit "m ", 60000000000), (lit "59", lit ".", 1000000000), (lit "999", lit "s", 1000000)],
    .tail _ (.tail _ (.tail _ (.tail _ (.head _)))), by
      intro x hx
      simp only [List.mem_cons, List.not_mem_nil, or_false] at hx
      rcases hx with rfl | rfl | rfl <;> exact ⟨by decide +kernel, exDigits (by decide +kernel)⟩,
    by decide +kernel, by decide +kernel⟩

end Tricorder
