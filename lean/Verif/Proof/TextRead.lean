import Verif.Spec.TextRead
import Verif.Proof.Client
/-!
# How a script reads the text page: proofs
-/

namespace Tricorder
open Go Spec _root_.Spec

theorem cut_at {c : UInt8} {a b x y : Str} (ha : c ∉ a) (hb : c ∉ b) (h : a ++ [c] ++ x = b ++ [c] ++ y) : a = b ∧ x = y := by
  induction a generalizing b with
  | nil =>
    cases b with
    | nil => simpa using h
    | cons z b =>
      simp only [List.nil_append, List.cons_append, List.cons.injEq] at h
      exact absurd (by simp [h.1]) hb
  | cons z a ih =>
    cases b with
    | nil =>
      simp only [List.nil_append, List.cons_append, List.cons.injEq] at h
      exact absurd (by simp [h.1]) ha
    | cons z' b =>
      simp only [List.cons_append, List.cons.injEq] at h
      obtain ⟨h1, h2⟩ := ih (b := b) (fun hm => ha (by simp [hm])) (fun hm => hb (by simp [hm])) (by simpa using h.2)
      exact ⟨by rw [h.1, h1], h2⟩

theorem lines_unique {page : Str} {a b : List Str} (ha : Lines page a) (hb : Lines page b) : a = b := by
  obtain ⟨a1, a2⟩ := ha
  obtain ⟨b1, b2⟩ := hb
  rw [a1] at b1
  clear a1
  induction a generalizing b with
  | nil =>
    cases b with
    | nil => rfl
    | cons l b => simp at b1
  | cons l a ih =>
    cases b with
    | nil => simp at b1
    | cons l' b =>
      simp only [List.map_cons, List.flatten_cons] at b1
      obtain ⟨h1, h2⟩ := cut_at (a2 l (by simp)) (b2 l' (by simp)) b1
      rw [h1, ih (fun x hx => a2 x (by simp [hx])) h2 (fun x hx => b2 x (by simp [hx]))]

theorem readAs_unique {page : Str} {a b : List (Str × Str)} (ha : ReadAs page a) (hb : ReadAs page b) : a = b := by
  obtain ⟨ls, a1, a2⟩ := ha
  obtain ⟨ls', b1, b2⟩ := hb
  rw [lines_unique b1 a1] at b2
  clear a1 b1
  induction a2 generalizing b with
  | nil => cases b2; rfl
  | cons h _ ih =>
    cases b2 with
    | cons h' h'' =>
      obtain ⟨e1, e2⟩ := cut_at h.2 h'.2 (h.1.symm.trans h'.1)
      rw [ih h'']
      congr 1
      exact Prod.ext e1 e2

/-! ### numerals -/

theorem digits_not {ws : Str} (h : AllDigits ws) {c : UInt8} (hc : c.toNat < 48 ∨ 57 < c.toNat) : c ∉ ws := by
  intro hm
  have := h c hm
  omega

theorem int_not {s : Str} {x : ℤ} (h : DenotesInt s x) {c : UInt8} (hc : c.toNat < 45 ∨ 57 < c.toNat) : c ∉ s := by
  obtain ⟨ws, h1, -, -, rfl⟩ := h
  intro hm
  rcases List.mem_append.mp hm with hm | hm
  · split at hm
    · rw [List.mem_singleton.mp hm] at hc
      revert hc
      decide
    · cases hm
  · exact digits_not h1 (by omega) hm

theorem int_ne {s : Str} {x : ℤ} (h : DenotesInt s x) : s ≠ [] := by
  obtain ⟨ws, -, h2, -, rfl⟩ := h
  intro e
  obtain ⟨-, e⟩ := List.append_eq_nil_iff.mp e
  rcases h2 with rfl | ⟨d, r, rfl, -⟩ <;> cases e

theorem nine_not {s : Str} {x : ℤ} (h : Denotes9 s x) {c : UInt8} (hc : c.toNat < 45 ∨ 57 < c.toNat) : c ∉ s := by
  obtain ⟨ws, fs, h1, -, h2, -, -, rfl⟩ := h
  intro hm
  simp only [List.mem_append, List.mem_singleton] at hm
  rcases hm with ((hm | hm) | hm) | hm
  · split at hm
    · rw [List.mem_singleton.mp hm] at hc
      revert hc
      decide
    · cases hm
  · exact digits_not h1 (by omega) hm
  · rw [hm] at hc
    revert hc
    decide
  · exact digits_not h2 (by omega) hm

theorem nine_ne {s : Str} {x : ℤ} (h : Denotes9 s x) : s ≠ [] := by
  obtain ⟨ws, fs, -, -, -, -, -, rfl⟩ := h
  simp

/-- sign and digits -/
theorem sign_inj {x x' : ℤ} {a b : Str} (ha : AllDigits a) (hb : AllDigits b) {r r' : Str} (ha' : a ≠ []) (hb' : b ≠ [])
    (h : (if x < 0 then [45] else []) ++ a ++ r = (if x' < 0 then ([45] : Str) else []) ++ b ++ r') :
    (x < 0 ↔ x' < 0) ∧ a ++ r = b ++ r' := by
  have key : ∀ {a r b r' : Str}, AllDigits a → a ≠ [] → a ++ r = [45] ++ b ++ r' → False := by
    intro a r b r' ha hne h
    cases a with
    | nil => exact hne rfl
    | cons d a =>
      simp only [List.cons_append, List.nil_append, List.cons.injEq] at h
      have := ha d (by simp)
      rw [h.1] at this
      revert this
      decide
  by_cases h1 : x < 0 <;> by_cases h2 : x' < 0
  · rw [if_pos h1, if_pos h2] at h
    exact ⟨by tauto, by simpa using h⟩
  · rw [if_pos h1, if_neg h2] at h
    exact (key hb hb' h.symm).elim
  · rw [if_neg h1, if_pos h2] at h
    exact (key ha ha' h).elim
  · rw [if_neg h1, if_neg h2] at h
    exact ⟨by tauto, h⟩

theorem nlz_ne {a : Str} (h : NoLeadingZero a) : a ≠ [] := by
  rcases h with rfl | ⟨d, r, rfl, -⟩ <;> simp

theorem int_inj {s : Str} {x x' : ℤ} (h : DenotesInt s x) (h' : DenotesInt s x') : x = x' := by
  obtain ⟨a, a1, a2, a3, rfl⟩ := h
  obtain ⟨b, b1, b2, b3, e⟩ := h'
  obtain ⟨h1, h2⟩ := sign_inj (r := []) (r' := []) a1 b1 (nlz_ne a2) (nlz_ne b2) (by simpa using e)
  simp only [List.append_nil] at h2
  subst h2
  omega

theorem nine_inj {s : Str} {x x' : ℤ} (h : Denotes9 s x) (h' : Denotes9 s x') : x = x' := by
  obtain ⟨a, f, a1, a2, f1, f2, a3, rfl⟩ := h
  obtain ⟨b, g, b1, b2, g1, g2, b3, e⟩ := h'
  obtain ⟨h1, h2⟩ := sign_inj (r := [46] ++ f) (r' := [46] ++ g) a1 b1 (nlz_ne a2) (nlz_ne b2)
    (by simpa only [List.append_assoc] using e)
  rw [← List.append_assoc, ← List.append_assoc] at h2
  obtain ⟨rfl, rfl⟩ := cut_at (digits_not a1 (by decide)) (digits_not b1 (by decide)) h2
  omega

/-! ### values -/

theorem perSecond_pos (u : MUnit) : 0 < perSecond u := by unfold perSecond; split <;> decide

theorem base_not {fm : Fmts} (hf : PlainFmts fm) {t : Ty} {u : MUnit} {b : Base} {s : Str} (hb : PlainBase b)
    (h : TextBase fm t u b s) : (10 : UInt8) ∉ s := by
  cases b with
  | bool b => rw [show s = _ from h]; cases b <;> decide +kernel
  | int k x => exact int_not h (by decide)
  | float32 x => rw [show s = _ from h]; exact ((hf x).2.2 10 (by decide)).1
  | float64 x => rw [show s = _ from h]; exact ((hf x).2.2 10 (by decide)).2
  | string x =>
    rw [show s = _ from h]
    intro hm
    rcases List.mem_append.mp hm with hm | hm
    · rcases List.mem_append.mp hm with hm | hm
      · revert hm; decide +kernel
      · exact hb hm
    · revert hm; decide +kernel
  | time x => exact nine_not (h hb) (by decide)
  | duration d =>
    rw [TextBase] at h
    split at h
    · exact nine_not h (by decide)
    · exact int_not h (by decide)

theorem base_bar {fm : Fmts} (hf : PlainFmts fm) {t : Ty} {u : MUnit} {b : Base} {s : Str} (hb : PlainBase b) (hn : NoBar b)
    (h : TextBase fm t u b s) : (124 : UInt8) ∉ s := by
  cases b with
  | bool b => rw [show s = _ from h]; cases b <;> decide +kernel
  | int k x => exact int_not h (by decide)
  | float32 x => rw [show s = _ from h]; exact ((hf x).2.2 124 (by decide)).1
  | float64 x => rw [show s = _ from h]; exact ((hf x).2.2 124 (by decide)).2
  | string x =>
    rw [show s = _ from h]
    intro hm
    rcases List.mem_append.mp hm with hm | hm
    · rcases List.mem_append.mp hm with hm | hm
      · revert hm; decide +kernel
      · exact hn hm
    · revert hm; decide +kernel
  | time x => exact nine_not (h hb) (by decide)
  | duration d =>
    rw [TextBase] at h
    split at h
    · exact nine_not h (by decide)
    · exact int_not h (by decide)

theorem base_ne {fm : Fmts} (hf : PlainFmts fm) {t : Ty} {u : MUnit} {b : Base} {s : Str} (hb : PlainBase b)
    (h : TextBase fm t u b s) : s ≠ [] := by
  cases b with
  | bool b => rw [show s = _ from h]; cases b <;> decide +kernel
  | int k x => exact int_ne h
  | float32 x => rw [show s = _ from h]; exact (hf x).1
  | float64 x => rw [show s = _ from h]; exact (hf x).2.1
  | string x => rw [show s = _ from h]; simp [lit]
  | time x => exact nine_ne (h hb)
  | duration d =>
    rw [TextBase] at h
    split at h
    · exact nine_ne h
    · exact int_ne h

theorem base_same {fm : Fmts} {t : Ty} {u : MUnit} {b b' : Base} {s : Str} (hty : b.ty = b'.ty) (hb : PlainBase b) (hb' : PlainBase b')
    (h : TextBase fm t u b s) (h' : TextBase fm t u b' s) : SameShown fm b b' := by
  have hu := perSecond_pos u
  cases b <;> cases b' <;> simp only [Base.ty, reduceCtorEq] at hty
  · rename_i x x'
    have : (if x then lit "true" else lit "false") = if x' then lit "true" else lit "false" :=
      (show s = _ from h).symm.trans (show s = _ from h')
    cases x <;> cases x' <;> first | rfl | exact absurd this (by decide +kernel)
  · exact int_inj h h'
  · exact (show s = _ from h).symm.trans (show s = _ from h')
  · exact (show s = _ from h).symm.trans (show s = _ from h')
  · have := (show s = _ from h).symm.trans (show s = _ from h')
    simpa [SameShown] using this
  · have := nine_inj (h hb) (h' hb')
    exact Int.eq_of_mul_eq_mul_right (by omega) this
  · rw [TextBase] at h h'
    split at h
    · rename_i ht
      rw [if_pos ht] at h'
      exact Int.eq_of_mul_eq_mul_right (by omega) (nine_inj h h')
    · rename_i ht
      rw [if_neg ht] at h'
      exact int_inj h h'

/-! ### lists -/

theorem bar_two (a b : Str) (l : List Str) : List.intercalate (lit "|") (a :: b :: l) = a ++ [124] ++ List.intercalate (lit "|") (b :: l) := by
  rw [show lit "|" = [124] by decide +kernel]
  simp [List.intercalate, List.intersperse]

theorem bar_one (a : Str) : List.intercalate (lit "|") [a] = a := by simp [List.intercalate, List.intersperse]

theorem join_inj : ∀ {l l' : List Str}, (∀ a ∈ l, (124 : UInt8) ∉ a ∧ a ≠ []) → (∀ a ∈ l', (124 : UInt8) ∉ a ∧ a ≠ []) →
    List.intercalate (lit "|") l = List.intercalate (lit "|") l' → l = l'
  | [], [], _, _, _ => rfl
  | [], [a], _, h', e => by
    rw [bar_one] at e
    exact absurd e.symm (h' a (by simp)).2
  | [], a :: b :: l', _, _, e => by
    rw [bar_two] at e
    simp [List.intercalate] at e
  | [a], [], h, _, e => by
    rw [bar_one] at e
    exact absurd e (h a (by simp)).2
  | a :: b :: l, [], _, _, e => by
    rw [bar_two] at e
    simp [List.intercalate] at e
  | [a], [a'], _, _, e => by
    rw [bar_one, bar_one] at e
    rw [e]
  | [a], a' :: b' :: l', h, _, e => by
    rw [bar_one, bar_two] at e
    exact absurd (by rw [e]; simp) (h a (by simp)).1
  | a :: b :: l, [a'], _, h', e => by
    rw [bar_one, bar_two] at e
    exact absurd (by rw [← e]; simp) (h' a' (by simp)).1
  | a :: b :: l, a' :: b' :: l', h, h', e => by
    rw [bar_two, bar_two] at e
    obtain ⟨e1, e2⟩ := cut_at (h a (by simp)).1 (h' a' (by simp)).1 e
    rw [e1, join_inj (fun x hx => h x (by simp [hx])) (fun x hx => h' x (by simp [hx])) e2]

theorem join_not {l : List Str} {c : UInt8} (hc : c ≠ 124) (h : ∀ a ∈ l, c ∉ a) : c ∉ List.intercalate (lit "|") l := by
  induction l with
  | nil => simp [List.intercalate]
  | cons a l ih =>
    cases l with
    | nil => rw [bar_one]; exact h a (by simp)
    | cons b l =>
      rw [bar_two]
      simp only [List.mem_append, List.mem_singleton, not_or]
      exact ⟨⟨h a (by simp), hc⟩, ih fun x hx => h x (by simp [hx])⟩

/-! ### distributions -/

/-- the text of the ranges that are shown -/
inductive RangesText : List (Str × Str × ℕ) → Str → Prop
  | nil : RangesText [] []
  | cons {lo hi c s : Str} {n : ℕ} {l : List (Str × Str × ℕ)} : DenotesInt c n → RangesText l s →
      RangesText ((lo, hi, n) :: l) (lit ";[" ++ lo ++ lit "," ++ hi ++ lit "):" ++ c ++ s)

theorem ranges_text {fm : Fmts} {n : ℕ} : ∀ (i : ℕ) (rs : List RangeMsg) (xs : List Str), xs.length = rs.length →
    (∀ (k : ℕ) r x, rs[k]? = some r → xs[k]? = some x → TextRange fm n (i + k) r x) →
    RangesText (shownRanges fm n i rs) xs.flatten
  | i, [], [], _, _ => .nil
  | i, r :: rs, x :: xs, hl, h => by
    have ih := ranges_text (i + 1) rs xs (by simpa using hl) fun k r' x' h1 h2 => by
      have := h (k + 1) r' x' (by simpa using h1) (by simpa using h2)
      rwa [show i + (k + 1) = i + 1 + k by omega] at this
    have h0 := h 0 r x rfl rfl
    rw [Nat.add_zero] at h0
    unfold TextRange at h0
    rw [shownRanges, List.flatten_cons]
    split at h0
    · rename_i hc
      rw [if_pos hc, h0]
      exact ih
    · rename_i hc
      obtain ⟨c, c1, rfl⟩ := h0
      rw [if_neg hc]
      exact .cons c1 ih

theorem ranges_head {l : List (Str × Str × ℕ)} {s : Str} (h : RangesText l s) : ∃ c r, s ++ lit "}" = c :: r ∧ (c = 59 ∨ c = 125) := by
  cases h with
  | nil => exact ⟨125, [], by decide +kernel, .inr rfl⟩
  | cons _ _ =>
    rw [show lit ";[" = 59 :: lit "[" by decide +kernel]
    exact ⟨59, _, rfl, .inl rfl⟩

theorem int_cut {c c' r r' : Str} {n n' : ℕ} (h : DenotesInt c n) (h' : DenotesInt c' n') (e : c ++ r = c' ++ r')
    (hr : ∃ d q, r = d :: q ∧ (d = 59 ∨ d = 125)) (hr' : ∃ d q, r' = d :: q ∧ (d = 59 ∨ d = 125)) : c = c' ∧ r = r' := by
  have key : ∀ (c c' : Str), (59 : UInt8) ∉ c → (125 : UInt8) ∉ c → (59 : UInt8) ∉ c' → (125 : UInt8) ∉ c' → c ++ r = c' ++ r' → c = c' ∧ r = r' := by
    obtain ⟨d, q, rfl, hd⟩ := hr
    obtain ⟨d', q', rfl, hd'⟩ := hr'
    intro c
    induction c with
    | nil =>
      intro c' _ _ h1 h2 e
      cases c' with
      | nil => exact ⟨rfl, e⟩
      | cons z c' =>
        simp only [List.nil_append, List.cons_append, List.cons.injEq] at e
        rcases hd with rfl | rfl
        · exact absurd (by simp [e.1]) h1
        · exact absurd (by simp [e.1]) h2
    | cons z c ih =>
      intro c' h1 h2 h3 h4 e
      cases c' with
      | nil =>
        simp only [List.nil_append, List.cons_append, List.cons.injEq] at e
        rcases hd' with rfl | rfl
        · exact absurd (by simp [e.1]) h1
        · exact absurd (by simp [e.1]) h2
      | cons z' c' =>
        simp only [List.cons_append, List.cons.injEq] at e
        obtain ⟨k1, k2⟩ := ih c' (fun hm => h1 (by simp [hm])) (fun hm => h2 (by simp [hm])) (fun hm => h3 (by simp [hm]))
          (fun hm => h4 (by simp [hm])) e.2
        exact ⟨by rw [e.1, k1], k2⟩
  exact key c c' (int_not h (by decide)) (int_not h (by decide)) (int_not h' (by decide)) (int_not h' (by decide)) e

/-- no comma and no parenthesis in the bounds -/
def PlainRanges (l : List (Str × Str × ℕ)) : Prop := ∀ e ∈ l, (44 : UInt8) ∉ e.1 ∧ (41 : UInt8) ∉ e.2.1

theorem ranges_inj {l l' : List (Str × Str × ℕ)} {s s' : Str} (h : RangesText l s) (h' : RangesText l' s') (hl : PlainRanges l)
    (hl' : PlainRanges l') (e : s ++ lit "}" = s' ++ lit "}") : l = l' := by
  have hq : lit ";[" = 59 :: lit "[" := by decide +kernel
  have hb : lit "}" = [125] := by decide +kernel
  induction h generalizing l' s' with
  | nil =>
    cases h' with
    | nil => rfl
    | cons _ _ =>
      rw [hq, hb] at e
      simp at e
  | @cons lo hi c s n l c1 c2 ih =>
    cases h' with
    | nil =>
      rw [hq, hb] at e
      simp at e
    | @cons lo' hi' c' s' n' l' d1 d2 =>
      have x1 := hl (lo, hi, n) (by simp)
      have x2 := hl' (lo', hi', n') (by simp)
      rw [show lit "," = [44] by decide +kernel, show lit "):" = [41] ++ [58] by decide +kernel] at e
      have e1 : lo ++ [44] ++ (hi ++ [41] ++ ([58] ++ (c ++ (s ++ lit "}")))) =
          lo' ++ [44] ++ (hi' ++ [41] ++ ([58] ++ (c' ++ (s' ++ lit "}")))) := by
        simpa only [List.append_assoc, List.append_cancel_left_eq] using e
      obtain ⟨e2, e3⟩ := cut_at x1.1 x2.1 e1
      obtain ⟨e4, e5⟩ := cut_at x1.2 x2.2 e3
      obtain ⟨e6, e7⟩ := int_cut c1 d1 (List.append_cancel_left e5) (ranges_head c2) (ranges_head d2)
      subst e6
      have e8 := int_inj c1 d1
      simp only at e2 e4
      rw [e2, e4, show n = n' by omega,
        ih d2 (fun x hx => hl x (by simp [hx])) (fun x hx => hl' x (by simp [hx])) e7]

theorem shown_plain {fm : Fmts} (hf : PlainFmts fm) (n : ℕ) : ∀ (i : ℕ) (rs : List RangeMsg), PlainRanges (shownRanges fm n i rs)
  | _, [] => by intro e he; cases he
  | i, r :: rs => by
    have ih := shown_plain hf n (i + 1) rs
    rw [shownRanges]
    split
    · exact ih
    · intro e he
      rcases List.mem_cons.mp he with rfl | he
      · constructor
        · dsimp only
          split
          · decide +kernel
          · exact ((hf _).2.2 44 (by decide)).1
        · dsimp only
          split
          · decide +kernel
          · exact ((hf _).2.2 41 (by decide)).1
      · exact ih e he

theorem ranges_not {fm : Fmts} (hf : PlainFmts fm) (n : ℕ) {rs : List RangeMsg} {xs : List Str} (hl : xs.length = rs.length)
    (h : ∀ (k : ℕ) r x, rs[k]? = some r → xs[k]? = some x → TextRange fm n k r x) : (10 : UInt8) ∉ xs.flatten := by
  intro hm
  obtain ⟨x, hx, hm⟩ := List.mem_flatten.mp hm
  obtain ⟨k, hk, rfl⟩ := List.getElem_of_mem hx
  have := h k (rs[k]'(by omega)) xs[k] (List.getElem?_eq_getElem _) (List.getElem?_eq_getElem _)
  unfold TextRange at this
  split at this
  · rw [this] at hm; cases hm
  · obtain ⟨c, c1, c2⟩ := this
    rw [c2] at hm
    simp only [List.mem_append] at hm
    have n1 : (10 : UInt8) ∉ lit ";[" := by decide +kernel
    have n2 : (10 : UInt8) ∉ lit "," := by decide +kernel
    have n3 : (10 : UInt8) ∉ lit "):" := by decide +kernel
    have n4 : (10 : UInt8) ∉ lit "-inf" := by decide +kernel
    have n5 : (10 : UInt8) ∉ lit "inf" := by decide +kernel
    have n6 := int_not c1 (c := 10) (by decide)
    have n7 := ((hf rs[k].lower).2.2 10 (by decide)).1
    have n8 := ((hf rs[k].upper).2.2 10 (by decide)).1
    split at hm <;> split at hm <;> tauto

theorem dist_not {fm : Fmts} (hf : PlainFmts fm) {d : DistMsg} {s : Str} (h : TextDist fm d s) : (10 : UInt8) ∉ s := by
  obtain ⟨c, xs, h1, h2, h3, rfl⟩ := h
  have n0 := ranges_not hf _ h2 h3
  have n1 := int_not h1 (c := 10) (by decide)
  have nf : ∀ x, (10 : UInt8) ∉ fm.f32 x := fun x => ((hf x).2.2 10 (by decide)).1
  have nl : ∀ l ∈ [lit "{min:", lit ";max:", lit ";avg:", lit ";median:", lit ";sum:", lit ";count:", lit "}"], (10 : UInt8) ∉ l := by
    decide +kernel
  simp only [List.mem_append, not_or]
  exact ⟨⟨⟨⟨⟨⟨⟨⟨⟨⟨⟨⟨⟨nl _ (by simp), nf _⟩, nl _ (by simp)⟩, nf _⟩, nl _ (by simp)⟩, nf _⟩, nl _ (by simp)⟩, nf _⟩, nl _ (by simp)⟩, nf _⟩,
    nl _ (by simp)⟩, n1⟩, n0⟩, nl _ (by simp)⟩

theorem dist_same {fm : Fmts} (hf : PlainFmts fm) {d d' : DistMsg} {s : Str} (h : TextDist fm d s) (h' : TextDist fm d' s) :
    SameDist fm d d' := by
  obtain ⟨c, xs, h1, h2, h3, rfl⟩ := h
  obtain ⟨c', xs', k1, k2, k3, e⟩ := h'
  have r1 := ranges_text 0 d.ranges xs h2 (by simpa using h3)
  have r2 := ranges_text 0 d'.ranges xs' k2 (by simpa using k3)
  have nf : ∀ x, (59 : UInt8) ∉ fm.f32 x := fun x => ((hf x).2.2 59 (by decide)).1
  have l1 : lit ";max:" = [59] ++ lit "max:" := by decide +kernel
  have l2 : lit ";avg:" = [59] ++ lit "avg:" := by decide +kernel
  have l3 : lit ";median:" = [59] ++ lit "median:" := by decide +kernel
  have l4 : lit ";sum:" = [59] ++ lit "sum:" := by decide +kernel
  have l5 : lit ";count:" = [59] ++ lit "count:" := by decide +kernel
  rw [l1, l2, l3, l4, l5] at e
  simp only [List.append_assoc, List.append_cancel_left_eq] at e
  have cut : ∀ {x y : Fl} {a b : Str}, fm.f32 x ++ ([59] ++ a) = fm.f32 y ++ ([59] ++ b) → fm.f32 x = fm.f32 y ∧ a = b := by
    intro x y a b h
    exact cut_at (nf x) (nf y) (by simpa using h)
  obtain ⟨e1, e⟩ := cut e
  obtain ⟨e2, e⟩ := cut (List.append_cancel_left e)
  obtain ⟨e3, e⟩ := cut (List.append_cancel_left e)
  obtain ⟨e4, e⟩ := cut (List.append_cancel_left e)
  obtain ⟨e5, e⟩ := cut (List.append_cancel_left e)
  obtain ⟨e6, e7⟩ := int_cut h1 k1 (List.append_cancel_left e) (ranges_head r1) (ranges_head r2)
  subst e6
  have e8 := int_inj h1 k1
  exact ⟨e1, e2, e3, e4, e5, by omega, ranges_inj r1 r2 (shown_plain hf _ _ _) (shown_plain hf _ _ _) e7⟩

/-- a text has no newline -/
theorem text_not {fm : Fmts} (hf : PlainFmts fm) {y : Metric} (hy : ∀ b ∈ shownBases y, PlainBase b) {s : Str} (h : TextOf fm y s) :
    (10 : UInt8) ∉ s := by
  unfold TextOf at h
  unfold shownBases at hy
  split at h
  · rename_i heq
    rw [heq] at hy
    exact base_not hf (hy _ (by simp)) h
  · rename_i heq
    rw [heq] at hy
    obtain ⟨parts, p1, rfl⟩ := h
    refine join_not (by decide) fun a ha => ?_
    simp only at hy
    generalize Option.getD _ [] = l at p1 hy
    induction p1 with
    | nil => cases ha
    | cons k _ ih =>
      rcases List.mem_cons.mp ha with rfl | ha
      · exact base_not hf (hy _ (by simp)) k
      · exact ih ha (fun b hb => hy b (by simp [hb]))
  · exact dist_not hf h
  · exact h.elim

theorem parts_ok {fm : Fmts} (hf : PlainFmts fm) {t : Ty} {u : MUnit} {l : List Base} {parts : List Str}
    (h : List.Forall₂ (TextBase fm t u) l parts) (hp : ∀ b ∈ l, PlainBase b ∧ NoBar b) :
    ∀ a ∈ parts, (124 : UInt8) ∉ a ∧ a ≠ [] := by
  induction h with
  | nil => intro a ha; cases ha
  | cons k _ ih =>
    intro a ha
    have := hp _ (List.mem_cons_self ..)
    rcases List.mem_cons.mp ha with rfl | ha
    · exact ⟨base_bar hf this.1 this.2 k, base_ne hf this.1 k⟩
    · exact ih (fun b hb => hp b (by simp [hb])) a ha

theorem list_same {fm : Fmts} {t : Ty} {u : MUnit} {l l' : List Base} {parts : List Str}
    (h : List.Forall₂ (TextBase fm t u) l parts) (h' : List.Forall₂ (TextBase fm t u) l' parts)
    (hp : ∀ b ∈ l, PlainBase b) (hp' : ∀ b ∈ l', PlainBase b) (ht : ∀ b ∈ l, ∀ b' ∈ l', b.ty = b'.ty) :
    List.Forall₂ (SameShown fm) l l' := by
  induction h generalizing l' with
  | nil => cases h'; exact .nil
  | cons k _ ih =>
    cases h' with
    | cons k' h'' =>
      exact .cons (base_same (ht _ (by simp) _ (by simp)) (hp _ (by simp)) (hp' _ (by simp)) k k')
        (ih h'' (fun b hb => hp b (by simp [hb])) (fun b hb => hp' b (by simp [hb]))
          fun b hb b' hb' => ht b (by simp [hb]) b' (by simp [hb']))

/-- a text determines the value, as far as it is shown -/
theorem text_same {fm : Fmts} (hf : PlainFmts fm) {y y' : Metric} (ht : SameTypes y y') (hy : ∀ b ∈ shownBases y, PlainBase b ∧ NoBar b)
    (hy' : ∀ b ∈ shownBases y', PlainBase b ∧ NoBar b) {s : Str} (h : TextOf fm y s) (h' : TextOf fm y' s) : SameValue fm y y' := by
  obtain ⟨t1, t2, t3, t4⟩ := ht
  unfold TextOf at h h'
  unfold shownBases at hy hy'
  unfold SameValue
  rw [← t1, ← t2, ← t3] at h'
  generalize y.value = v at *
  generalize y'.value = v' at *
  cases v <;> cases v' <;> first | exact t4.elim | skip
  · exact base_same t4 (hy _ (by simp)).1 (hy' _ (by simp)).1 h h'
  · rename_i d d'
    cases d with
    | none => exact h.elim
    | some d =>
      cases d' with
      | none => exact h'.elim
      | some d' => exact dist_same hf h h'
  · obtain ⟨p, p1, rfl⟩ := h
    obtain ⟨p', p1', e⟩ := h'
    have := join_inj (parts_ok hf p1 hy) (parts_ok hf p1' hy') e
    subst this
    exact list_same p1 p1' (fun b hb => (hy b hb).1) (fun b hb => (hy' b hb).1) t4

end Tricorder
