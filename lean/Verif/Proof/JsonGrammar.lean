import Verif.Spec.JsonText
import Mathlib.Tactic.Ring
/-!
# A JSON text has one value
-/

namespace Tricorder
open Go Spec _root_.Spec

/-- does not begin with a byte in `p` -/
def Stops (p : UInt8 → Prop) (s : Str) : Prop := ∀ b t, s = b :: t → ¬ p b

theorem Stops.nil (p : UInt8 → Prop) : Stops p [] := fun _ _ h => nomatch h

theorem Stops.cons {p : UInt8 → Prop} {b : UInt8} (h : ¬ p b) (s : Str) : Stops p (b :: s) := fun _ _ e => by cases e; exact h

/-- the longest beginning with bytes in `p` -/
theorem span_unique {p : UInt8 → Prop} {a a' b b' : Str} (ha : ∀ x ∈ a, p x) (ha' : ∀ x ∈ a', p x) (hb : Stops p b)
    (hb' : Stops p b') (h : a ++ b = a' ++ b') : a = a' ∧ b = b' := by
  induction a generalizing a' with
  | nil =>
    cases a' with
    | nil => exact ⟨rfl, h⟩
    | cons x a' => exact absurd (ha' x (by simp)) (hb x _ h)
  | cons x a ih =>
    cases a' with
    | nil => exact absurd (ha x (by simp)) (hb' x _ h.symm)
    | cons y a' =>
      simp only [List.cons_append, List.cons.injEq] at h
      obtain ⟨e1, e2⟩ := ih (fun z hz => ha z (by simp [hz])) (fun z hz => ha' z (by simp [hz])) h.2
      exact ⟨by rw [h.1, e1], e2⟩

theorem ofNat_toNat (n : ℕ) : (UInt8.ofNat n).toNat = n % 256 := by simp

theorem ofNat_eq {m n : ℕ} (h : UInt8.ofNat m = UInt8.ofNat n) : m % 256 = n % 256 := by
  have := congrArg UInt8.toNat h
  rwa [ofNat_toNat, ofNat_toNat] at this

theorem utf8_prefix {c c' : ℕ} (hc : ScalarValue c) (hc' : ScalarValue c') {s s' : Str} (h : utf8 c ++ s = utf8 c' ++ s') :
    c = c' ∧ s = s' := by
  unfold ScalarValue at hc hc'
  unfold utf8 at h
  split at h <;> split at h <;> (try split at h) <;> (try split at h) <;> (try split at h) <;> (try split at h) <;>
    (simp only [List.cons_append, List.nil_append, List.cons.injEq] at h) <;>
    (first
      | (have h1 := ofNat_eq h.1; have h2 := ofNat_eq h.2.1; have h3 := ofNat_eq h.2.2.1; have h4 := ofNat_eq h.2.2.2.1
         exact ⟨by omega, h.2.2.2.2⟩)
      | (have h1 := ofNat_eq h.1; have h2 := ofNat_eq h.2.1; have h3 := ofNat_eq h.2.2.1; exact ⟨by omega, h.2.2.2⟩)
      | (have h1 := ofNat_eq h.1; have h2 := ofNat_eq h.2.1; exact ⟨by omega, h.2.2⟩)
      | (have h1 := ofNat_eq h.1; exact ⟨by omega, h.2⟩)
      | (have h1 := ofNat_eq h.1; omega))

theorem utf8_ascii {c : ℕ} (hc : ScalarValue c) {b : UInt8} {s t : Str} (hb : b.toNat < 128) (h : utf8 c ++ s = b :: t) :
    c = b.toNat := by
  have : utf8 b.toNat = [b] := by
    unfold utf8
    rw [if_pos hb]
    simp
  have hs : ScalarValue b.toNat := by unfold ScalarValue; omega
  exact (utf8_prefix hc hs (s' := t) (by rw [this]; exact h)).1

theorem escapes_fun {e : UInt8} {c c' : ℕ} (h : (e, c) ∈ escapes) (h' : (e, c') ∈ escapes) : c = c' := by
  unfold escapes at h h'
  simp only [List.mem_cons, Prod.mk.injEq, List.mem_nil_iff, or_false] at h h'
  rcases h with ⟨rfl, rfl⟩ | ⟨rfl, rfl⟩ | ⟨rfl, rfl⟩ | ⟨rfl, rfl⟩ | ⟨rfl, rfl⟩ | ⟨rfl, rfl⟩ | ⟨rfl, rfl⟩ | ⟨rfl, rfl⟩ <;>
    simp at h' <;> exact h'.symm

theorem escapes_u {c : ℕ} : ((117 : UInt8), c) ∉ escapes := by
  unfold escapes; simp

theorem Spec.Hex4.length {h : Str} {n : ℕ} (hh : Hex4 h n) : h.length = 4 := by
  obtain ⟨a, b, c, d, x, y, z, u, rfl, -⟩ := hh; rfl

theorem Spec.Hex4.fun {h : Str} {n m : ℕ} (hh : Hex4 h n) (hh' : Hex4 h m) : n = m := by
  obtain ⟨a, b, c, d, x, y, z, u, rfl, h1, h2, h3, h4, rfl⟩ := hh
  obtain ⟨a', b', c', d', x', y', z', u', e, h1', h2', h3', h4', rfl⟩ := hh'
  simp only [List.cons.injEq, and_true] at e
  obtain ⟨rfl, rfl, rfl, rfl⟩ := e
  rw [h1] at h1'; rw [h2] at h2'; rw [h3] at h3'; rw [h4] at h4'
  cases h1'; cases h2'; cases h3'; cases h4'
  rfl

theorem Spec.Hex4.split {h h' : Str} {n m : ℕ} (hh : Hex4 h n) (hh' : Hex4 h' m) {s s' : Str} (e : h ++ s = h' ++ s') : n = m ∧ s = s' := by
  obtain ⟨rfl, rfl⟩ := List.append_inj e (hh.length.trans hh'.length.symm)
  exact ⟨hh.fun hh', rfl⟩

theorem Spec.Chars.unique {s s' : Str} {cs cs' : List ℕ} (h : Chars s cs) (h' : Chars s' cs') {r r' : Str}
    (e : s ++ 34 :: r = s' ++ 34 :: r') : cs = cs' ∧ s = s' ∧ r = r' := by
  have key : cs = cs' ∧ r = r' := by
    induction h generalizing s' cs' with
    | nil =>
      cases h' with
      | nil => simpa using e
      | plain h1 h2 h3 h4 h5 =>
        rw [List.append_assoc] at e
        exact absurd (utf8_ascii h1 (by decide) e.symm) h3
      | esc => simp at e
      | hex => simp at e
      | pair => simp at e
    | @plain c s cs h1 h2 h3 h4 h5 ih =>
      rw [List.append_assoc] at e
      cases h' with
      | nil => exact absurd (utf8_ascii h1 (by decide) e) h3
      | plain k1 k2 k3 k4 k5 =>
        rw [List.append_assoc] at e
        obtain ⟨rfl, e'⟩ := utf8_prefix h1 k1 e
        obtain ⟨rfl, e2⟩ := ih k5 e'
        exact ⟨rfl, e2⟩
      | esc => exact absurd (utf8_ascii h1 (by decide) e) h4
      | hex => exact absurd (utf8_ascii h1 (by decide) e) h4
      | pair => exact absurd (utf8_ascii h1 (by decide) e) h4
    | esc h1 h2 ih =>
      cases h' with
      | nil => simp at e
      | plain k1 k2 k3 k4 k5 =>
        rw [List.append_assoc] at e
        exact absurd (utf8_ascii k1 (by decide) e.symm) k4
      | esc k1 k2 =>
        simp only [List.cons_append, List.cons.injEq, true_and] at e
        obtain ⟨rfl, e⟩ := e
        obtain ⟨rfl, e2⟩ := ih k2 e
        exact ⟨by rw [escapes_fun h1 k1], e2⟩
      | hex =>
        simp only [List.cons_append, List.cons.injEq, true_and] at e
        rw [e.1] at h1
        exact absurd h1 escapes_u
      | pair =>
        simp only [List.cons_append, List.cons.injEq, true_and] at e
        rw [e.1] at h1
        exact absurd h1 escapes_u
    | hex h1 h2 h3 ih =>
      cases h' with
      | nil => simp at e
      | plain k1 k2 k3 k4 k5 =>
        rw [List.append_assoc] at e
        exact absurd (utf8_ascii k1 (by decide) e.symm) k4
      | esc k1 k2 =>
        simp only [List.cons_append, List.cons.injEq, true_and] at e
        rw [← e.1] at k1
        exact absurd k1 escapes_u
      | hex k1 k2 k3 =>
        simp only [List.cons_append, List.cons.injEq, true_and, List.append_assoc] at e
        obtain ⟨rfl, e⟩ := Hex4.split h1 k1 e
        obtain ⟨rfl, e2⟩ := ih k3 e
        exact ⟨rfl, e2⟩
      | pair k1 k2 k3 k4 k5 k6 =>
        simp only [List.cons_append, List.cons.injEq, true_and, List.append_assoc] at e
        obtain ⟨rfl, e⟩ := Hex4.split h1 k1 e
        unfold ScalarValue at h2
        omega
    | pair h1 h2 h3 h4 h5 h6 h7 ih =>
      cases h' with
      | nil => simp at e
      | plain k1 k2 k3 k4 k5 =>
        rw [List.append_assoc] at e
        exact absurd (utf8_ascii k1 (by decide) e.symm) k4
      | esc k1 k2 =>
        simp only [List.cons_append, List.cons.injEq, true_and] at e
        rw [← e.1] at k1
        exact absurd k1 escapes_u
      | hex k1 k2 k3 =>
        simp only [List.cons_append, List.cons.injEq, true_and, List.append_assoc] at e
        obtain ⟨rfl, e⟩ := Hex4.split h1 k1 e
        unfold ScalarValue at k2
        omega
      | pair k1 k2 k3 k4 k5 k6 k7 =>
        simp only [List.cons_append, List.cons.injEq, true_and, List.append_assoc] at e
        obtain ⟨rfl, e⟩ := Hex4.split h1 k1 e
        simp only [List.cons_append, List.cons.injEq, true_and, List.append_assoc] at e
        obtain ⟨rfl, e⟩ := Hex4.split h2 k2 e
        obtain ⟨rfl, e2⟩ := ih k7 e
        exact ⟨rfl, e2⟩
  obtain ⟨k1, rfl⟩ := key
  exact ⟨k1, List.append_cancel_right e, rfl⟩

/-! ### numbers -/

/-- digits -/
def Dig (b : UInt8) : Prop := 48 ≤ b.toNat ∧ b.toNat ≤ 57

/-- bytes in numbers -/
def NumByte (b : UInt8) : Prop := Dig b ∨ b = 43 ∨ b = 45 ∨ b = 46 ∨ b = 69 ∨ b = 101

theorem Spec.Fraction.stops {s : Str} {q : ℚ} (h : Fraction s q) {t : Str} (ht : Stops Dig t) : Stops Dig (s ++ t) := by
  rcases h with ⟨rfl, -⟩ | ⟨ds, rfl, -⟩
  · exact ht
  · exact Stops.cons (by unfold Dig; decide) _

theorem Spec.Exponent.stops {s : Str} {e : ℤ} (h : Exponent s e) : Stops (fun b => Dig b ∨ b = 46) s := by
  rcases h with ⟨rfl, -⟩ | ⟨m, sg, ds, rfl, rfl | rfl, -⟩
  · exact Stops.nil _
  · exact Stops.cons (by unfold Dig; decide) _
  · exact Stops.cons (by unfold Dig; decide) _

theorem Stops.imp {p q : UInt8 → Prop} {s : Str} (h : Stops q s) (hi : ∀ b, p b → q b) : Stops p s :=
  fun b t e hb => h b t e (hi b hb)

theorem Spec.Exponent.unique {s : Str} {e e' : ℤ} (h : Exponent s e) (h' : Exponent s e') : e = e' := by
  rcases h with ⟨rfl, rfl⟩ | ⟨m, sg, ds, rfl, -, hne, hd, h1⟩
  · rcases h' with ⟨-, rfl⟩ | ⟨m', sg', ds', e1, -⟩
    · rfl
    · cases e1
  · rcases h' with ⟨e1, -⟩ | ⟨m', sg', ds', e1, -, hne', hd', h1'⟩
    · cases e1
    · simp only [List.cons.injEq] at e1
      obtain ⟨-, e1⟩ := e1
      have nodig : ∀ {c : UInt8} {ds ds' : Str}, AllDigits ds → ¬ Dig c → ds ≠ [] → ds = c :: ds' → False :=
        fun hd hc _ he => hc (hd _ (by rw [he]; simp))
      have c1 : ¬ Dig 43 := by unfold Dig; decide
      have c2 : ¬ Dig 45 := by unfold Dig; decide
      rcases h1 with ⟨rfl | rfl, rfl⟩ | ⟨rfl, rfl⟩ <;> rcases h1' with ⟨rfl | rfl, rfl⟩ | ⟨rfl, rfl⟩ <;>
        simp only [List.nil_append, List.cons_append, List.cons.injEq, true_and] at e1 <;>
        first
          | exact (nodig hd c1 hne e1).elim
          | exact (nodig hd c2 hne e1).elim
          | exact (nodig hd' c1 hne' e1.symm).elim
          | exact (nodig hd' c2 hne' e1.symm).elim
          | (rw [e1])
          | (exfalso; revert e1; simp)

theorem Spec.Fraction.split {s s' : Str} {q q' : ℚ} (h : Fraction s q) (h' : Fraction s' q') {t t' : Str}
    (ht : Stops (fun b => Dig b ∨ b = 46) t) (ht' : Stops (fun b => Dig b ∨ b = 46) t') (e : s ++ t = s' ++ t') : q = q' ∧ t = t' := by
  rcases h with ⟨rfl, rfl⟩ | ⟨ds, rfl, -, hd, rfl⟩
  · rcases h' with ⟨rfl, rfl⟩ | ⟨ds', rfl, -⟩
    · exact ⟨rfl, e⟩
    · exact absurd (Or.inr rfl) (ht _ _ e)
  · rcases h' with ⟨rfl, -⟩ | ⟨ds', rfl, -, hd', rfl⟩
    · exact absurd (Or.inr rfl) (ht' _ _ e.symm)
    · simp only [List.cons_append, List.cons.injEq, true_and] at e
      obtain ⟨rfl, rfl⟩ := span_unique hd hd' (ht.imp fun _ => .inl) (ht'.imp fun _ => .inl) e
      exact ⟨rfl, rfl⟩

theorem Spec.Number.unique {s : Str} {q q' : ℚ} (h : Number s q) (h' : Number s q') : q = q' := by
  obtain ⟨sg, i, f, x, fr, ex, rfl, a1, a2, a3, a4, a5⟩ := h
  obtain ⟨sg', i', f', x', fr', ex', e, b1, b2, b3, b4, b5⟩ := h'
  have first : ∀ {i : Str}, AllDigits i → NoLeadingZero i → ∀ {t u : Str}, i ++ t = 45 :: u → False := by
    intro i h1 h2 t u h3
    have : i ≠ [] := by rintro rfl; rcases h2 with h | ⟨_, _, h, _⟩ <;> cases h
    obtain ⟨d, i, rfl⟩ := List.exists_cons_of_ne_nil this
    simp only [List.cons_append, List.cons.injEq] at h3
    have := h1 d (by simp)
    rw [h3.1] at this
    revert this; decide
  have rest : i ++ (f ++ x) = i' ++ (f' ++ x') → numVal i = numVal i' ∧ fr = fr' ∧ ex = ex' := by
    intro e
    obtain ⟨rfl, e2⟩ := span_unique (p := Dig) a1 b1 (a3.stops (a4.stops.imp fun _ => .inl)) (b3.stops (b4.stops.imp fun _ => .inl)) e
    obtain ⟨rfl, rfl⟩ := Fraction.split a3 b3 a4.stops b4.stops e2
    exact ⟨rfl, rfl, Exponent.unique a4 b4⟩
  rcases a5 with ⟨rfl, rfl⟩ | ⟨rfl, rfl⟩ <;> rcases b5 with ⟨rfl, rfl⟩ | ⟨rfl, rfl⟩
  · obtain ⟨r1, r2, r3⟩ := rest e; rw [r1, r2, r3]
  · exact (first a1 a2 e).elim
  · exact (first b1 b2 e.symm).elim
  · obtain ⟨r1, r2, r3⟩ := rest (by simpa using e); rw [r1, r2, r3]

theorem Spec.Number.bytes {s : Str} {q : ℚ} (h : Number s q) : ∀ b ∈ s, NumByte b := by
  obtain ⟨sg, i, f, x, fr, ex, rfl, a1, a2, a3, a4, a5⟩ := h
  intro b hb
  simp only [List.mem_append] at hb
  rcases hb with hb | hb | hb | hb
  · rcases a5 with ⟨rfl, -⟩ | ⟨rfl, -⟩
    · cases hb
    · rw [List.mem_singleton.mp hb]; exact .inr (.inr (.inl rfl))
  · exact .inl (a1 b hb)
  · rcases a3 with ⟨rfl, -⟩ | ⟨ds, rfl, -, hd, -⟩
    · cases hb
    · rcases List.mem_cons.mp hb with rfl | hb
      · exact .inr (.inr (.inr (.inl rfl)))
      · exact .inl (hd b hb)
  · rcases a4 with ⟨rfl, -⟩ | ⟨m, sg', ds, rfl, hm, -, hd, hs⟩
    · cases hb
    · simp only [List.mem_cons, List.mem_append] at hb
      rcases hb with rfl | hb | hb
      · rcases hm with rfl | rfl
        · exact .inr (.inr (.inr (.inr (.inr rfl))))
        · exact .inr (.inr (.inr (.inr (.inl rfl))))
      · rcases hs with ⟨rfl | rfl, -⟩ | ⟨rfl, -⟩
        · cases hb
        · rw [List.mem_singleton.mp hb]; exact .inr (.inl rfl)
        · rw [List.mem_singleton.mp hb]; exact .inr (.inr (.inl rfl))
      · exact .inl (hd b hb)

theorem Spec.Number.head {s : Str} {q : ℚ} (h : Number s q) : ∃ b t, s = b :: t ∧ (Dig b ∨ b = 45) := by
  obtain ⟨sg, i, f, x, fr, ex, rfl, a1, a2, -, -, a5⟩ := h
  rcases a5 with ⟨rfl, -⟩ | ⟨rfl, -⟩
  · have : i ≠ [] := by rintro rfl; rcases a2 with h | ⟨_, _, h, _⟩ <;> cases h
    obtain ⟨d, i, rfl⟩ := List.exists_cons_of_ne_nil this
    exact ⟨d, _, rfl, .inl (a1 d (by simp))⟩
  · exact ⟨45, _, rfl, .inr rfl⟩

/-! ### values -/

/-- what begins with a byte -/
inductive ByteKind where
  | null | tru | fls | num | str | arr | obj | none
deriving DecidableEq

def kindOf : JVal → ByteKind
  | .null => .null
  | .bool true => .tru
  | .bool false => .fls
  | .num _ => .num
  | .str _ => .str
  | .arr _ => .arr
  | .obj _ => .obj

def kindByte (b : UInt8) : ByteKind :=
  if b = 110 then .null else if b = 116 then .tru else if b = 102 then .fls else if b = 34 then .str
  else if b = 91 then .arr else if b = 123 then .obj else if b = 45 ∨ 48 ≤ b.toNat ∧ b.toNat ≤ 57 then .num else .none

theorem Spec.ValText.kind {s : Str} {v : JVal} (h : ValText s v) : ∃ b t, s = b :: t ∧ kindByte b = kindOf v := by
  cases h with
  | null => exact ⟨110, _, rfl, rfl⟩
  | true => exact ⟨116, _, rfl, rfl⟩
  | false => exact ⟨102, _, rfl, rfl⟩
  | str => exact ⟨34, _, rfl, rfl⟩
  | empty => exact ⟨91, _, rfl, rfl⟩
  | arr => exact ⟨91, _, rfl, rfl⟩
  | bare => exact ⟨123, _, rfl, rfl⟩
  | obj => exact ⟨123, _, rfl, rfl⟩
  | num h =>
    obtain ⟨b, t, rfl, hb⟩ := h.head
    refine ⟨b, t, rfl, ?_⟩
    unfold kindByte kindOf
    have hne : ∀ n : ℕ, n < 256 → (∀ k, 48 ≤ k → k ≤ 57 → n ≠ k) → n ≠ 45 → b ≠ UInt8.ofNat n := by
      intro n hn h1 h2 h3
      have := congrArg UInt8.toNat h3
      rw [ofNat_toNat, Nat.mod_eq_of_lt hn] at this
      rcases hb with hb | rfl
      · exact h1 b.toNat hb.1 hb.2 this.symm
      · exact h2 (this.symm.trans (by decide))
    have h1 : b ≠ 110 := hne 110 (by omega) (by omega) (by omega)
    have h2 : b ≠ 116 := hne 116 (by omega) (by omega) (by omega)
    have h3 : b ≠ 102 := hne 102 (by omega) (by omega) (by omega)
    have h4 : b ≠ 34 := hne 34 (by omega) (by omega) (by omega)
    have h5 : b ≠ 91 := hne 91 (by omega) (by omega) (by omega)
    have h6 : b ≠ 123 := hne 123 (by omega) (by omega) (by omega)
    rw [if_neg h1, if_neg h2, if_neg h3, if_neg h4, if_neg h5, if_neg h6, if_pos]
    rcases hb with hb | rfl
    · exact .inr hb
    · exact .inl rfl

/-- white space -/
def Wh (b : UInt8) : Prop := b = 32 ∨ b = 9 ∨ b = 10 ∨ b = 13

theorem kind_none_white {b : UInt8} (h : Wh b) : kindByte b = .none := by
  rcases h with rfl | rfl | rfl | rfl <;> decide

theorem Spec.ValText.stops {s : Str} {v : JVal} (h : ValText s v) (r : Str) : Stops Wh (s ++ r) := by
  obtain ⟨b, t, rfl, hk⟩ := h.kind
  refine Stops.cons (fun hw => ?_) _
  rw [kind_none_white hw] at hk
  cases v with
  | bool b => cases b <;> cases hk
  | _ => cases hk

/-- what may follow a value -/
def Delim (s : Str) : Prop := Stops NumByte s

theorem delim_white {a r : Str} (ha : White a) (hr : Delim r) : Delim (a ++ r) := by
  cases a with
  | nil => exact hr
  | cons b a =>
    refine Stops.cons ?_ _
    rcases ha b (by simp) with rfl | rfl | rfl | rfl <;> (unfold NumByte Dig; decide)

/-- after an item of a list: what closes it, or a comma and more -/
def rest (l : List Str) (c : UInt8) (r : Str) : Str :=
  match l with
  | [] => c :: r
  | b :: l => 44 :: (List.intercalate [44] (b :: l) ++ c :: r)

theorem inter_cons (a : Str) (l : List Str) (c : UInt8) (r : Str) : List.intercalate [44] (a :: l) ++ c :: r = a ++ rest l c r := by
  cases l with
  | nil => simp [rest, List.intercalate]
  | cons b l => simp [rest, List.intercalate]

theorem rest_head (l : List Str) {c : UInt8} (r : Str) : ∃ b t, rest l c r = b :: t ∧ (b = 44 ∨ b = c) := by
  cases l with
  | nil => exact ⟨c, r, rfl, .inr rfl⟩
  | cons b l => exact ⟨44, _, rfl, .inl rfl⟩

theorem rest_delim (l : List Str) {c : UInt8} (hc : c = 93 ∨ c = 125) (r : Str) : Delim (rest l c r) ∧ Stops Wh (rest l c r) := by
  obtain ⟨b, t, e, hb⟩ := rest_head l (c := c) r
  rw [e]
  rcases hc with rfl | rfl <;> rcases hb with rfl | rfl <;>
    exact ⟨Stops.cons (by unfold NumByte Dig; decide) _, Stops.cons (by unfold Wh; decide) _⟩

/-- what `ValText.unique` says of one value -/
def One (t : Str) (v : JVal) : Prop :=
  ∀ ⦃t' : Str⦄ ⦃v' : JVal⦄ ⦃r r' : Str⦄, ValText t' v' → Delim r → Delim r' → t ++ r = t' ++ r' → v = v' ∧ r = r'

theorem elem_step {x x' : Elem} (hx : White x.before ∧ White x.after) (hx' : White x'.before ∧ White x'.after)
    (ht : ValText x.text x.val) (ht' : ValText x'.text x'.val) (ho : One x.text x.val) {r r' : Str} (hr : Delim r ∧ Stops Wh r)
    (hr' : Delim r' ∧ Stops Wh r') (e : x.all ++ r = x'.all ++ r') : x.val = x'.val ∧ r = r' := by
  unfold Elem.all at e
  simp only [List.append_assoc] at e
  obtain ⟨-, e⟩ := span_unique (p := Wh) hx.1 hx'.1 (ht.stops _) (ht'.stops _) e
  obtain ⟨e1, e⟩ := ho ht' (delim_white hx.2 hr.1) (delim_white hx'.2 hr'.1) e
  exact ⟨e1, (span_unique (p := Wh) hx.2 hx'.2 hr.2 hr'.2 e).2⟩

theorem quote_stops (s : Str) : Stops Wh (34 :: s) := Stops.cons (by unfold Wh; decide) _
theorem colon_stops (s : Str) : Stops Wh (58 :: s) := Stops.cons (by unfold Wh; decide) _

theorem member_step {x x' : Member}
    (hx : White x.before ∧ White x.colon1 ∧ White x.colon2 ∧ White x.after ∧ Chars x.name x.key)
    (hx' : White x'.before ∧ White x'.colon1 ∧ White x'.colon2 ∧ White x'.after ∧ Chars x'.name x'.key)
    (ht : ValText x.text x.val) (ht' : ValText x'.text x'.val) (ho : One x.text x.val) {r r' : Str} (hr : Delim r ∧ Stops Wh r)
    (hr' : Delim r' ∧ Stops Wh r') (e : x.all ++ r = x'.all ++ r') : x.key = x'.key ∧ x.val = x'.val ∧ r = r' := by
  unfold Member.all at e
  simp only [List.append_assoc, List.cons_append] at e
  obtain ⟨-, e⟩ := span_unique (p := Wh) hx.1 hx'.1 (quote_stops _) (quote_stops _) e
  obtain ⟨e1, -, e⟩ := hx.2.2.2.2.unique hx'.2.2.2.2 (List.cons.inj e).2
  obtain ⟨-, e⟩ := span_unique (p := Wh) hx.2.1 hx'.2.1 (colon_stops _) (colon_stops _) e
  obtain ⟨-, e⟩ := span_unique (p := Wh) hx.2.2.1 hx'.2.2.1 (ht.stops _) (ht'.stops _) (List.cons.inj e).2
  obtain ⟨e2, e⟩ := ho ht' (delim_white hx.2.2.2.1 hr.1) (delim_white hx'.2.2.2.1 hr'.1) e
  exact ⟨e1, e2, (span_unique (p := Wh) hx.2.2.2.1 hx'.2.2.2.1 hr.2 hr'.2 e).2⟩

/-- lists of items, from the step for one item -/
theorem list_unique {X V : Type} (all : X → Str) (val : X → V) (P : X → Prop) (Q : X → Prop) (c : UInt8) (hc : c = 93 ∨ c = 125)
    (step : ∀ x x', Q x → P x' → ∀ r r', Delim r ∧ Stops Wh r → Delim r' ∧ Stops Wh r' → all x ++ r = all x' ++ r' →
      val x = val x' ∧ r = r') :
    ∀ (l l' : List X), l ≠ [] → l' ≠ [] → (∀ x ∈ l, Q x) → (∀ x ∈ l', P x) → ∀ r r' : Str,
      List.intercalate [44] (l.map all) ++ c :: r = List.intercalate [44] (l'.map all) ++ c :: r' →
      l.map val = l'.map val ∧ r = r' := by
  intro l
  induction l with
  | nil => intro _ h; exact absurd rfl h
  | cons x l ih =>
    intro l' _ hl' hQ hP r r' e
    obtain ⟨x', l', rfl⟩ := List.exists_cons_of_ne_nil hl'
    rw [List.map_cons, List.map_cons, inter_cons, inter_cons] at e
    obtain ⟨e1, e2⟩ := step x x' (hQ x (by simp)) (hP x' (by simp)) _ _ (rest_delim _ hc _) (rest_delim _ hc _) e
    have c44 : (44 : UInt8) ≠ c := by rcases hc with rfl | rfl <;> decide
    cases l with
    | nil =>
      cases l' with
      | nil =>
        simp only [List.map_nil, rest, List.cons.injEq, true_and] at e2
        exact ⟨by simp [e1], e2⟩
      | cons y l' =>
        simp only [List.map_nil, List.map_cons, rest, List.cons.injEq] at e2
        exact absurd e2.1.symm c44
    | cons z l =>
      cases l' with
      | nil =>
        simp only [List.map_nil, List.map_cons, rest, List.cons.injEq] at e2
        exact absurd e2.1 c44
      | cons y l' =>
        simp only [List.map_cons, rest, List.cons.injEq, true_and] at e2
        obtain ⟨k1, k2⟩ := ih (y :: l') (by simp) (by simp) (fun w hw => hQ w (by simp [hw])) (fun w hw => hP w (by simp [hw])) r r'
          (by simpa using e2)
        refine ⟨?_, k2⟩
        rw [List.map_cons, e1, k1, List.map_cons (a := x')]

theorem same_kind {t t' : Str} {v v' : JVal} (h : ValText t v) (h' : ValText t' v') {r r' : Str} (e : t ++ r = t' ++ r') :
    kindOf v = kindOf v' := by
  obtain ⟨b, s, rfl, hk⟩ := h.kind
  obtain ⟨b', s', rfl, hk'⟩ := h'.kind
  rw [← hk, ← hk', (List.cons.inj e).1]

theorem close_value {c : UInt8} (hc : c = 93 ∨ c = 125) {t : Str} {v : JVal} (h : ValText t v) {r r' : Str} (e : c :: r = t ++ r') :
    False := by
  obtain ⟨b, s, rfl, hk⟩ := h.kind
  have : kindByte b = .none := by rw [← (List.cons.inj e).1]; rcases hc with rfl | rfl <;> decide
  rw [this] at hk
  cases v with
  | bool b => cases b <;> cases hk
  | _ => cases hk

theorem empty_arr {w : Str} (hw : White w) {l : List Elem} (hl : l ≠ []) (h1 : ∀ x ∈ l, White x.before ∧ White x.after)
    (h2 : ∀ x ∈ l, ValText x.text x.val) {r r' : Str} (e : w ++ 93 :: r = List.intercalate [44] (l.map Elem.all) ++ 93 :: r') :
    False := by
  obtain ⟨x, l, rfl⟩ := List.exists_cons_of_ne_nil hl
  rw [List.map_cons, inter_cons] at e
  unfold Elem.all at e
  simp only [List.append_assoc] at e
  have hx := h2 x (by simp)
  obtain ⟨-, e⟩ := span_unique (p := Wh) hw (h1 x (by simp)).1 (Stops.cons (by unfold Wh; decide) _) (hx.stops _) e
  exact close_value (.inl rfl) hx e

theorem empty_obj {w : Str} (hw : White w) {l : List Member} (hl : l ≠ []) (h1 : ∀ x ∈ l, White x.before) {r r' : Str}
    (e : w ++ 125 :: r = List.intercalate [44] (l.map Member.all) ++ 125 :: r') : False := by
  obtain ⟨x, l, rfl⟩ := List.exists_cons_of_ne_nil hl
  rw [List.map_cons, inter_cons] at e
  unfold Member.all at e
  simp only [List.append_assoc] at e
  obtain ⟨-, e⟩ := span_unique (p := Wh) hw (h1 x (by simp)) (Stops.cons (by unfold Wh; decide) _) (quote_stops _) e
  exact absurd (List.cons.inj e).1 (by decide)

theorem Spec.ValText.one {t : Str} {v : JVal} (h : ValText t v) : One t v := by
  induction h with
  | null =>
    intro t' v' r r' h' _ _ e
    have hk := same_kind ValText.null h' e
    cases h' <;> first | cases hk | skip
    exact ⟨rfl, List.append_cancel_left e⟩
  | true =>
    intro t' v' r r' h' _ _ e
    have hk := same_kind ValText.true h' e
    cases h' <;> first | cases hk | skip
    exact ⟨rfl, List.append_cancel_left e⟩
  | false =>
    intro t' v' r r' h' _ _ e
    have hk := same_kind ValText.false h' e
    cases h' <;> first | cases hk | skip
    exact ⟨rfl, List.append_cancel_left e⟩
  | num hn =>
    intro t' v' r r' h' hr hr' e
    have hk := same_kind (ValText.num hn) h' e
    cases h' <;> first | cases hk | skip
    rename_i q' hn'
    obtain ⟨rfl, rfl⟩ := span_unique hn.bytes hn'.bytes hr hr' e
    exact ⟨by rw [hn.unique hn'], rfl⟩
  | str hc =>
    intro t' v' r r' h' hr hr' e
    have hk := same_kind (ValText.str hc) h' e
    cases h' <;> first | cases hk | skip
    rename_i cs' hc'
    simp only [List.cons_append, List.append_assoc, List.nil_append, List.cons.injEq, true_and] at e
    obtain ⟨rfl, -, rfl⟩ := hc.unique hc' e
    exact ⟨rfl, rfl⟩
  | empty hw =>
    intro t' v' r r' h' hr hr' e
    have hk := same_kind (ValText.empty hw) h' e
    cases h' <;> first | cases hk | skip
    · rename_i w' hw'
      simp only [List.cons_append, List.append_assoc, List.nil_append, List.cons.injEq, true_and] at e
      obtain ⟨-, e⟩ := span_unique (p := Wh) hw hw' (Stops.cons (by unfold Wh; decide) _) (Stops.cons (by unfold Wh; decide) _) e
      exact ⟨rfl, (List.cons.inj e).2⟩
    · rename_i l k1 k2 k3
      simp only [List.cons_append, List.append_assoc, List.nil_append, List.cons.injEq, true_and] at e
      exact (empty_arr hw k1 k2 k3 e).elim
  | @arr l h1 h2 h3 ih =>
    intro t' v' r r' h' hr hr' e
    have hk := same_kind (ValText.arr h1 h2 h3) h' e
    cases h' <;> first | cases hk | skip
    · rename_i w' hw'
      simp only [List.cons_append, List.append_assoc, List.nil_append, List.cons.injEq, true_and] at e
      exact (empty_arr hw' h1 h2 h3 e.symm).elim
    · rename_i l' k1 k2 k3
      simp only [List.cons_append, List.append_assoc, List.nil_append, List.cons.injEq, true_and] at e
      obtain ⟨e1, e2⟩ := list_unique Elem.all Elem.val (fun x => x ∈ l') (fun x => x ∈ l) 93 (.inl rfl)
        (fun x x' hx hx' r r' hr hr' e =>
          elem_step (h2 x hx) (k2 x' hx') (h3 x hx) (k3 x' hx') (ih x hx) hr hr' e) l l' h1 k1 (fun _ h => h) (fun _ h => h) r r' e
      exact ⟨by rw [e1], e2⟩
  | bare hw =>
    intro t' v' r r' h' hr hr' e
    have hk := same_kind (ValText.bare hw) h' e
    cases h' <;> first | cases hk | skip
    · rename_i w' hw'
      simp only [List.cons_append, List.append_assoc, List.nil_append, List.cons.injEq, true_and] at e
      obtain ⟨-, e⟩ := span_unique (p := Wh) hw hw' (Stops.cons (by unfold Wh; decide) _) (Stops.cons (by unfold Wh; decide) _) e
      exact ⟨rfl, (List.cons.inj e).2⟩
    · rename_i l k1 k2 k3
      simp only [List.cons_append, List.append_assoc, List.nil_append, List.cons.injEq, true_and] at e
      exact (empty_obj hw k1 (fun x hx => (k2 x hx).1) e).elim
  | @obj l h1 h2 h3 ih =>
    intro t' v' r r' h' hr hr' e
    have hk := same_kind (ValText.obj h1 h2 h3) h' e
    cases h' <;> first | cases hk | skip
    · rename_i w' hw'
      simp only [List.cons_append, List.append_assoc, List.nil_append, List.cons.injEq, true_and] at e
      exact (empty_obj hw' h1 (fun x hx => (h2 x hx).1) e.symm).elim
    · rename_i l' k1 k2 k3
      simp only [List.cons_append, List.append_assoc, List.nil_append, List.cons.injEq, true_and] at e
      obtain ⟨e1, e2⟩ := list_unique Member.all (fun x => (x.key, x.val)) (fun x => x ∈ l') (fun x => x ∈ l) 125 (.inr rfl)
        (fun x x' hx hx' r r' hr hr' e =>
          have := member_step (h2 x hx) (k2 x' hx') (h3 x hx) (k3 x' hx') (ih x hx) hr hr' e
          ⟨by rw [this.1, this.2.1], this.2.2⟩) l l' h1 k1 (fun _ h => h) (fun _ h => h) r r' e
      exact ⟨by rw [e1], e2⟩

/-- a text has at most one value -/
theorem Spec.JsonText.unique {s : Str} {v v' : JVal} (h : JsonText s v) (h' : JsonText s v') : v = v' := by
  obtain ⟨a, t, b, rfl, ha, hb, ht⟩ := h
  obtain ⟨a', t', b', e, ha', hb', ht'⟩ := h'
  obtain ⟨-, e⟩ := span_unique (p := Wh) ha ha' (ht.stops _) (ht'.stops _) e
  have hd : Delim ([] : Str) := Stops.nil _
  have h1 := delim_white hb hd
  have h2 := delim_white hb' hd
  rw [List.append_nil] at h1 h2
  exact (ht.one ht' h1 h2 e).1

end Tricorder
