import Verif.Spec.PrettyOrder
import Verif.Props.Duration
import Verif.Props.ShortOrder
import Mathlib.Tactic.Ring
/-!
# Readable durations keep the order: proofs
-/

namespace Tricorder
open Go Spec _root_.Spec

/-- the precision of what is shown -/
def prettyStep (n : ℕ) : ℕ := if n < 10000 then 1 else if n < 10000000 then 1000 else if n < 3600000000000 then 1000000 else 1000000000

/-- what is shown -/
def prettyShown (n : ℕ) : ℕ := n / prettyStep n * prettyStep n

theorem prettyShown_le (n : ℕ) : prettyShown n ≤ n := Nat.div_mul_le_self _ _

theorem prettyShown_mono {n n' : ℕ} (h : n ≤ n') : prettyShown n ≤ prettyShown n' := by
  unfold prettyShown prettyStep
  split <;> split <;> first | omega | skip
  all_goals (repeat' split) <;> omega

theorem prettyShown_close (n : ℕ) : n < prettyShown n + 1000000000 ∧ 10 * n ≤ 10 * prettyShown n + n := by
  unfold prettyShown prettyStep
  (repeat' split) <;> omega

theorem denotes_digits {a : Str} {k : ℕ} (h : DenotesInt a k) : a ≠ [] ∧ AllDigits a ∧ numVal a = k := by
  obtain ⟨ws, h1, h2, h3, h4⟩ := h
  rw [if_neg (by omega), List.nil_append] at h4
  subst h4
  refine ⟨?_, h1, by simpa using h3.symm⟩
  rcases h2 with rfl | ⟨c, r, rfl, -⟩ <;> simp

theorem digits3 {a : Str} {k : ℕ} (h : Digits3 a k) : a ≠ [] ∧ AllDigits a ∧ numVal a = k := by
  obtain ⟨h1, h2, h3⟩ := h
  refine ⟨?_, h1, h3⟩
  rintro rfl
  cases h2

theorem step1 {n : ℕ} (h : n < 10000) : prettyStep n = 1 := by unfold prettyStep; rw [if_pos h]
theorem step2 {n : ℕ} (h : 10000 ≤ n) (h' : n < 10000000) : prettyStep n = 1000 := by
  unfold prettyStep; rw [if_neg (by omega), if_pos h']
theorem step3 {n : ℕ} (h : 10000000 ≤ n) (h' : n < 3600000000000) : prettyStep n = 1000000 := by
  unfold prettyStep; rw [if_neg (by omega), if_neg (by omega), if_pos h']
theorem step4 {n : ℕ} (h : 3600000000000 ≤ n) : prettyStep n = 1000000000 := by
  unfold prettyStep; rw [if_neg (by omega), if_neg (by omega), if_neg (by omega)]

theorem shown_of {n p k : ℕ} (hp : 0 < p) (hs : prettyStep n = p) (h1 : k * p ≤ n) (h2 : n < (k + 1) * p) : prettyShown n = k * p := by
  unfold prettyShown
  rw [hs, Nat.div_eq_of_lt_le h1 h2]

theorem fields1 {a u : Str} {p : ℕ} (hF : [(u, p)] ∈ prettyForms) (ha : a ≠ [] ∧ AllDigits a) : PrettyOf (a ++ u) (numVal a * p) :=
  ⟨[(a, u, p)], hF, by simpa using ha, by simp, by simp⟩

theorem fields2 {a b u v : Str} {p q : ℕ} (hF : [(u, p), (v, q)] ∈ prettyForms) (ha : a ≠ [] ∧ AllDigits a) (hb : b ≠ [] ∧ AllDigits b) :
    PrettyOf (a ++ u ++ b ++ v) (numVal a * p + numVal b * q) :=
  ⟨[(a, u, p), (b, v, q)], hF, by simpa using ⟨ha, hb⟩, by simp, by simp⟩

theorem fields3 {a b c u v x : Str} {p q r : ℕ} (hF : [(u, p), (v, q), (x, r)] ∈ prettyForms) (ha : a ≠ [] ∧ AllDigits a)
    (hb : b ≠ [] ∧ AllDigits b) (hc : c ≠ [] ∧ AllDigits c) :
    PrettyOf (a ++ u ++ b ++ v ++ c ++ x) (numVal a * p + numVal b * q + numVal c * r) :=
  ⟨[(a, u, p), (b, v, q), (c, x, r)], hF, by simpa using ⟨ha, hb, hc⟩, by simp, by simp [Nat.add_assoc]⟩

theorem fields4 {a b c d u v x y : Str} {p q r t : ℕ} (hF : [(u, p), (v, q), (x, r), (y, t)] ∈ prettyForms) (ha : a ≠ [] ∧ AllDigits a)
    (hb : b ≠ [] ∧ AllDigits b) (hc : c ≠ [] ∧ AllDigits c) (hd : d ≠ [] ∧ AllDigits d) :
    PrettyOf (a ++ u ++ b ++ v ++ c ++ x ++ d ++ y) (numVal a * p + numVal b * q + numVal c * r + numVal d * t) :=
  ⟨[(a, u, p), (b, v, q), (c, x, r), (d, y, t)], hF, by simpa using ⟨ha, hb, hc, hd⟩, by simp, by simp [Nat.add_assoc]⟩

theorem pretty_cast {s : Str} {v v' : ℕ} (h : PrettyOf s v) (hv : v = v') : PrettyOf s v' := hv ▸ h

theorem sum2 (a b : ℕ) : a * 1000000000 + b * 1000000 = (a * 1000 + b) * 1000000 := by ring
theorem sum3 (a b c : ℕ) : a * 60000000000 + b * 1000000000 + c * 1000000 = ((a * 60 + b) * 1000 + c) * 1000000 := by ring
theorem sum3' (a b c : ℕ) : a * 3600000000000 + b * 60000000000 + c * 1000000000 = ((a * 60 + b) * 60 + c) * 1000000000 := by ring
theorem sum4 (d a b c : ℕ) : d * 86400000000000 + a * 3600000000000 + b * 60000000000 + c * 1000000000 =
    (((d * 24 + a) * 60 + b) * 60 + c) * 1000000000 := by ring

theorem pretty_of {n : ℕ} {s : Str} (h : Pretty n s) : PrettyOf s (prettyShown n) := by
  rcases h with ⟨h0, a, ha, rfl⟩ | ⟨h0, h1, us, a, e1, e2, ha, rfl⟩ | ⟨h0, h1, ms, a, e1, e2, ha, rfl⟩ |
    ⟨h0, h1, sec, ms, a, b, e1, e2, e3, ha, hb, rfl⟩ | ⟨h0, h1, mi, sec, ms, a, b, c, e1, e2, e3, e4, ha, hb, hc, rfl⟩ |
    ⟨h0, h1, hh, mi, sec, a, b, c, e1, e2, e3, e4, ha, hb, hc, rfl⟩ |
    ⟨h0, dd, hh, mi, sec, z, a, b, c, e1, e2, e3, e4, e5, hz, ha, hb, hc, rfl⟩
  · obtain ⟨a1, a2, a3⟩ := denotes_digits ha
    refine pretty_cast (fields1 (p := 1) (.head _) ⟨a1, a2⟩) ?_
    rw [a3, shown_of Nat.one_pos (step1 h0) (k := n) (by omega) (by omega)]
  · obtain ⟨a1, a2, a3⟩ := denotes_digits ha
    rw [List.append_assoc]
    refine pretty_cast (fields1 (p := 1000) (.tail _ (.head _)) ⟨a1, a2⟩) ?_
    rw [a3, shown_of (by omega) (step2 h0 h1) e1 e2]
  · obtain ⟨a1, a2, a3⟩ := denotes_digits ha
    refine pretty_cast (fields1 (p := 1000000) (.tail _ (.tail _ (.head _))) ⟨a1, a2⟩) ?_
    rw [a3, shown_of (by omega) (step3 h0 (by omega)) e1 e2]
  · obtain ⟨a1, a2, a3⟩ := denotes_digits ha
    obtain ⟨b1, b2, b3⟩ := digits3 hb
    refine pretty_cast (fields2 (p := 1000000000) (q := 1000000) (.tail _ (.tail _ (.tail _ (.head _)))) ⟨a1, a2⟩ ⟨b1, b2⟩) ?_
    rw [a3, b3, sum2, shown_of (by omega) (step3 (by omega) (by omega)) e1 e2]
  · obtain ⟨a1, a2, a3⟩ := denotes_digits ha
    obtain ⟨b1, b2, b3⟩ := denotes_digits hb
    obtain ⟨c1, c2, c3⟩ := digits3 hc
    refine pretty_cast (fields3 (p := 60000000000) (q := 1000000000) (r := 1000000) (.tail _ (.tail _ (.tail _ (.tail _ (.head _)))))
      ⟨a1, a2⟩ ⟨b1, b2⟩ ⟨c1, c2⟩) ?_
    rw [a3, b3, c3, sum3, shown_of (by omega) (step3 (by omega) h1) e1 e2]
  · obtain ⟨a1, a2, a3⟩ := denotes_digits ha
    obtain ⟨b1, b2, b3⟩ := denotes_digits hb
    obtain ⟨c1, c2, c3⟩ := denotes_digits hc
    refine pretty_cast (fields3 (p := 3600000000000) (q := 60000000000) (r := 1000000000) (.tail _ (.tail _ (.tail _ (.tail _ (.tail _ (.head _))))))
      ⟨a1, a2⟩ ⟨b1, b2⟩ ⟨c1, c2⟩) ?_
    rw [a3, b3, c3, sum3', shown_of (by omega) (step4 h0) e1 e2]
  · obtain ⟨z1, z2, z3⟩ := denotes_digits hz
    obtain ⟨a1, a2, a3⟩ := denotes_digits ha
    obtain ⟨b1, b2, b3⟩ := denotes_digits hb
    obtain ⟨c1, c2, c3⟩ := denotes_digits hc
    refine pretty_cast (fields4 (p := 86400000000000) (q := 3600000000000) (r := 60000000000) (t := 1000000000)
      (.tail _ (.tail _ (.tail _ (.tail _ (.tail _ (.tail _ (.head _))))))) ⟨z1, z2⟩ ⟨a1, a2⟩ ⟨b1, b2⟩ ⟨c1, c2⟩) ?_
    rw [z3, a3, b3, c3, sum4, shown_of (by omega) (step4 (by omega)) e1 e2]

/-- no digits, but something -/
def NoDigits (u : Str) : Prop := u ≠ [] ∧ ∀ b ∈ u, ¬ (48 ≤ b.toNat ∧ b.toNat ≤ 57)

theorem tokens_unique : ∀ (L L' : List (Str × (Str × ℕ))), (∀ x ∈ L, (x.1 ≠ [] ∧ AllDigits x.1) ∧ NoDigits x.2.1) →
    (∀ x ∈ L', (x.1 ≠ [] ∧ AllDigits x.1) ∧ NoDigits x.2.1) →
    L.flatMap (fun x => x.1 ++ x.2.1) = L'.flatMap (fun x => x.1 ++ x.2.1) →
    L.map Prod.fst = L'.map Prod.fst ∧ L.map (fun x => x.2.1) = L'.map (fun x => x.2.1) := by
  have first : ∀ (M : List (Str × (Str × ℕ))), (∀ x ∈ M, (x.1 ≠ [] ∧ AllDigits x.1) ∧ NoDigits x.2.1) →
      ∀ b l, M.flatMap (fun x => x.1 ++ x.2.1) = b :: l → ¬ ¬ (48 ≤ b.toNat ∧ b.toNat ≤ 57) := by
    intro M hM b l h
    cases M with
    | nil => cases h
    | cons x M =>
      obtain ⟨⟨h1, h2⟩, -⟩ := hM x (by simp)
      obtain ⟨c, r, hc⟩ := List.exists_cons_of_ne_nil h1
      simp only [List.flatMap_cons, hc, List.cons_append, List.cons.injEq] at h
      rw [← h.1]
      exact not_not_intro (h2 c (by simp [hc]))
  have second : ∀ (u r : Str), NoDigits u → ∀ b l, u ++ r = b :: l → ¬ (48 ≤ b.toNat ∧ b.toNat ≤ 57) := by
    rintro u r ⟨h1, h2⟩ b l h
    obtain ⟨c, v, rfl⟩ := List.exists_cons_of_ne_nil h1
    simp only [List.cons_append, List.cons.injEq] at h
    rw [← h.1]
    exact h2 c (by simp)
  intro L
  induction L with
  | nil =>
    intro L' _ h' h
    cases L' with
    | nil => exact ⟨rfl, rfl⟩
    | cons x L' =>
      obtain ⟨⟨h1, -⟩, -⟩ := h' x (by simp)
      obtain ⟨c, r, hc⟩ := List.exists_cons_of_ne_nil h1
      simp [hc] at h
  | cons x L ih =>
    intro L' hL h' h
    cases L' with
    | nil =>
      obtain ⟨⟨h1, -⟩, -⟩ := hL x (by simp)
      obtain ⟨c, r, hc⟩ := List.exists_cons_of_ne_nil h1
      simp [hc] at h
    | cons y L' =>
      obtain ⟨⟨-, x1⟩, x2⟩ := hL x (by simp)
      obtain ⟨⟨-, y1⟩, y2⟩ := h' y (by simp)
      simp only [List.flatMap_cons, List.append_assoc] at h
      have hM : ∀ z ∈ L, (z.1 ≠ [] ∧ AllDigits z.1) ∧ NoDigits z.2.1 := fun z hz => hL z (by simp [hz])
      have hM' : ∀ z ∈ L', (z.1 ≠ [] ∧ AllDigits z.1) ∧ NoDigits z.2.1 := fun z hz => h' z (by simp [hz])
      obtain ⟨e1, e2⟩ := cut_unique x1 y1 (second _ _ x2) (second _ _ y2) h
      obtain ⟨e3, e4⟩ := cut_unique (P := fun b => ¬ (48 ≤ b.toNat ∧ b.toNat ≤ 57)) x2.2 y2.2 (first L hM) (first L' hM') e2
      obtain ⟨i1, i2⟩ := ih L' hM hM' e4
      simp [e1, e3, i1, i2]

theorem forms_noDigits : ∀ F ∈ prettyForms, ∀ p ∈ F, NoDigits p.1 := by
  have : ∀ F ∈ prettyForms, ∀ p ∈ F, p.1 ≠ [] ∧ ∀ b ∈ p.1, ¬ (48 ≤ b.toNat ∧ b.toNat ≤ 57) := by decide +kernel
  exact this

theorem forms_names : ∀ F ∈ prettyForms, ∀ G ∈ prettyForms, F.map Prod.fst = G.map Prod.fst → F = G := by decide +kernel

theorem pretty_unique {s : Str} {v v' : ℕ} (h : PrettyOf s v) (h' : PrettyOf s v') : v = v' := by
  obtain ⟨L, h1, h2, rfl, rfl⟩ := h
  obtain ⟨L', k1, k2, k3, rfl⟩ := h'
  have nd : ∀ {M : List (Str × (Str × ℕ))}, M.map Prod.snd ∈ prettyForms → ∀ x ∈ M, NoDigits x.2.1 :=
    fun hM x hx => forms_noDigits _ hM x.2 (List.mem_map.mpr ⟨x, hx, rfl⟩)
  obtain ⟨e1, e2⟩ := tokens_unique L L' (fun x hx => ⟨h2 x hx, nd h1 x hx⟩) (fun x hx => ⟨k2 x hx, nd k1 x hx⟩) k3
  have e3 := forms_names _ h1 _ k1 (by simpa [List.map_map, Function.comp_def] using e2)
  have : L = L' := by
    have z : ∀ M : List (Str × (Str × ℕ)), M = (M.map Prod.fst).zip (M.map Prod.snd) := fun M => by
      induction M with
      | nil => rfl
      | cons x M ih => simp only [List.map_cons, List.zip_cons_cons]; rw [← ih]
    rw [z L, z L', e1, e3]
  rw [this]

end Tricorder
