import Verif.Model.Html
import Verif.Spec.Html
import Verif.Proof.Path
import Mathlib.Data.List.TakeWhile
/-!
# Links
-/

namespace Tricorder
open Go Spec

/-- one byte, percent encoded if necessary -/
def encB (b : UInt8) : Str := if urlByte b then [b] else [37, hexDigit (b.toNat / 16), hexDigit (b.toNat % 16)]

def encF (x : Str) : Str := x.flatMap encB

theorem encF_cons (b : UInt8) (x : Str) : encF (b :: x) = encB b ++ encF x := List.flatMap_cons

theorem isHex_iff : ∀ b : UInt8, isHex b = true ↔ (hexVal b).isSome = true := by
  have : ∀ b : Fin 256, isHex (UInt8.ofNat b) = (hexVal (UInt8.ofNat b)).isSome := by decide +kernel
  intro b
  have h := this ⟨b.toNat, b.toNat_lt⟩
  simp only [UInt8.ofNat_toNat] at h
  rw [h]

theorem hexVal_hexDigit : ∀ n < 16, hexVal (hexDigit n) = some n := by decide +kernel

theorem hexDigit_ne : ∀ n < 16, hexDigit n ≠ 47 ∧ hexDigit n ≠ 35 ∧ hexDigit n ≠ 63 := by decide +kernel

theorem unpercent_ne {b : UInt8} (hb : b ≠ 37) (x : Str) : unpercent (b :: x) = (unpercent x).map (b :: ·) := by
  match x with
  | [] => simp [unpercent, hb]
  | [_] => rw [unpercent, if_neg hb]; simp
  | _ :: _ :: _ => rw [unpercent, if_neg hb]

theorem intercalate_two (a b : Str) (l : List Str) :
    List.intercalate [47] (a :: b :: l) = a ++ 47 :: List.intercalate [47] (b :: l) := by simp [List.intercalate]

/-- every byte can be decoded -/
theorem unpercent_encB (b : UInt8) (x : Str) : unpercent (encB b ++ x) = (unpercent x).map (b :: ·) := by
  unfold encB
  split
  · rename_i h
    have hb : b ≠ 37 := by rintro rfl; revert h; decide
    rw [List.singleton_append, unpercent_ne hb]
  · have hb := b.toNat_lt
    have e1 := hexVal_hexDigit (b.toNat / 16) (by omega)
    have e2 := hexVal_hexDigit (b.toNat % 16) (by omega)
    show unpercent (37 :: hexDigit (b.toNat / 16) :: hexDigit (b.toNat % 16) :: x) = _
    rw [unpercent, if_pos rfl]
    simp only [e1, e2]
    have : 16 * (b.toNat / 16) + b.toNat % 16 = b.toNat := by omega
    rw [this, UInt8.ofNat_toNat]

theorem unpercent_encF (x y : Str) : unpercent (encF x ++ y) = (unpercent y).map (x ++ ·) := by
  induction x with
  | nil => cases h : unpercent y <;> simp [encF, h]
  | cons b x ih =>
    rw [encF_cons, List.append_assoc, unpercent_encB, ih]
    cases unpercent y <;> rfl

theorem unpercent_enc (x : Str) : unpercent (encF x) = some x := by
  have := unpercent_encF x []
  rw [List.append_nil] at this
  rw [this, unpercent]; simp

theorem mem_encB {b c : UInt8} (h : c ∈ encB b) (hc : c = 47 ∨ c = 35 ∨ c = 63) : c = b := by
  unfold encB at h
  split at h
  · exact List.mem_singleton.mp h
  · have hb := b.toNat_lt
    have e1 := hexDigit_ne (b.toNat / 16) (by omega)
    have e2 := hexDigit_ne (b.toNat % 16) (by omega)
    simp only [List.mem_cons, List.not_mem_nil, or_false] at h
    rcases h with rfl | rfl | rfl
    · exact absurd hc (by decide)
    · rcases hc with h | h | h
      · exact absurd h e1.1
      · exact absurd h e1.2.1
      · exact absurd h e1.2.2
    · rcases hc with h | h | h
      · exact absurd h e2.1
      · exact absurd h e2.2.1
      · exact absurd h e2.2.2

theorem mem_encF {x : Str} {c : UInt8} (h : c ∈ encF x) (hc : c = 47 ∨ c = 35 ∨ c = 63) : c ∈ x := by
  obtain ⟨b, hb, h1⟩ := List.mem_flatMap.mp h
  rw [mem_encB h1 hc]; exact hb

theorem urlNorm_plain (x : Str) (h : ∀ a p q b, x = a ++ 37 :: p :: q :: b → hexVal p = none ∨ hexVal q = none) :
    urlNorm x = encF x := by
  induction x with
  | nil => rfl
  | cons b x ih =>
    have ih' := ih (fun a p q c e => h (b :: a) p q c (by rw [e]; rfl))
    rw [urlNorm, encF_cons, ih']
    unfold encB
    split
    · rfl
    · rw [if_neg]
      · rfl
      · rintro ⟨rfl, hm⟩
        unfold twoHex at hm
        split at hm
        · rename_i p q rest
          rw [Bool.and_eq_true, isHex_iff, isHex_iff] at hm
          rcases h [] p q rest rfl with e | e
          · rw [e] at hm; exact absurd hm.1 (by simp)
          · rw [e] at hm; exact absurd hm.2 (by simp)
        · cases hm

theorem urlNorm_slash (a b : Str) : urlNorm (a ++ 47 :: b) = urlNorm a ++ 47 :: urlNorm b := by
  induction a with
  | nil =>
    show urlNorm (47 :: b) = 47 :: urlNorm b
    rw [urlNorm, if_pos (by decide)]
  | cons c a ih =>
    rw [List.cons_append, urlNorm, urlNorm, ih]
    have : twoHex (a ++ 47 :: b) = twoHex a := by
      cases a with
      | nil =>
        cases b with
        | nil => rfl
        | cons y b => show (isHex 47 && isHex y) = false; rw [show isHex 47 = false from by decide]; rfl
      | cons x a =>
        cases a with
        | nil => show (isHex x && isHex 47) = false; rw [show isHex 47 = false from by decide]; simp
        | cons y a => rfl
    rw [this]
    split
    · rfl
    · split <;> rfl

theorem urlNorm_join (l : List Str) : urlNorm (List.intercalate [47] l) = List.intercalate [47] (l.map urlNorm) := by
  induction l with
  | nil => rfl
  | cons a l ih =>
    cases l with
    | nil => simp [List.intercalate]
    | cons b l =>
      rw [intercalate_two, urlNorm_slash, ih]; exact (intercalate_two _ _ _).symm

theorem removeDots_plain (l acc : List Str) (h : ∀ x ∈ l, unpercent x ≠ some (lit ".") ∧ unpercent x ≠ some (lit "..")) :
    removeDots acc l = acc.reverse ++ l := by
  induction l generalizing acc with
  | nil => simp [removeDots]
  | cons x l ih =>
    have hx := h x List.mem_cons_self
    rw [removeDots, if_neg hx.1, if_neg hx.2, ih _ (fun y hy => h y (List.mem_cons_of_mem _ hy))]
    simp

theorem unpercent_join (l : List Str) (h : l ≠ []) :
    unpercent (List.intercalate [47] (l.map encF)) = some (List.intercalate [47] l) := by
  induction l with
  | nil => exact absurd rfl h
  | cons a l ih =>
    cases l with
    | nil => simp [List.intercalate, unpercent_enc]
    | cons b l =>
      rw [List.map_cons, List.map_cons, intercalate_two, unpercent_encF, unpercent_ne (by decide)]
      rw [← List.map_cons (f := encF), ih (by simp), intercalate_two]
      rfl

/-- the links of the page lead to their directories -/
theorem link_leads {c : List Str} (hne : c ≠ []) (hg : ∀ n ∈ c, (47 : UInt8) ∉ n) (hc : ∀ n ∈ c, PlainName n) {href : Str}
    (he : Escapes href (urlNorm (htmlLink (pathOf c)))) : LeadsTo href (pathOf c) := by
  have hl : htmlLink (pathOf c) = List.intercalate [47] ([] :: lit "metrics" :: c) := by
    cases c with
    | nil => exact absurd rfl hne
    | cons a c =>
      rw [intercalate_two, intercalate_two]; rfl
  have hmap : ([] :: lit "metrics" :: c).map urlNorm = ([] :: lit "metrics" :: c).map encF := by
    refine List.map_congr_left fun n hn => ?_
    rcases List.mem_cons.mp hn with rfl | hn
    · rfl
    · rcases List.mem_cons.mp hn with rfl | hn
      · decide +kernel
      · exact urlNorm_plain n (hc n hn).2.2.2
  have hurl : urlNorm (htmlLink (pathOf c)) = List.intercalate [47] (([] :: lit "metrics" :: c).map encF) := by
    rw [hl, urlNorm_join, hmap]
  have hall : ∀ n ∈ ([] :: lit "metrics" :: c), (47 : UInt8) ∉ n ∧ (∀ b ∈ n, b ≠ 35 ∧ b ≠ 63) ∧ n ≠ lit "." ∧ n ≠ lit ".." := by
    intro n hn
    rcases List.mem_cons.mp hn with rfl | hn
    · decide
    · rcases List.mem_cons.mp hn with rfl | hn
      · decide
      · exact ⟨hg n hn, (hc n hn).1, (hc n hn).2.1, (hc n hn).2.2.1⟩
  generalize ([] :: lit "metrics" :: c) = L at *
  have hL : L ≠ [] := by
    rintro rfl
    have := congrArg List.length hl
    simp [List.intercalate, htmlLink, pathOf, lit] at this
  refine ⟨_, he, ?_⟩
  rw [hurl]
  have hno : urlPath (List.intercalate [47] (L.map encF)) = List.intercalate [47] (L.map encF) := by
    unfold urlPath
    refine List.takeWhile_eq_self_iff.mpr fun b hb => ?_
    have hmem : b ∈ [47] ∨ ∃ x ∈ L.map encF, b ∈ x := by
      clear hurl hmap hl
      generalize L.map encF = M at hb
      induction M with
      | nil => simp [List.intercalate] at hb
      | cons a M ih =>
        cases M with
        | nil => exact Or.inr ⟨a, by simp, by simpa [List.intercalate] using hb⟩
        | cons b' M =>
          have e : List.intercalate [47] (a :: b' :: M) = a ++ 47 :: List.intercalate [47] (b' :: M) := by
            simp [List.intercalate]
          rw [e] at hb
          rcases List.mem_append.mp hb with h | h
          · exact Or.inr ⟨a, by simp, h⟩
          · rcases List.mem_cons.mp h with h | h
            · exact Or.inl (by simp [h])
            · rcases ih h with h | ⟨x, hx, h⟩
              · exact Or.inl h
              · exact Or.inr ⟨x, List.mem_cons_of_mem _ hx, h⟩
    rcases hmem with h | ⟨x, hx, h⟩
    · rw [List.mem_singleton.mp h]; decide
    · obtain ⟨n, hn, rfl⟩ := List.mem_map.mp hx
      simp only [decide_eq_true_eq]
      constructor
      · rintro rfl; exact ((hall n hn).2.1 _ (mem_encF h (by simp))).1 rfl
      · rintro rfl; exact ((hall n hn).2.1 _ (mem_encF h (by simp))).2 rfl
  rw [hno, splitByte_unique 47 (L.map encF) (by simpa using hL), removeDots_plain]
  · rw [List.reverse_nil, List.nil_append, unpercent_join L hL, ← hl]
    rfl
  · intro x hx
    obtain ⟨n, hn, rfl⟩ := List.mem_map.mp hx
    rw [unpercent_enc]
    exact ⟨fun h => (hall n hn).2.2.1 (Option.some.inj h), fun h => (hall n hn).2.2.2 (Option.some.inj h)⟩
  · intro x hx
    obtain ⟨n, hn, rfl⟩ := List.mem_map.mp hx
    exact fun h => (hall n hn).1 (mem_encF h (by simp))

/-! ### escaped text determines the text -/

theorem reference_head {r : Str} {b : UInt8} (h : (r, b) ∈ references) : ∃ r', r = 38 :: r' := by
  simp only [references, List.mem_cons, Prod.mk.injEq, List.not_mem_nil, or_false] at h
  rcases h with ⟨rfl, -⟩ | ⟨rfl, -⟩ | ⟨rfl, -⟩ | ⟨rfl, -⟩ | ⟨rfl, -⟩ | ⟨rfl, -⟩ | ⟨rfl, -⟩ <;> exact ⟨_, rfl⟩

theorem reference_unique {r r' : Str} {b b' : UInt8} {e e' : Str} (h : (r, b) ∈ references) (h' : (r', b') ∈ references)
    (he : r ++ e = r' ++ e') : b = b' ∧ e = e' := by
  simp only [references, List.mem_cons, Prod.mk.injEq, List.not_mem_nil, or_false] at h h'
  rcases h with ⟨rfl, rfl⟩ | ⟨rfl, rfl⟩ | ⟨rfl, rfl⟩ | ⟨rfl, rfl⟩ | ⟨rfl, rfl⟩ | ⟨rfl, rfl⟩ | ⟨rfl, rfl⟩ <;>
  rcases h' with ⟨rfl, rfl⟩ | ⟨rfl, rfl⟩ | ⟨rfl, rfl⟩ | ⟨rfl, rfl⟩ | ⟨rfl, rfl⟩ | ⟨rfl, rfl⟩ | ⟨rfl, rfl⟩ <;>
  simp [lit] at he <;> simp [he]

theorem escapes_unique {e s s' : Str} (h : Escapes e s) (h' : Escapes e s') (hn : (239 : UInt8) ∉ e) : s = s' := by
  induction h generalizing s' with
  | nil =>
    generalize hx : ([] : Str) = x at h'
    cases h' with
    | nil => rfl
    | plain => cases hx
    | ref hr => obtain ⟨_, rfl⟩ := reference_head hr; cases hx
    | nul => cases hx
  | @plain b e s hb _ ih =>
    generalize hx : b :: e = x at h'
    cases h' with
    | nil => cases hx
    | plain _ h2 => cases hx; rw [ih h2 (fun h => hn (List.mem_cons_of_mem _ h))]
    | ref hr => obtain ⟨_, rfl⟩ := reference_head hr; cases hx; exact absurd hb (by simp)
    | nul => cases hx; exact absurd List.mem_cons_self hn
  | @ref r b e s hr _ ih =>
    have hn' : (239 : UInt8) ∉ e := fun h => hn (List.mem_append_right _ h)
    generalize hx : r ++ e = x at h'
    cases h' with
    | nil => obtain ⟨_, rfl⟩ := reference_head hr; cases hx
    | plain hb => obtain ⟨_, rfl⟩ := reference_head hr; cases hx; exact absurd hb (by simp)
    | ref hr' h2 =>
      obtain ⟨rfl, rfl⟩ := reference_unique hr hr' hx
      rw [ih h2 hn']
    | nul => obtain ⟨_, rfl⟩ := reference_head hr; cases hx
  | nul => exact absurd (by simp) hn

end Tricorder
