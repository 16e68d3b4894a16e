import Verif.Proof.Link
/-!
# Links that lead elsewhere
-/

namespace Tricorder
open Go Spec

theorem unpercent_append {a v : Str} (h : unpercent a = some v) (r : Str) : unpercent (a ++ r) = (unpercent r).map (v ++ ·) := by
  induction a using unpercent.induct generalizing v with
  | case1 =>
    rw [unpercent] at h
    cases h
    rw [List.nil_append]
    cases unpercent r <;> rfl
  | case2 x y rest i j hx hy ih =>
    simp only [unpercent, hx, hy, if_true] at h
    cases hv : unpercent rest with
    | none => rw [hv] at h; cases h
    | some v' =>
      rw [hv] at h; cases h
      simp only [List.cons_append, unpercent, hx, hy, if_true, ih hv]
      cases unpercent r <;> rfl
  | case3 x y rest hno =>
    rw [unpercent, if_pos rfl] at h
    exfalso
    revert h
    cases hx : hexVal x with
    | none => simp
    | some i =>
      cases hy : hexVal y with
      | none => simp
      | some j => exact (hno i j hx hy).elim
  | case4 rest hno =>
    rw [unpercent.eq_def] at h
    revert h
    match rest, hno with
    | [], _ => intro h; cases h
    | [_], _ => intro h; cases h
    | x :: y :: r', hno => exact (hno x y r' rfl).elim
  | case5 b rest hb ih =>
    rw [unpercent_ne hb] at h
    cases hv : unpercent rest with
    | none => rw [hv] at h; cases h
    | some v' =>
      rw [hv] at h; cases h
      rw [List.cons_append, unpercent_ne hb, ih hv]
      cases unpercent r <;> rfl

theorem hexVal_urlByte {b : UInt8} (h : isHex b = true) : urlByte b = true ∧ b ≠ 37 := by
  have : ∀ b : Fin 256, isHex (UInt8.ofNat b) = true → urlByte (UInt8.ofNat b) = true ∧ UInt8.ofNat b ≠ 37 := by decide +kernel
  have h2 := this ⟨b.toNat, b.toNat_lt⟩
  simp only [UInt8.ofNat_toNat] at h2
  exact h2 h

/-- a normalized URL can be decoded; every escape that was there before makes it shorter -/
theorem urlNorm_decodes (x : Str) : ∃ v, unpercent (urlNorm x) = some v ∧ v.length ≤ x.length ∧
    (v.length = x.length → v = x ∧ ∀ a p q b, x = a ++ 37 :: p :: q :: b → hexVal p = none ∨ hexVal q = none) := by
  induction hk : x.length using Nat.strong_induction_on generalizing x with
  | _ k ih =>
    subst hk
    cases x with
    | nil => exact ⟨[], rfl, Nat.le_refl _, fun _ => ⟨rfl, by simp⟩⟩
    | cons b x =>
      by_cases h37 : b = 37 ∧ twoHex x = true
      · obtain ⟨rfl, hm⟩ := h37
        match x, hm with
        | p :: q :: rest, hm =>
          have hm' := (Bool.and_eq_true _ _).mp (show (isHex p && isHex q) = true from hm)
          obtain ⟨v, h1, h2, -⟩ := ih rest.length (by simp; omega) rest rfl
          have e : urlNorm (37 :: p :: q :: rest) = 37 :: p :: q :: urlNorm rest := by
            rw [urlNorm, if_neg (by decide), if_pos ⟨rfl, hm⟩, urlNorm, if_pos (hexVal_urlByte hm'.1).1, urlNorm,
              if_pos (hexVal_urlByte hm'.2).1]
          obtain ⟨i, hi⟩ := Option.isSome_iff_exists.mp ((isHex_iff p).mp hm'.1)
          obtain ⟨j, hj⟩ := Option.isSome_iff_exists.mp ((isHex_iff q).mp hm'.2)
          refine ⟨UInt8.ofNat (16 * i + j) :: v, ?_, ?_, ?_⟩
          · rw [e, unpercent, if_pos rfl]
            simp only [hi, hj, h1, Option.map_some]
          · simp; omega
          · simp; omega
      · obtain ⟨v, h1, h2, h3⟩ := ih x.length (by simp) x rfl
        have e : urlNorm (b :: x) = encB b ++ urlNorm x := by
          rw [urlNorm, encB, if_neg h37]
          split
          · rfl
          · rfl
        refine ⟨b :: v, by rw [e, unpercent_encB, h1]; rfl, by simp; omega, fun hl => ?_⟩
        obtain ⟨rfl, h4⟩ := h3 (by simpa using hl)
        refine ⟨rfl, fun a p q c he => ?_⟩
        cases a with
        | nil =>
          cases he
          by_contra hcon
          push Not at hcon
          refine h37 ⟨rfl, ?_⟩
          show (isHex p && isHex q) = true
          rw [Bool.and_eq_true, isHex_iff, isHex_iff, Option.isSome_iff_ne_none, Option.isSome_iff_ne_none]
          exact hcon
        | cons b' a => cases he; exact h4 a p q c rfl

/-- bytes that are kept and are no hexadecimal digits separate -/
theorem urlNorm_sep {s : UInt8} (h1 : urlByte s = true) (h2 : isHex s = false) (a b : Str) :
    urlNorm (a ++ s :: b) = urlNorm a ++ s :: urlNorm b := by
  induction a with
  | nil =>
    show urlNorm (s :: b) = s :: urlNorm b
    rw [urlNorm, if_pos h1]
  | cons c a ih =>
    rw [List.cons_append, urlNorm, urlNorm, ih]
    have : twoHex (a ++ s :: b) = twoHex a := by
      cases a with
      | nil =>
        cases b with
        | nil => rfl
        | cons y b => show (isHex s && isHex y) = false; rw [h2]; rfl
      | cons x a =>
        cases a with
        | nil => show (isHex x && isHex s) = false; rw [h2]; simp
        | cons y a => rfl
    rw [this]
    split
    · rfl
    · split <;> rfl

/-- what the normalized URL consists of -/
theorem mem_urlNorm {x : Str} {b : UInt8} (h : b ∈ urlNorm x) : b ∈ x ∧ urlByte b = true ∨ b = 37 ∨ isHex b = true := by
  induction x with
  | nil => cases h
  | cons c x ih =>
    have hd : ∀ n < 16, isHex (hexDigit n) = true := by decide +kernel
    have hc := c.toNat_lt
    have ih' : b ∈ urlNorm x → b ∈ c :: x ∧ urlByte b = true ∨ b = 37 ∨ isHex b = true := fun h => by
      rcases ih h with h | h
      · exact Or.inl ⟨List.mem_cons_of_mem _ h.1, h.2⟩
      · exact Or.inr h
    rw [urlNorm] at h
    split at h
    · rename_i hu
      rcases List.mem_cons.mp h with rfl | h
      · exact Or.inl ⟨List.mem_cons_self, hu⟩
      · exact ih' h
    · split at h
      · rcases List.mem_cons.mp h with rfl | h
        · exact Or.inr (Or.inl rfl)
        · exact ih' h
      · rcases List.mem_cons.mp h with rfl | h
        · exact Or.inr (Or.inl rfl)
        · rcases List.mem_cons.mp h with rfl | h
          · exact Or.inr (Or.inr (hd _ (by omega)))
          · rcases List.mem_cons.mp h with rfl | h
            · exact Or.inr (Or.inr (hd _ (by omega)))
            · exact ih' h

theorem urlPath_eq (x : Str) : (urlPath x = x ∧ ∀ b ∈ x, b ≠ 35 ∧ b ≠ 63) ∨
    ∃ b r, (b = 35 ∨ b = 63) ∧ x = urlPath x ++ b :: r := by
  induction x with
  | nil => exact Or.inl ⟨rfl, by simp⟩
  | cons c x ih =>
    by_cases hc : c ≠ 35 ∧ c ≠ 63
    · have e : urlPath (c :: x) = c :: urlPath x := by
        unfold urlPath
        rw [List.takeWhile_cons_of_pos (by simpa using hc)]
      rcases ih with ⟨h1, h2⟩ | ⟨b, r, h1, h2⟩
      · refine Or.inl ⟨by rw [e, h1], fun b hb => ?_⟩
        rcases List.mem_cons.mp hb with rfl | hb
        · exact hc
        · exact h2 b hb
      · exact Or.inr ⟨b, r, h1, by rw [e, List.cons_append, ← h2]⟩
    · have e : urlPath (c :: x) = [] := by
        unfold urlPath
        rw [List.takeWhile_cons_of_neg (by simpa using hc)]
      refine Or.inr ⟨c, x, ?_, by rw [e]; rfl⟩
      by_contra hn
      push Not at hn
      exact hc hn

theorem urlPath_append {a r : Str} {b : UInt8} (ha : ∀ c ∈ a, c ≠ 35 ∧ c ≠ 63) (hb : b = 35 ∨ b = 63) : urlPath (a ++ b :: r) = a := by
  induction a with
  | nil =>
    unfold urlPath
    rcases hb with rfl | rfl <;> simp
  | cons c a ih =>
    have := ih (fun x hx => ha x (List.mem_cons_of_mem _ hx))
    unfold urlPath at this ⊢
    rw [List.cons_append, List.takeWhile_cons_of_pos (by simpa using ha c List.mem_cons_self), this]

theorem mem_urlPath {x : Str} : ∀ b ∈ urlPath x, b ≠ 35 ∧ b ≠ 63 := by
  intro b hb
  have := List.mem_takeWhile_imp hb
  simpa using this

theorem urlPath_norm (x : Str) : urlPath (urlNorm x) = urlNorm (urlPath x) := by
  have hk : ∀ y : Str, (∀ b ∈ y, b ≠ 35 ∧ b ≠ 63) → ∀ b ∈ urlNorm y, b ≠ 35 ∧ b ≠ 63 := by
    intro y hy b hb
    rcases mem_urlNorm hb with h | rfl | h
    · exact hy b h.1
    · decide
    · constructor <;> rintro rfl <;> revert h <;> decide
  rcases urlPath_eq x with ⟨h1, h2⟩ | ⟨b, r, h1, h2⟩
  · rw [h1]
    rcases urlPath_eq (urlNorm x) with ⟨h3, -⟩ | ⟨b, r, h3, h4⟩
    · exact h3
    · exfalso
      have := hk x h2 b (by rw [h4]; simp)
      rcases h3 with rfl | rfl
      · exact this.1 rfl
      · exact this.2 rfl
  · have e : urlNorm x = urlNorm (urlPath x) ++ b :: urlNorm r := by
      rw [← urlNorm_sep (by rcases h1 with rfl | rfl <;> decide) (by rcases h1 with rfl | rfl <;> decide), ← h2]
    rw [e, urlPath_append (hk _ mem_urlPath) h1]

/-- the length of a list of components, decoded, each with a separator -/
def decLen (l : List Str) : ℕ := (l.map fun y => ((unpercent y).getD []).length + 1).sum

def rawLen (l : List Str) : ℕ := (l.map fun y => y.length + 1).sum

theorem decLen_cons (y : Str) (l : List Str) : decLen (y :: l) = ((unpercent y).getD []).length + 1 + decLen l := by simp [decLen]
theorem rawLen_cons (y : Str) (l : List Str) : rawLen (y :: l) = y.length + 1 + rawLen l := by simp [rawLen]
theorem decLen_append (k l : List Str) : decLen (k ++ l) = decLen k + decLen l := by simp [decLen]
theorem decLen_reverse (l : List Str) : decLen l.reverse = decLen l := by simp [decLen, List.sum_reverse]

theorem decLen_tail (l : List Str) : decLen l.tail ≤ decLen l := by
  cases l with
  | nil => exact Nat.le_refl _
  | cons y l => rw [decLen_cons]; simp only [List.tail_cons]; omega

/-- dots make it shorter -/
theorem removeDots_len (l acc : List Str) : decLen (removeDots acc l) ≤ decLen acc + decLen l ∧
    (decLen (removeDots acc l) = decLen acc + decLen l → ∀ x ∈ l, unpercent x ≠ some (lit ".") ∧ unpercent x ≠ some (lit "..")) := by
  have h0 : decLen [([] : Str)] = 1 := rfl
  induction l generalizing acc with
  | nil => rw [removeDots, decLen_reverse]; exact ⟨Nat.le_add_right _ _, fun _ => by simp⟩
  | cons x l ih =>
    rw [removeDots, decLen_cons]
    split
    · rename_i hx
      have hl : ((unpercent x).getD []).length = 1 := by rw [hx]; rfl
      split
      · have := (ih ([] :: acc)).1
        rw [decLen_cons] at this
        have e : ((unpercent ([] : Str)).getD []).length = 0 := rfl
        exact ⟨by omega, fun _ => by omega⟩
      · have := (ih acc).1
        exact ⟨by omega, fun _ => by omega⟩
    · rename_i hx1
      split
      · rename_i hx
        have hl : ((unpercent x).getD []).length = 2 := by rw [hx]; rfl
        have ht := decLen_tail acc
        split
        · have := (ih ([] :: acc.tail)).1
          rw [decLen_cons] at this
          have e : ((unpercent ([] : Str)).getD []).length = 0 := rfl
          exact ⟨by omega, fun _ => by omega⟩
        · have := (ih acc.tail).1
          exact ⟨by omega, fun _ => by omega⟩
      · rename_i hx2
        obtain ⟨h1, h2⟩ := ih (x :: acc)
        rw [decLen_cons] at h1 h2
        refine ⟨by omega, fun h y hy => ?_⟩
        rcases List.mem_cons.mp hy with rfl | hy
        · exact ⟨hx1, hx2⟩
        · exact h2 (by omega) y hy

/-- all components can be decoded -/
theorem removeDots_mem {l acc : List Str} {x : Str} (h : x ∈ removeDots acc l) : x = [] ∨ x ∈ acc ∨ x ∈ l := by
  induction l generalizing acc with
  | nil => rw [removeDots] at h; exact Or.inr (Or.inl (List.mem_reverse.mp h))
  | cons y l ih =>
    rw [removeDots] at h
    have key : ∀ acc' : List Str, (∀ z ∈ acc', z = [] ∨ z ∈ acc ∨ z = y) → x ∈ removeDots acc' l → x = [] ∨ x ∈ acc ∨ x ∈ y :: l := by
      intro acc' ha hx
      rcases ih hx with h | h | h
      · exact Or.inl h
      · rcases ha x h with h | h | rfl
        · exact Or.inl h
        · exact Or.inr (Or.inl h)
        · exact Or.inr (Or.inr List.mem_cons_self)
      · exact Or.inr (Or.inr (List.mem_cons_of_mem _ h))
    split at h
    · refine key _ (fun z hz => ?_) h
      split at hz
      · rcases List.mem_cons.mp hz with rfl | hz
        · exact Or.inl rfl
        · exact Or.inr (Or.inl hz)
      · exact Or.inr (Or.inl hz)
    · split at h
      · refine key _ (fun z hz => ?_) h
        split at hz
        · rcases List.mem_cons.mp hz with rfl | hz
          · exact Or.inl rfl
          · exact Or.inr (Or.inl (List.mem_of_mem_tail hz))
        · exact Or.inr (Or.inl (List.mem_of_mem_tail hz))
      · refine key _ (fun z hz => ?_) h
        rcases List.mem_cons.mp hz with rfl | hz
        · exact Or.inr (Or.inr rfl)
        · exact Or.inr (Or.inl hz)

theorem unpercent_join_len {l : List Str} (hl : l ≠ []) (h : ∀ x ∈ l, ∃ v, unpercent x = some v) {v : Str}
    (hv : unpercent (List.intercalate [47] l) = some v) : v.length + 1 = decLen l := by
  induction l generalizing v with
  | nil => exact absurd rfl hl
  | cons a l ih =>
    obtain ⟨va, ha⟩ := h a List.mem_cons_self
    cases l with
    | nil =>
      have : List.intercalate [47] [a] = a := by simp [List.intercalate]
      rw [this, ha] at hv
      cases hv
      simp [decLen, ha]
    | cons b l =>
      rw [intercalate_two, unpercent_append ha, unpercent_ne (by decide)] at hv
      cases hr : unpercent (List.intercalate [47] (b :: l)) with
      | none => rw [hr] at hv; cases hv
      | some r =>
        rw [hr] at hv
        cases hv
        have := ih (by simp) (fun x hx => h x (List.mem_cons_of_mem _ hx)) hr
        rw [decLen_cons, ← this, ha]
        simp
        omega

theorem join_len {l : List Str} (hl : l ≠ []) : (List.intercalate [47] l).length + 1 = rawLen l := by
  induction l with
  | nil => exact absurd rfl hl
  | cons a l ih =>
    cases l with
    | nil => simp [List.intercalate, rawLen]
    | cons b l =>
      rw [intercalate_two, rawLen_cons, ← ih (by simp)]
      simp
      omega

theorem decLen_norm (l : List Str) : decLen (l.map urlNorm) ≤ rawLen l ∧
    (decLen (l.map urlNorm) = rawLen l → ∀ x ∈ l, unpercent (urlNorm x) = some x ∧
      ∀ a p q b, x = a ++ 37 :: p :: q :: b → hexVal p = none ∨ hexVal q = none) := by
  induction l with
  | nil => exact ⟨Nat.le_refl _, fun _ => by simp⟩
  | cons y l ih =>
    obtain ⟨v, h1, h2, h3⟩ := urlNorm_decodes y
    rw [List.map_cons, decLen_cons, rawLen_cons, h1]
    simp only [Option.getD_some]
    refine ⟨by omega, fun h x hx => ?_⟩
    rcases List.mem_cons.mp hx with rfl | hx
    · obtain ⟨rfl, h4⟩ := h3 (by omega)
      exact ⟨h1, h4⟩
    · exact ih.2 (by omega) x hx

/-- only the links to plain names lead to their directories -/
theorem link_plain {c : List Str} (hne : c ≠ []) (hg : ∀ n ∈ c, (47 : UInt8) ∉ n)
    (h : unpercent (List.intercalate [47] (removeDots [] (splitByte 47 (urlPath (urlNorm (htmlLink (pathOf c))))))) =
      some (lit "/metrics" ++ pathOf c)) : ∀ n ∈ c, PlainName n := by
  have hl : htmlLink (pathOf c) = List.intercalate [47] ([] :: lit "metrics" :: c) := by
    cases c with
    | nil => exact absurd rfl hne
    | cons a c =>
      rw [intercalate_two, intercalate_two]; rfl
  change _ = some (htmlLink (pathOf c)) at h
  rw [hl] at h
  have hLg : ∀ n ∈ ([] :: lit "metrics" :: c), (47 : UInt8) ∉ n := by
    intro n hn
    rcases List.mem_cons.mp hn with rfl | hn
    · decide
    · rcases List.mem_cons.mp hn with rfl | hn
      · decide
      · exact hg n hn
  have hsub : ∀ n ∈ c, n ∈ ([] :: lit "metrics" :: c) := fun n hn => List.mem_cons_of_mem _ (List.mem_cons_of_mem _ hn)
  have hL0 : ([] :: lit "metrics" :: c) ≠ [] := by simp
  generalize ([] :: lit "metrics" :: c) = L at *
  rw [urlPath_norm] at h
  have hj := splitByte_join 47 (urlPath (List.intercalate [47] L))
  have hsn := splitByte_ne_nil 47 (urlPath (List.intercalate [47] L))
  have hsg := splitByte_no_sep 47 (urlPath (List.intercalate [47] L))
  generalize hM : splitByte 47 (urlPath (List.intercalate [47] L)) = M at *
  have hspl : splitByte 47 (urlNorm (urlPath (List.intercalate [47] L))) = M.map urlNorm := by
    rw [← hj, urlNorm_join]
    refine splitByte_unique 47 _ (by simpa using hsn) fun p hp => ?_
    obtain ⟨n, hn, rfl⟩ := List.mem_map.mp hp
    intro h47
    rcases mem_urlNorm h47 with h | h | h
    · exact hsg n hn h.1
    · exact absurd h (by decide)
    · exact absurd h (by decide)
  rw [hspl] at h
  have hd := removeDots_len (M.map urlNorm) []
  have hdec : ∀ x ∈ removeDots [] (M.map urlNorm), ∃ v, unpercent x = some v := by
    intro x hx
    rcases removeDots_mem hx with rfl | hx | hx
    · exact ⟨[], rfl⟩
    · cases hx
    · obtain ⟨n, -, rfl⟩ := List.mem_map.mp hx
      obtain ⟨v, hv, -⟩ := urlNorm_decodes n
      exact ⟨v, hv⟩
  have hRne : removeDots [] (M.map urlNorm) ≠ [] := by
    intro e
    rw [e] at h
    have : (List.intercalate [47] ([] : List Str)) = [] := rfl
    rw [this, unpercent] at h
    rw [← Option.some.inj h] at hl
    exact absurd hl (by simp [htmlLink, pathOf, lit])
  have h1 := unpercent_join_len hRne hdec h
  have h2 := join_len hL0
  have h3 := join_len hsn
  rw [hj] at h3
  have h4 := decLen_norm M
  have e0 : decLen ([] : List Str) = 0 := rfl
  have hle : (urlPath (List.intercalate [47] L)).length ≤ (List.intercalate [47] L).length := by
    unfold urlPath
    exact (List.takeWhile_sublist _).length_le
  rcases urlPath_eq (List.intercalate [47] L) with ⟨hp1, hp2⟩ | ⟨b, r, -, hp⟩
  · have hML : M = L := by
      rw [← hM, hp1, splitByte_unique 47 L hL0 hLg]
    subst hML
    have hno := hd.2 (by omega)
    have hraw := h4.2 (by omega)
    intro n hn
    have hn' := hsub n hn
    have hx := hno (urlNorm n) (List.mem_map_of_mem hn')
    rw [(hraw n hn').1] at hx
    refine ⟨fun b hb => hp2 b ?_, fun e => hx.1 (by rw [e]), fun e => hx.2 (by rw [e]), (hraw n hn').2⟩
    clear * - hn' hb
    induction M with
    | nil => cases hn'
    | cons a M ih =>
      cases M with
      | nil =>
        rw [List.mem_singleton.mp hn'] at hb
        simpa [List.intercalate] using hb
      | cons b' M =>
        rw [intercalate_two]
        rcases List.mem_cons.mp hn' with rfl | hn'
        · exact List.mem_append_left _ hb
        · exact List.mem_append_right _ (List.mem_cons_of_mem _ (ih hn'))
  · exfalso
    have := congrArg List.length hp
    simp only [List.length_append, List.length_cons] at this
    omega

theorem escapes_239 {e s : Str} (h : Escapes e s) (h0 : (0 : UInt8) ∉ s) (h239 : (239 : UInt8) ∉ s) : (239 : UInt8) ∉ e := by
  induction h with
  | nil => simp
  | plain _ _ ih =>
    simp only [List.mem_cons, not_or] at h0 h239 ⊢
    exact ⟨h239.1, ih h0.2 h239.2⟩
  | ref hr _ ih =>
    simp only [List.mem_cons, not_or] at h0 h239
    simp only [List.mem_append, not_or]
    refine ⟨?_, ih h0.2 h239.2⟩
    simp only [references, List.mem_cons, Prod.mk.injEq, List.not_mem_nil, or_false] at hr
    rcases hr with ⟨rfl, -⟩ | ⟨rfl, -⟩ | ⟨rfl, -⟩ | ⟨rfl, -⟩ | ⟨rfl, -⟩ | ⟨rfl, -⟩ | ⟨rfl, -⟩ <;> decide
  | nul => exact absurd List.mem_cons_self h0

/-- exactly the links to plain names lead to their directories -/
theorem link_iff {c : List Str} (hne : c ≠ []) (hg : ∀ n ∈ c, (47 : UInt8) ∉ n) {href : Str}
    (he : Escapes href (urlNorm (htmlLink (pathOf c)))) : LeadsTo href (pathOf c) ↔ ∀ n ∈ c, PlainName n := by
  refine ⟨fun ⟨url, h1, h2⟩ => ?_, fun h => link_leads hne hg h he⟩
  have hb : ∀ b : UInt8, b = 0 ∨ b = 239 → b ∉ urlNorm (htmlLink (pathOf c)) := by
    intro b hb hm
    rcases mem_urlNorm hm with h | h | h
    · rcases hb with rfl | rfl <;> exact absurd h.2 (by decide)
    · rcases hb with rfl | rfl <;> exact absurd h (by decide)
    · rcases hb with rfl | rfl <;> exact absurd h (by decide)
  rw [← escapes_unique he h1 (escapes_239 he (hb 0 (Or.inl rfl)) (hb 239 (Or.inr rfl)))] at h2
  exact link_plain hne hg h2

end Tricorder
