import Verif.Proof.Path
import Verif.Model.Html
/-!
# C01: spelling of paths
-/

namespace Tricorder
open Go Spec

/-- **C01** The model of the path splitter returns exactly the non-blank `/`-separated pieces of the
string, byte for byte, in order. -/
theorem C01_components (path : Str) : Components path (newPathSpec path) := by
  refine ⟨splitByte 47 path, ⟨splitByte_ne_nil 47 path, splitByte_no_sep 47 path, splitByte_join 47 path⟩,
    fun part => decide (trimSpace part ≠ []), ?_, rfl⟩
  intro p
  rw [← trimSpace_nil_iff]
  simp

/-- **C01** A string has only one list of components, so `Components` says exactly what the splitter
must return. -/
theorem C01_components_unique {path : Str} {c : List Str} (h : Components path c) :
    c = newPathSpec path := by
  obtain ⟨parts, ⟨h0, h1, h2⟩, keep, h3, rfl⟩ := h
  unfold newPathSpec
  rw [← h2, splitByte_unique 47 parts h0 h1]
  apply List.filter_congr
  intro x _
  have := h3 x
  rw [← trimSpace_nil_iff] at this
  cases hk : keep x with
  | true => simpa using (this.mp hk)
  | false =>
    have h4 : ¬ ¬ trimSpace x = [] := fun h => by rw [this.mpr h] at hk; cases hk
    simpa using h4

/-- **C01** Every API call that takes a path depends on its components only: with two spellings of the
same components each of them is literally the same program. -/
theorem C01_spelling {p q : Str} {c : List Str} (hp : Components p c) (hq : Components q c) :
    (∀ fnTy d spec group unit desc, apiRegisterMetric fnTy d p spec group unit desc =
        apiRegisterMetric fnTy d q spec group unit desc) ∧
    (∀ d, apiRegisterDirectory d p = apiRegisterDirectory d q) ∧
    apiGetDirectory p = apiGetDirectory q ∧
    (∀ d, apiUnregisterPath d p = apiUnregisterPath d q) ∧
    (∀ d, lookupPath d p = lookupPath d q) ∧
    (∀ d, getMetric d p = getMetric d q) ∧
    (∀ json fuel, listMetrics json fuel p = listMetrics json fuel q) ∧
    (∀ json, getMetricMsg json p = getMetricMsg json q) ∧
    (∀ fm (W : Type) (wr : Writer W) fuel x, textEndpoint fm wr fuel p x = textEndpoint fm wr fuel q x) ∧
    (∀ fm (W : Type) (wr : Writer W) x, htmlEndpoint fm wr p x = htmlEndpoint fm wr q x) := by
  have h : newPathSpec p = newPathSpec q := by
    rw [← C01_components_unique hp, ← C01_components_unique hq]
  have hl : ∀ d, lookupPath d p = lookupPath d q := fun d => by unfold lookupPath; rw [h]
  have hg : ∀ d, getMetric d p = getMetric d q := fun d => by unfold getMetric; rw [hl]
  refine ⟨?_, ?_, ?_, ?_, hl, hg, ?_, ?_, ?_, ?_⟩
  · intros; unfold apiRegisterMetric; rw [h]
  · intros; unfold apiRegisterDirectory; rw [h]
  · unfold apiGetDirectory; rw [h]
  · intros; unfold apiUnregisterPath; rw [h]
  · intros; unfold listMetrics getAllMetricsByPath; rw [hl]
  · intros; unfold getMetricMsg; rw [hg]
  · intros; unfold textEndpoint; rw [hl]
  · intros; unfold htmlEndpoint; rw [hl]

/-- **C01** Slashes and blank pieces do not count: between any two pieces, and at either end, any
number of them may be added. -/
theorem C01_blank_pieces (a b : List Str) (x : Str) (hx : Blank x) (hs : (47 : UInt8) ∉ x)
    (ha : ∀ p ∈ a, (47 : UInt8) ∉ p) (hb : ∀ p ∈ b, (47 : UInt8) ∉ p) (hne : a ++ b ≠ []) :
    newPathSpec (List.intercalate [47] (a ++ x :: b)) = newPathSpec (List.intercalate [47] (a ++ b)) := by
  unfold newPathSpec
  rw [splitByte_unique, splitByte_unique, List.filter_append, List.filter_append, List.filter_cons,
    if_neg]
  · simpa using (trimSpace_nil_iff x).mpr hx
  · exact hne
  · intro p hp
    rcases List.mem_append.mp hp with h | h
    · exact ha p h
    · exact hb p h
  · simp
  · intro p hp
    rcases List.mem_append.mp hp with h | h
    · exact ha p h
    · rcases List.mem_cons.mp h with h | h
      · exact h ▸ hs
      · exact hb p h

/-- **C01** Splitting what was joined from components gives the components back, so re-spelling a path
canonically changes nothing. -/
theorem C01_canonical (path : Str) : newPathSpec (47 :: List.intercalate [47] (newPathSpec path)) =
    newPathSpec path := by
  rw [newPathSpec_slash, ← joinByte_eq]
  exact newPathSpec_join _ (fun c hc => newPathSpec_comp hc)

/-- `//a/ /` U+2003 `/b c/` has the components `a` and `b c`; a piece that is not valid UTF-8 is kept -/
example : newPathSpec [47, 47, 97, 47, 32, 47, 0xE2, 0x80, 0x83, 47, 98, 32, 99, 47] =
    [[97], [98, 32, 99]] := by decide +kernel
example : Components [97, 47, 47, 98] [[97], [98]] ∧ Components [47, 97, 47, 32, 47, 98, 47] [[97], [98]] :=
  ⟨by have := C01_components [97, 47, 47, 98]; rwa [show newPathSpec [97, 47, 47, 98] = [[97], [98]] by decide +kernel] at this,
   by have := C01_components [47, 97, 47, 32, 47, 98, 47]
      rwa [show newPathSpec [47, 97, 47, 32, 47, 98, 47] = [[97], [98]] by decide +kernel] at this⟩
example : newPathSpec [0xE2, 0x80, 47, 0xFF] = [[0xE2, 0x80], [0xFF]] := by decide +kernel

end Tricorder
