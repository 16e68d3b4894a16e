import Verif.Proof.Wait
/-!
# Which calls never wait
-/

namespace Tricorder.Whole
open Go Spec Tree

variable {A α β : Type} {w : World}

theorem registerDirectory_short (d : ℕ) (p : List Str) : Short p.length (registerDirectory d p) := by
  induction p generalizing d with
  | nil => trivial
  | cons x p ih =>
    refine ⟨trivial, fun r => ?_⟩
    cases r with
    | error => exact Short_ret _ _
    | ok d' => exact ih d'

theorem getDirectory_short (d : ℕ) (p : List Str) : Short p.length (getDirectory d p) := by
  induction p generalizing d with
  | nil => trivial
  | cons x p ih =>
    refine ⟨trivial, fun (r : Option (ℕ × Entry)) => ?_⟩
    cases r with
    | none => exact Short_ret _ _
    | some y =>
      cases hn : y.2.dir with
      | none => simp only [hn]; exact Short_ret _ _
      | some d' => simp only [hn]; exact ih d'

theorem getDirectoryAndError_short (d : ℕ) (p : List Str) : Short p.length (getDirectoryAndError d p) := by
  induction p generalizing d with
  | nil => trivial
  | cons x p ih =>
    refine ⟨trivial, fun (r : Option (ℕ × Entry)) => ?_⟩
    cases r with
    | none => exact Short_ret _ _
    | some y =>
      cases hn : y.2.dir with
      | none => simp only [hn]; exact Short_ret _ _
      | some d' => simp only [hn]; exact ih d'

theorem newValue_short (fnTy spec group unit) : Short 1 (newValue fnTy spec group unit) := by
  cases spec with
  | dist i =>
    cases i with
    | none => trivial
    | some i => exact ⟨trivial, by rintro (_ | _ | _) <;> trivial⟩
  | list => trivial
  | flag g b => cases b <;> exact ⟨trivial, by rintro (_ | _) <;> trivial⟩
  | func n f =>
    unfold newValue
    dsimp only
    split
    · trivial
    · split <;> trivial
  | ptr v =>
    refine ⟨trivial, ?_⟩
    rintro (_ | d)
    · trivial
    · dsimp only
      split
      · trivial
      · split <;> trivial
  | invalid => trivial

theorem registerMetric_short (fnTy : ℕ → GoTy) (d : ℕ) (p : List Str) (spec group unit desc) :
    Short (p.length + 1) (registerMetric fnTy d p spec group unit desc) := by
  by_cases h0 : p = []
  · subst h0; trivial
  obtain ⟨e1, e2⟩ := pathDir_base h0
  unfold registerMetric
  rw [if_neg (by simpa [pathEmpty] using h0)]
  simp only [e1, e2]
  have hl : p.length + 1 = p.dropLast.length + (1 + 1) := by
    have := List.length_pos_iff.mpr h0
    simp; omega
  rw [hl]
  refine Short_bind ?_ (registerDirectory_short d p.dropLast)
  rintro (_ | d')
  · trivial
  · refine Short_bind ?_ (newValue_short _ _ _ _)
    rintro ((_ | v) | _)
    · trivial
    · exact ⟨trivial, fun r => by cases r <;> trivial⟩
    · trivial

theorem unregisterPath_short (d : ℕ) (p : List Str) : Short p.length (unregisterPath d p) := by
  by_cases h0 : p = []
  · subst h0; trivial
  obtain ⟨e1, e2⟩ := pathDir_base h0
  unfold unregisterPath
  simp only [e1, e2]
  have hl : p.length = p.dropLast.length + 1 := by
    have := List.length_pos_iff.mpr h0
    simp; omega
  rw [hl]
  refine Short_bind ?_ (getDirectory_short d p.dropLast)
  rintro (_ | d')
  · trivial
  · exact ⟨trivial, fun _ => trivial⟩

theorem getDirectoryOrMetric_short (d : ℕ) (p : List Str) : Short p.length (getDirectoryOrMetric d p) := by
  by_cases h0 : p = []
  · subst h0; trivial
  obtain ⟨e1, e2⟩ := pathDir_base h0
  unfold getDirectoryOrMetric
  simp only [e1, e2]
  have hl : p.length = p.dropLast.length + 1 := by
    have := List.length_pos_iff.mpr h0
    simp; omega
  rw [hl]
  refine Short_bind ?_ (getDirectory_short d p.dropLast)
  rintro (_ | d')
  · trivial
  · exact ⟨trivial, fun r => by cases r <;> trivial⟩

/-- programs that neither create directories nor store metrics -/
theorem SafeP_reads {p : Prog α} (h : ProgAll (fun c => ∀ n, OkN n c) p) (n : ℕ) : SafeP p n := by
  induction p generalizing n with
  | ret => trivial
  | op c k ih => exact ⟨h.1 n, fun r m _ _ => ih r (h.2 r) m⟩

theorem getDirectory_reads (d : ℕ) (p : List Str) : ProgAll (fun c => ∀ n, OkN n c) (getDirectory d p) := by
  induction p generalizing d with
  | nil => trivial
  | cons x p ih =>
    refine ⟨fun _ => trivial, fun (r : Option (ℕ × Entry)) => ?_⟩
    cases r with
    | none => trivial
    | some y =>
      cases hn : y.2.dir with
      | none => simp only [hn]; trivial
      | some d' => simp only [hn]; exact ih d'

theorem getDirectoryAndError_reads (d : ℕ) (p : List Str) : ProgAll (fun c => ∀ n, OkN n c) (getDirectoryAndError d p) := by
  induction p generalizing d with
  | nil => trivial
  | cons x p ih =>
    refine ⟨fun _ => trivial, fun (r : Option (ℕ × Entry)) => ?_⟩
    cases r with
    | none => trivial
    | some y =>
      cases hn : y.2.dir with
      | none => simp only [hn]; trivial
      | some d' => simp only [hn]; exact ih d'

theorem unregisterPath_reads (d : ℕ) (p : List Str) : ProgAll (fun c => ∀ n, OkN n c) (unregisterPath d p) := by
  unfold unregisterPath
  split
  · refine ProgAll_bind (getDirectory_reads _ _) ?_
    rintro (_ | d')
    · trivial
    · exact ⟨fun _ => trivial, fun _ => trivial⟩
  · trivial

theorem getDirectoryOrMetric_reads (d : ℕ) (p : List Str) : ProgAll (fun c => ∀ n, OkN n c) (getDirectoryOrMetric d p) := by
  unfold getDirectoryOrMetric
  split
  · refine ProgAll_bind (getDirectory_reads _ _) ?_
    rintro (_ | d')
    · trivial
    · exact ⟨fun _ => trivial, fun r => by cases r <;> trivial⟩
  · trivial

theorem registerMetric_safeP (d : ℕ) (path : Str) (spec group unit desc) {n : ℕ} (hd : d < n) :
    SafeP (registerMetric w.fnTy d (newPathSpec path) spec group unit desc) n :=
  regCall_safe (w := w) (.metric d path spec group unit desc) hd

theorem never_waits {p : Prog α} {n : ℕ} {ok : State → Prop} (f : α → A) (h1 : Short n p)
    (h2 : ∀ s : State, ok s → 0 < s.tree.dirs.length → SafeP p s.tree.dirs.length) :
    NeverWaits w n ok (p.bind fun r => .ret (f r)) :=
  short_never_waits (Short_bind (m := 0) (fun _ => Short_ret _ _) h1) fun s hs h0 => SafeP_bind (h2 s hs h0) fun _ _ _ => trivial

end Tricorder.Whole
