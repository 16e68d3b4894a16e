import Verif.Model.Bits
import Verif.Spec.Bits
import Verif.Proof.Kinds
/-!
# Machines whose `int` has another size
-/

namespace Tricorder
open Go Spec

theorem kindTypeOn_64 (b : BaseTy) : kindTypeOn 64 b = kindType b := by
  cases b with
  | int k => cases k <;> rfl
  | _ => rfl

theorem getPrimitiveTypeOn_64 : getPrimitiveTypeOn 64 = getPrimitiveType := by
  funext g
  cases g with
  | timePtr => rfl
  | other i => rfl
  | scalar t =>
    obtain ⟨n, b⟩ := t
    cases n <;> cases b <;> first | rfl | (rename_i k; cases k <;> rfl)

theorem getPrimitiveTypeOn_sized {bits : ℕ} (hb : bits = 32 ∨ bits = 64) (g : GoTy) :
    getPrimitiveTypeOn bits g = getPrimitiveType (sizedGo bits g) := by
  cases g with
  | timePtr => rfl
  | other i => rfl
  | scalar t =>
    obtain ⟨n, b⟩ := t
    rcases hb with rfl | rfl <;> cases n <;> cases b <;> first | rfl | (rename_i k; cases k <;> rfl)

theorem sizedDyn_ty (bits : ℕ) (d : Dyn) : (sizedDyn bits d).ty = d.ty.map (sizedGo bits) := by
  cases d with
  | scalar n b => cases b <;> rfl
  | _ => rfl

theorem sizedKind_signed (bits : ℕ) (k : IntKind) : (sizedKind bits k).signed = k.signed := by
  cases k <;> simp [sizedKind] <;> split <;> rfl

theorem sizedDyn_int (bits : ℕ) (d : Dyn) : (sizedDyn bits d).int = d.int := by
  cases d with
  | scalar n b => cases b <;> simp [sizedDyn, sizedBase, Dyn.int, sizedKind_signed]
  | _ => rfl

theorem sizedDyn_uint (bits : ℕ) (d : Dyn) : (sizedDyn bits d).uint = d.uint := by
  cases d with
  | scalar n b => cases b <;> simp [sizedDyn, sizedBase, Dyn.uint, sizedKind_signed]
  | _ => rfl

theorem sizedDyn_float (bits : ℕ) (d : Dyn) : (sizedDyn bits d).float = d.float := by
  cases d with
  | scalar n b => cases b <;> rfl
  | _ => rfl

/-- a value whose type is not `int` or `uint` is the same on all machines -/
theorem sizedDyn_same {bits : ℕ} {d : Dyn} (h1 : ∀ n x, d ≠ .scalar n (.int .int x))
    (h2 : ∀ n x, d ≠ .scalar n (.int .uint x)) : sizedDyn bits d = d := by
  cases d with
  | scalar n b =>
    cases b with
    | int k x =>
      cases k with
      | int => exact absurd rfl (h1 n x)
      | uint => exact absurd rfl (h2 n x)
      | _ => rfl
    | _ => rfl
  | _ => rfl

/-- values of type `int` and `uint` -/
theorem sizedDyn_cases (bits : ℕ) (d : Dyn) :
    sizedDyn bits d = d ∨ (∃ n x, d = .scalar n (.int .int x)) ∨ ∃ n x, d = .scalar n (.int .uint x) := by
  by_cases h1 : ∃ n x, d = .scalar n (.int .int x)
  · exact Or.inr (Or.inl h1)
  by_cases h2 : ∃ n x, d = .scalar n (.int .uint x)
  · exact Or.inr (Or.inr h2)
  push Not at h1 h2
  exact Or.inl (sizedDyn_same h1 h2)

/-- the metric type of an `int` or a `uint` -/
theorem unsized_type {bits : ℕ} (hb : bits = 32 ∨ bits = 64) {n : Option ℕ} {k : IntKind} (hk : k = .int ∨ k = .uint) {t : Ty} {p : Bool}
    (h : metricType (sizedGo bits (.scalar ⟨n, .int k⟩)) = some (t, p)) :
    p = false ∧ (k = .int ∧ (bits = 32 ∧ t = .int32 ∨ bits = 64 ∧ t = .int64) ∨
      k = .uint ∧ (bits = 32 ∧ t = .uint32 ∨ bits = 64 ∧ t = .uint64)) := by
  rcases hb with rfl | rfl <;> rcases hk with rfl | rfl <;> cases n <;>
    simp [metricType, sizedGo, sizedKind, elemType] at h <;> obtain ⟨rfl, rfl⟩ := h <;> simp

theorem read_sized {bits : ℕ} (hb : bits = 32 ∨ bits = 64) {d : Dyn} {g : GoTy} {t : Ty} {p : Bool} (hd : d.ty = some g)
    (ht : metricType (sizedGo bits g) = some (t, p)) (fm : Fmts) (u : MUnit) :
    valueToInterface d t p = valueToInterface (sizedDyn bits d) t p ∧
    valueToTextString fm d t u p = valueToTextString fm (sizedDyn bits d) t u p ∧
    valueToHtmlString fm d t u p = valueToHtmlString fm (sizedDyn bits d) t u p := by
  rcases sizedDyn_cases bits d with h | ⟨n, x, rfl⟩ | ⟨n, x, rfl⟩
  · rw [h]; exact ⟨rfl, rfl, rfl⟩
  · cases hd
    obtain ⟨rfl, ⟨-, h⟩ | ⟨h, -⟩⟩ := unsized_type hb (Or.inl rfl) ht
    · rcases h with ⟨rfl, rfl⟩ | ⟨rfl, rfl⟩ <;>
        simp [valueToInterface, valueToTextString, valueToHtmlString, Ty.isInt, sizedDyn_int]
    · cases h
  · cases hd
    obtain ⟨rfl, ⟨h, -⟩ | ⟨-, h⟩⟩ := unsized_type hb (Or.inr rfl) ht
    · cases h
    · rcases h with ⟨rfl, rfl⟩ | ⟨rfl, rfl⟩ <;>
        simp [valueToInterface, valueToTextString, valueToHtmlString, Ty.isInt, Ty.isUint, sizedDyn_uint]

/-- one element of a slice of `int` or `uint` -/
theorem convertElem_on {bits : ℕ} (hb : bits = 32 ∨ bits = 64) {n m : Option ℕ} {k : IntKind} (hk : k = .int ∨ k = .uint) {t : Ty}
    (ht : elemType (sizedGo bits (.scalar ⟨n, .int k⟩)) = some t) {b : Base} (hty : b.ty = .int k) (hm : OnMachine bits b) :
    convertElem m t (sizedKind bits k) b = some (sizedBase bits b) := by
  cases b with
  | int k' x =>
    cases hty
    rcases hb with rfl | rfl <;> rcases hk with rfl | rfl <;> cases n <;>
      simp [sizedGo, sizedKind, elemType] at ht <;> subst ht <;>
      simp [OnMachine, sizedBase, sizedKind, Base.Valid, IntKind.InRange, IntKind.signed, IntKind.bits] at hm <;>
      simp [convertElem, valueToInterface, Dyn.int, Dyn.uint, IntKind.signed, sizedBase, sizedKind] <;>
      first
        | (rw [i32_eq ⟨by omega, by omega⟩]; done)
        | (rw [i64_eq ⟨by omega, by omega⟩]; done)
        | (unfold u64; omega)
        | omega
  | _ => simp [Base.ty] at hty

theorem convertedKind_on {bits : ℕ} (hb : bits = 32 ∨ bits = 64) {n : Option ℕ} {k : IntKind} (hk : k = .int ∨ k = .uint) {t : Ty}
    (ht : elemType (sizedGo bits (.scalar ⟨n, .int k⟩)) = some t) : convertedKind t = some (sizedKind bits k) := by
  rcases hb with rfl | rfl <;> rcases hk with rfl | rfl <;> cases n <;>
    simp [sizedGo, sizedKind, elemType] at ht <;> subst ht <;> rfl

theorem mapM_some {A B : Type} {f : A → Option B} {g : A → B} {xs : List A} (h : ∀ x ∈ xs, f x = some (g x)) :
    xs.mapM f = some (xs.map g) := by
  induction xs with
  | nil => rfl
  | cons x xs ih =>
    rw [List.mapM_cons, h x (by simp), ih fun y hy => h y (by simp [hy])]
    rfl

/-- a slice of `int` or `uint` becomes a new slice of a sized type -/
theorem asSliceValueOn_unsized {bits : ℕ} (hb : bits = 32 ∨ bits = 64) {mem : List Cell} {c : ℕ} {cell : Cell} {n : Option ℕ} {k : IntKind}
    (hc : mem[c]? = some cell) (he : cell.elem = .scalar ⟨n, .int k⟩) (hk : k = .int ∨ k = .uint) (hm : CellOn bits cell) (m : Bool)
    {t : Ty} (ht : elemTypeOn bits cell = some t) :
    asSliceValueOn bits mem (.slice c) m = some (mem ++ [⟨none, .scalar ⟨none, .int (sizedKind bits k)⟩,
      some ((cell.data.getD []).map (sizedBase bits)), true⟩], mem.length, t) := by
  obtain ⟨t', h1, h2⟩ := hm
  rw [he] at h1
  cases h1
  unfold elemTypeOn at ht
  rw [he] at ht
  have h3 : getPrimitiveTypeOn bits cell.elem = some (t, false) := by
    rw [getPrimitiveTypeOn_sized hb, he]
    exact (elemType_iff _ _).mp ht
  have h4 : unsizedElem cell.elem = some n := by
    rw [he]
    rcases hk with rfl | rfl <;> rfl
  have h5 : (cell.data.getD []).mapM (convertElem n t (sizedKind bits k)) = some ((cell.data.getD []).map (sizedBase bits)) :=
    mapM_some fun b hb' => convertElem_on hb hk ht (h2 b hb').1 (h2 b hb').2
  simp only [asSliceValueOn, hc, h3, h4, convertFromIntOrUintSlice, convertedKind_on hb hk ht, h5]

theorem unsizedElem_some {g : GoTy} {n : Option ℕ} (h : unsizedElem g = some n) :
    ∃ k, (k = .int ∨ k = .uint) ∧ g = .scalar ⟨n, .int k⟩ := by
  unfold unsizedElem at h
  split at h
  · cases h; exact ⟨_, Or.inl rfl, rfl⟩
  · cases h; exact ⟨_, Or.inr rfl, rfl⟩
  · cases h

/-- with 64 bits, the function of the model -/
theorem asSliceValueOn_64 {mem : List Cell} (hm : ∀ c ∈ mem, CellOn 64 c) (a : SliceArg) (m : Bool) :
    asSliceValueOn 64 mem a m = asSliceValue mem a m := by
  cases a with
  | notSlice => rfl
  | slice c =>
    cases hc : mem[c]? with
    | none => simp [asSliceValueOn, asSliceValue, hc]
    | some cell =>
      cases hu : unsizedElem cell.elem with
      | none =>
        have h1 : ∀ n, cell.elem ≠ .scalar ⟨n, .int .int⟩ := fun n h => by rw [h] at hu; cases hu
        have h2 : ∀ n, cell.elem ≠ .scalar ⟨n, .int .uint⟩ := fun n h => by rw [h] at hu; cases hu
        simp only [asSliceValueOn, asSliceValue, hc, hu, getPrimitiveTypeOn_64]
        rcases getPrimitiveType cell.elem with _ | ⟨t, _ | _⟩ <;> rfl
      | some n =>
        obtain ⟨k, hk, he⟩ := unsizedElem_some hu
        have hmc := hm cell (List.mem_of_getElem? hc)
        obtain ⟨t, ht⟩ : ∃ t, elemTypeOn 64 cell = some t := by
          unfold elemTypeOn
          rw [he]
          rcases hk with rfl | rfl <;> cases n <;> exact ⟨_, rfl⟩
        rw [asSliceValueOn_unsized (Or.inr rfl) hc he hk hmc m ht]
        have ht' : getPrimitiveType cell.elem = some (t, false) := by
          rw [← getPrimitiveTypeOn_64, getPrimitiveTypeOn_sized (Or.inr rfl)]
          exact (elemType_iff _ _).mp ht
        obtain ⟨t', h1, h2⟩ := hmc
        rw [he] at h1
        cases h1
        simp only [asSliceValue, hc, ht']
        rcases hk with rfl | rfl
        · simp only [he]
          congr 6
          refine List.map_congr_left fun b hb => ?_
          obtain ⟨h3, h4⟩ := h2 b hb
          cases b with
          | int k' x =>
            cases h3
            simp [OnMachine, sizedBase, sizedKind, Base.Valid, IntKind.InRange, IntKind.signed, IntKind.bits] at h4
            have : i64 x = x := i64_eq ⟨by omega, by omega⟩
            simp [resize, sizedBase, sizedKind, IntKind.signed, this]
          | _ => simp [Base.ty] at h3
        · simp only [he]
          congr 6
          refine List.map_congr_left fun b hb => ?_
          obtain ⟨h3, h4⟩ := h2 b hb
          cases b with
          | int k' x =>
            cases h3
            simp [OnMachine, sizedBase, sizedKind, Base.Valid, IntKind.InRange, IntKind.signed, IntKind.bits] at h4
            simp only [resize, sizedBase, sizedKind, IntKind.signed]
            have : ((u64 x.toNat : ℕ) : ℤ) = x := by unfold u64; omega
            simp [this]
          | _ => simp [Base.ty] at h3

/-- slices of other types do not depend on the machine -/
theorem asSliceValueOn_sized {bits : ℕ} (hb : bits = 32 ∨ bits = 64) {mem : List Cell} {c : ℕ} {cell : Cell} (hc : mem[c]? = some cell)
    (hu : ¬ Unsized cell) (m : Bool) : asSliceValueOn bits mem (.slice c) m = asSliceValue mem (.slice c) m := by
  have h1 : ∀ n, cell.elem ≠ .scalar ⟨n, .int .int⟩ := fun n h => hu ⟨n, Or.inl h⟩
  have h2 : ∀ n, cell.elem ≠ .scalar ⟨n, .int .uint⟩ := fun n h => hu ⟨n, Or.inr h⟩
  have h3 : unsizedElem cell.elem = none := by
    cases h : unsizedElem cell.elem with
    | none => rfl
    | some n =>
      obtain ⟨k, rfl | rfl, he⟩ := unsizedElem_some h
      · exact absurd he (h1 n)
      · exact absurd he (h2 n)
  have h4 : sizedGo bits cell.elem = cell.elem := by
    cases he : cell.elem with
    | scalar t =>
      obtain ⟨n, b⟩ := t
      cases b with
      | int k =>
        cases k with
        | int => exact absurd he (h1 n)
        | uint => exact absurd he (h2 n)
        | _ => rfl
      | _ => rfl
    | _ => rfl
  simp only [asSliceValueOn, asSliceValue, hc, h3, getPrimitiveTypeOn_sized hb, h4]
  rcases getPrimitiveType cell.elem with _ | ⟨t, _ | _⟩ <;> rfl

/-- the type that a list of this slice has -/
theorem asSliceValueOn_type {bits : ℕ} (hb : bits = 32 ∨ bits = 64) {mem : List Cell} {c : ℕ} {cell : Cell} (hc : mem[c]? = some cell)
    (hm : CellOn bits cell) (m : Bool) :
    (asSliceValueOn bits mem (.slice c) m).map (fun r => r.2.2) = elemTypeOn bits cell := by
  by_cases hu : Unsized cell
  · obtain ⟨n, he⟩ := hu
    obtain ⟨k, hk, he⟩ : ∃ k, (k = .int ∨ k = .uint) ∧ cell.elem = .scalar ⟨n, .int k⟩ := by
      rcases he with he | he
      · exact ⟨_, Or.inl rfl, he⟩
      · exact ⟨_, Or.inr rfl, he⟩
    obtain ⟨t, ht⟩ : ∃ t, elemTypeOn bits cell = some t := by
      unfold elemTypeOn
      rw [he]
      rcases hb with rfl | rfl <;> rcases hk with rfl | rfl <;> cases n <;> exact ⟨_, rfl⟩
    rw [asSliceValueOn_unsized hb hc he hk hm m ht, ht]
    rfl
  · have hg : sizedGo bits cell.elem = cell.elem := by
      cases he : cell.elem with
      | scalar t =>
        obtain ⟨n, b⟩ := t
        cases b with
        | int k =>
          cases k with
          | int => exact absurd ⟨n, Or.inl he⟩ hu
          | uint => exact absurd ⟨n, Or.inr he⟩ hu
          | _ => rfl
        | _ => rfl
      | _ => rfl
    rw [asSliceValueOn_sized hb hc hu, elemTypeOn, hg]
    cases ht : elemType cell.elem with
    | some t =>
      obtain ⟨mem', c', h⟩ := (asSliceValue_isSome mem (.slice c) m t).mp ⟨c, cell, rfl, hc, ht⟩
      rw [h]
      rfl
    | none =>
      cases h : asSliceValue mem (.slice c) m with
      | none => rfl
      | some r =>
        obtain ⟨mem', c', t⟩ := r
        obtain ⟨c0, cell0, h1, h2, h3⟩ := (asSliceValue_isSome mem (.slice c) m t).mpr ⟨mem', c', h⟩
        cases h1
        rw [hc] at h2
        cases h2
        rw [ht] at h3
        cases h3

end Tricorder
