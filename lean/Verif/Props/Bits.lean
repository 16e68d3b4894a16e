import Verif.Proof.Bits
/-!
# C102: `int` and `uint` have the size of the machine

On a machine where `int` has 32 bits, an `int` is registered, read and listed like an `int32`, and a `uint` like a
`uint32`; on one where it has 64 bits, like an `int64` and a `uint64`, and the functions are those of the rest of the
model.
-/

namespace Tricorder
open Go Spec

variable {bits : ℕ}

/-- with 64 bits, registering, making a list and changing a list are what the other properties are about -/
theorem C102_model :
    (∀ fnTy spec region unit, newValueOn 64 fnTy spec region unit = newValue fnTy spec region unit) ∧
    ∀ s : State, (∀ c ∈ s.mem, CellOn 64 c) → ∀ a m ts,
      s.newListOn 64 a m ts = s.newList a m ts ∧ ∀ i, s.changeListOn 64 i a m ts = s.changeList i a m ts := by
  constructor
  · intro fnTy spec region unit
    cases spec with
    | flag g b => cases b <;> simp only [newValueOn, newValue, flagValueOn, flagValue, getPrimitiveTypeOn_64] <;> rfl
    | func n f => simp only [newValueOn, newValue, getPrimitiveTypeOn_64]; rfl
    | ptr v => simp only [newValueOn, newValue, getPrimitiveTypeOn_64]; rfl
    | _ => rfl
  · intro s hs a m ts
    simp only [State.newListOn, State.newList, State.changeListOn, State.changeList, asSliceValueOn_64 hs]
    exact ⟨rfl, fun _ => rfl⟩

/-- Registering gives the metric that the same registration gives with sized types: a pointer to a variable, a function
and a flag. -/
theorem C102_register (hb : bits = 32 ∨ bits = 64) (w w' : World) (s s' : State) (fnTy : ℕ → GoTy) (region : Option ℕ) (unit : MUnit) :
    (∀ v d, s.vars[v]? = some d → s'.vars[v]? = some (sizedDyn bits d) →
      ((newValueOn bits fnTy (.ptr v) region unit).run w s).2 = ((newValue fnTy (.ptr v) region unit).run w' s').2) ∧
    (∀ n f, ((newValueOn bits fnTy (.func n f) region unit).run w s).2 =
      ((newValue (fun f => sizedGo bits (fnTy f)) (.func n f) region unit).run w' s').2) ∧
    (∀ g d, w.flagGet s g = some d → w'.flagGet s' g = some (sizedDyn bits d) →
      ((newValueOn bits fnTy (.flag g true) region unit).run w s).2 = ((newValue fnTy (.flag g true) region unit).run w' s').2) := by
  refine ⟨fun v d hd hd' => ?_, fun n f => ?_, fun g d hd hd' => ?_⟩
  · have ht := sizedDyn_ty bits d
    simp only [newValueOn, newValue, Prog.run, exec, hd, hd', ht]
    cases d.ty with
    | none => rfl
    | some g =>
      simp only [Option.map_some, getPrimitiveTypeOn_sized hb]
      rcases getPrimitiveType (sizedGo bits g) with _ | ⟨t, p⟩ <;> rfl
  · simp only [newValueOn, newValue, getPrimitiveTypeOn_sized hb]
    split
    · rfl
    · rcases getPrimitiveType (sizedGo bits (fnTy f)) with _ | ⟨t, p⟩ <;> rfl
  · have ht := sizedDyn_ty bits d
    simp only [newValueOn, newValue, Prog.run, exec, hd, hd', flagValueOn, flagValue, ht]
    cases d.ty with
    | none => rfl
    | some g =>
      simp only [Option.map_some, getPrimitiveTypeOn_sized hb]
      rcases getPrimitiveType (sizedGo bits g) with _ | ⟨t, p⟩ <;> rfl

/-- Reading a value of the type that was registered gives, in messages, in the text and on the page, what reading the
same value with a sized type gives. -/
theorem C102_read (hb : bits = 32 ∨ bits = 64) {d : Dyn} {g : GoTy} {t : Ty} {p : Bool} (hd : d.ty = some g)
    (ht : metricType (sizedGo bits g) = some (t, p)) (fm : Fmts) (u : MUnit) :
    valueToInterface d t p = valueToInterface (sizedDyn bits d) t p ∧
    valueToTextString fm d t u p = valueToTextString fm (sizedDyn bits d) t u p ∧
    valueToHtmlString fm d t u p = valueToHtmlString fm (sizedDyn bits d) t u p := read_sized hb hd ht fm u

/-- A number of type `int` or `uint` is reported with its value, as a number of the sized type, of which `Bits` is the
size of the machine, and the text is its decimal notation. -/
theorem C102_number (hb : bits = 32 ∨ bits = 64) {n : Option ℕ} {k : IntKind} (hk : k = .int ∨ k = .uint) {x : ℤ}
    (hx : OnMachine bits (.int k x)) {t : Ty} {p : Bool} (ht : getPrimitiveTypeOn bits (.scalar ⟨n, .int k⟩) = some (t, p))
    (fm : Fmts) (u : MUnit) :
    valueToInterface (.scalar n (.int k x)) t p = some (.scalar none (.int (sizedKind bits k) x)) ∧
    t.bits = bits ∧ bitsOf t = bits ∧ valueToTextString fm (.scalar n (.int k x)) t u p = some (fmtInt x) := by
  rw [getPrimitiveTypeOn_sized hb, ← metricType_eq] at ht
  obtain ⟨rfl, ⟨rfl, h⟩ | ⟨rfl, h⟩⟩ := unsized_type hb hk ht
  · rcases h with ⟨rfl, rfl⟩ | ⟨rfl, rfl⟩ <;>
      simp [OnMachine, sizedBase, sizedKind, Base.Valid, IntKind.InRange, IntKind.signed, IntKind.bits] at hx <;>
      simp [valueToInterface, valueToTextString, Ty.isInt, Ty.bits, bitsOf, Dyn.int, IntKind.signed, sizedKind]
    · exact i32_eq ⟨by omega, by omega⟩
    · exact i64_eq ⟨by omega, by omega⟩
  · have hf : fmtNat x.toNat = fmtInt x := by
      have : 0 ≤ x := by
        rcases hb with rfl | rfl <;>
          simp [OnMachine, sizedBase, sizedKind, Base.Valid, IntKind.InRange, IntKind.signed, IntKind.bits] at hx <;> omega
      obtain ⟨n, rfl⟩ := Int.eq_ofNat_of_zero_le this
      simp [fmtInt]
    rcases h with ⟨rfl, rfl⟩ | ⟨rfl, rfl⟩ <;>
      simp [OnMachine, sizedBase, sizedKind, Base.Valid, IntKind.InRange, IntKind.signed, IntKind.bits] at hx <;>
      simp [valueToInterface, valueToTextString, Ty.isInt, Ty.isUint, Ty.bits, bitsOf, Dyn.uint, IntKind.signed, sizedKind, hf]
    · omega
    · unfold u64; omega

/-- A list of a slice of `int` or `uint` holds a copy, even of a slice that is said to be immutable: the same numbers, of
the sized type.  Slices of other types are treated as on every machine. -/
theorem C102_list (hb : bits = 32 ∨ bits = 64) {s : State} {c : ℕ} {cell : Cell} (hc : s.mem[c]? = some cell) (hm : CellOn bits cell)
    (m : Bool) (ts : Time) :
    (¬ Unsized cell → s.newListOn bits (.slice c) m ts = s.newList (.slice c) m ts) ∧
    ∀ n k, (k = .int ∨ k = .uint) → cell.elem = .scalar ⟨n, .int k⟩ → ∃ t, elemTypeOn bits cell = some t ∧
      listView (s.newListOn bits (.slice c) m ts).1 s.lists.length =
        some ⟨.slice none ⟨none, .int (sizedKind bits k)⟩ (some ((cell.data.getD []).map (sizedBase bits))), ts, s.nextId, t⟩ ∧
      ∀ j b, listView { (s.newListOn bits (.slice c) m ts).1 with
          mem := (s.newListOn bits (.slice c) m ts).1.mem.modify c fun x => writeCell x j b } s.lists.length =
        listView (s.newListOn bits (.slice c) m ts).1 s.lists.length := by
  constructor
  · intro hu
    simp only [State.newListOn, State.newList, asSliceValueOn_sized hb hc hu]
    rfl
  · intro n k hk he
    obtain ⟨t, ht⟩ : ∃ t, elemTypeOn bits cell = some t := by
      unfold elemTypeOn
      rw [he]
      rcases hb with rfl | rfl <;> rcases hk with rfl | rfl <;> cases n <;> exact ⟨_, rfl⟩
    have hl : c < s.mem.length := (List.getElem?_eq_some_iff.mp hc).1
    refine ⟨t, ht, ?_, fun j b => ?_⟩
    · simp [State.newListOn, asSliceValueOn_unsized hb hc he hk hm m ht, listView, Cell.val]
    · simp [State.newListOn, asSliceValueOn_unsized hb hc he hk hm m ht, listView, show c ≠ s.mem.length by omega]

/-- A list accepts exactly the slices whose elements have, with sized types, its element type: a list of `int` accepts
slices of `int32` on a machine of 32 bits and slices of `int64` on one of 64 bits. -/
theorem C102_change (hb : bits = 32 ∨ bits = 64) {s : State} {c c' i : ℕ} {cell cell' : Cell} (hc : s.mem[c]? = some cell)
    (hc' : s.mem[c']? = some cell') (hm : CellOn bits cell) (hm' : CellOn bits cell') {m m' : Bool} {ts ts' : Time}
    (hn : (s.newListOn bits (.slice c) m ts).2 = some i) :
    ((s.newListOn bits (.slice c) m ts).1.changeListOn bits i (.slice c') m' ts').2 = true ↔ elemTypeOn bits cell' = elemTypeOn bits cell := by
  have h1 := asSliceValueOn_type hb hc hm m
  cases h : asSliceValueOn bits s.mem (.slice c) m with
  | none => simp [State.newListOn, h] at hn
  | some r =>
    obtain ⟨mem, c1, t⟩ := r
    simp only [State.newListOn, h, Option.some.injEq] at hn
    subst hn
    rw [h] at h1
    have hmem : mem[c']? = some cell' := by
      by_cases hu : Unsized cell
      · obtain ⟨n, he⟩ := hu
        obtain ⟨k, hk, he⟩ : ∃ k, (k = .int ∨ k = .uint) ∧ cell.elem = .scalar ⟨n, .int k⟩ := by
          rcases he with he | he
          · exact ⟨_, Or.inl rfl, he⟩
          · exact ⟨_, Or.inr rfl, he⟩
        have ht : elemTypeOn bits cell = some t := h1.symm
        rw [asSliceValueOn_unsized hb hc he hk hm m ht] at h
        cases h
        exact prefix_get (List.prefix_append _ _) hc'
      · rw [asSliceValueOn_sized hb hc hu] at h
        exact prefix_get (asSliceValue_mem h) hc'
    have h2 := asSliceValueOn_type hb hmem hm' m'
    simp only [State.newListOn, h, State.changeListOn, List.getElem?_concat_length]
    rw [← h1, ← h2]
    cases h' : asSliceValueOn bits mem (.slice c') m' with
    | none => simp
    | some r' =>
      obtain ⟨mem', c2, t'⟩ := r'
      simp only [Option.map_some, Option.some.injEq]
      by_cases he : t' = t
      · simp [he]
      · simp [he]

/-- With any other size, an `int` or a `uint` cannot be reported: registering a variable or a function is an error,
making a list panics, and a flag is reported as a string. -/
theorem C102_other (hb : bits ≠ 32 ∧ bits ≠ 64) (w : World) (s : State) (fnTy : ℕ → GoTy) (region : Option ℕ) (unit : MUnit)
    {n : Option ℕ} {k : IntKind} (hk : k = .int ∨ k = .uint) :
    (∀ v x, s.vars[v]? = some (.scalar n (.int k x)) →
      (newValueOn bits fnTy (.ptr v) region unit).run w s = (s, .ok (.error .wrongType))) ∧
    (∀ f, fnTy f = .scalar ⟨n, .int k⟩ → (newValueOn bits fnTy (.func 1 f) region unit).run w s = (s, .ok (.error .wrongType))) ∧
    (∀ g x, w.flagGet s g = some (.scalar n (.int k x)) → (newValueOn bits fnTy (.flag g true) region unit).run w s =
      (s, .ok (.ok ⟨some (.flagString g), region, none, none, .string, false, unit⟩))) ∧
    ∀ c cell m ts, s.mem[c]? = some cell → cell.elem = .scalar ⟨n, .int k⟩ → s.newListOn bits (.slice c) m ts = (s, none) := by
  have hn : getPrimitiveTypeOn bits (.scalar ⟨n, .int k⟩) = none := by
    rcases hk with rfl | rfl <;> cases n <;> simp [getPrimitiveTypeOn, kindTypeOn, hb.1, hb.2]
  refine ⟨fun v x h => ?_, fun f h => ?_, fun g x h => ?_, fun c cell m ts h1 h2 => ?_⟩
  · simp [newValueOn, Prog.run, exec, h, Dyn.ty, Base.ty, hn]
  · simp [newValueOn, Prog.run, h, hn]
  · simp [newValueOn, Prog.run, exec, h, flagValueOn, Dyn.ty, Base.ty, hn]
  · simp [State.newListOn, asSliceValueOn, h1, h2, hn]

/-- a slice of `int`, one of `int32` and one of `int64` -/
def exBits : State :=
  { State.init with
    vars := [.scalar none (.int .int (-7))]
    mem := [⟨some 3, .scalar ⟨none, .int .int⟩, some [.int .int 5, .int .int (-2147483648)], false⟩,
      ⟨none, .scalar ⟨none, .int .int32⟩, some [.int .int32 6], false⟩,
      ⟨none, .scalar ⟨none, .int .int64⟩, none, false⟩] }

example (ts : Time) :
    (∀ c ∈ exBits.mem, CellOn 32 c) ∧ (∀ c ∈ exBits.mem, CellOn 64 c) ∧
    (exBits.newListOn 32 (.slice 0) false ts).2 = some 0 ∧
    ((exBits.newListOn 32 (.slice 0) false ts).1.changeListOn 32 0 (.slice 1) false ts).2 = true ∧
    ((exBits.newListOn 32 (.slice 0) false ts).1.changeListOn 32 0 (.slice 2) false ts).2 = false ∧
    ((exBits.newListOn 64 (.slice 0) false ts).1.changeListOn 64 0 (.slice 1) false ts).2 = false ∧
    ((exBits.newListOn 64 (.slice 0) false ts).1.changeListOn 64 0 (.slice 2) false ts).2 = true ∧
    listView (exBits.newListOn 32 (.slice 0) false ts).1 0 =
      some ⟨.slice none ⟨none, .int .int32⟩ (some [.int .int32 5, .int .int32 (-2147483648)]), ts, 1, .int32⟩ := by
  refine ⟨?_, ?_, rfl, rfl, rfl, rfl, rfl, rfl⟩
  all_goals
    intro c hc
    simp only [exBits, List.mem_cons, List.not_mem_nil, or_false] at hc
    rcases hc with rfl | rfl | rfl
    all_goals
      refine ⟨_, rfl, fun b hb => ?_⟩
      simp only [Option.getD_some, Option.getD_none, List.mem_cons, List.not_mem_nil, or_false] at hb
    · rcases hb with rfl | rfl <;> exact ⟨rfl, by simp [OnMachine, sizedBase, sizedKind, Base.Valid, IntKind.InRange, IntKind.signed, IntKind.bits]⟩
    · subst hb; exact ⟨rfl, by simp [OnMachine, sizedBase, sizedKind, Base.Valid, IntKind.InRange, IntKind.signed, IntKind.bits]⟩

end Tricorder
