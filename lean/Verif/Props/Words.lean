import Verif.Proof.Words
import Verif.Props.Whole
/-!
# Changing registered variables while they are read (C87)
-/

namespace Tricorder.Words

/-- **C87** Exactly the values of at most one word may be assigned to while they are read. -/
theorem C87_words (n : ℕ) : AssignSafe n ↔ n ≤ 1 := by
  refine ⟨fun h => ?_, fun h => ?_⟩
  · by_contra hn
    exact not_assignSafe (by omega) h
  · rcases (by omega : n = 0 ∨ n = 1) with rfl | rfl
    · exact assignSafe_zero
    · exact assignSafe_one

/-- **C87** Of the variables that can be registered, exactly strings and times (not pointers to times) may not be assigned to while they
are read. -/
theorem C87_types (t : Ty) (isPtr : Bool) : AssignSafe (varWords t isPtr) ↔ t ≠ .string ∧ ¬ (t = .goTime ∧ isPtr = false) := by
  rw [C87_words]
  cases t <;> cases isPtr <;> simp [varWords, timeWords]

/-- **C87** (doc: "change the pointer to point to a different time value rather than changing the existing time in place. This makes
the update atomic.") Whatever is stored in the pointer and elsewhere meanwhile: the reader gets, in one piece, the time that the pointer
pointed to at one moment, or the zero time if it was nil. -/
theorem C87_time_pointer (m m' : Mem) (a : ℕ) (ord : List ℕ) (tr : List Ev) (r : Option (List (ℕ × ℕ)))
    (ho : ord.Perm (List.range timeWords)) (hd : NotInPlace a m tr) (h : Run m (readVar .goTime true a ord) tr m' r) :
    ∃ mm ∈ mems m tr, mm a = 0 ∧ r = none ∨ mm a ≠ 0 ∧ ∃ l, r = some l ∧ Got l (valueAt mm (mm a) timeWords) :=
  timePtr_whole ho hd (by simpa [readVar] using h)

/-- **C87** Changing the time in place instead: the reader may get a time that there never was. -/
theorem C87_in_place_false : ∃ (m m' : Mem) (tr : List Ev) (l : List (ℕ × ℕ)), Run m (readVar .goTime true 0 [0, 1, 2]) tr m' (some l) ∧
    stores tr = assign 10 [1, 1, 1] ∧ m 0 = 10 ∧ valueAt m 10 3 = [0, 0, 0] ∧ ¬ Got l [0, 0, 0] ∧ ¬ Got l [1, 1, 1] := by
  let m : Mem := fun b => if b = 0 then 10 else 0
  have r : Run m (readVar .goTime true 0 [0, 1, 2]) _ _ (some [(0, 0), (1, 1), (2, 1)]) := .load (.load (.store 10 1 (.store 11 1 (.store 12 1 (.load (.load (.ret _ _)))))))
  refine ⟨m, _, _, _, r, rfl, rfl, rfl, fun h => ?_, fun h => ?_⟩
  · have := h.2 1 1 (by simp)
    simp at this
  · have := h.2 0 0 (by simp)
    simp at this

/-- **C87** While nobody stores into a variable it is read as a whole, however many words it has. -/
theorem C87_undisturbed (m m' : Mem) (t : Ty) (a : ℕ) (ord : List ℕ) (tr : List Ev) (r : Option (List (ℕ × ℕ)))
    (ho : ord.Perm (List.range (varWords t false))) (hq : ∀ c x, .store c x ∈ tr → c < a ∨ a + varWords t false ≤ c)
    (h : Run m (readVar t false a ord) tr m' r) : ∃ l, r = some l ∧ Got l (valueAt m a (varWords t false)) :=
  copy_quiet (k := some) ho hq (by simpa [readVar] using h)

/-! ### Examples -/

/-- `C87_words`, `C87_types`: an integer is assigned to twice, once before and once after it is read; other words change as well -/
example : ∃ (m m' : Mem) (tr : List Ev) (r : List (ℕ × ℕ)), Assigns 5 1 [[7], [8]] tr ∧ Run m (copy 5 [0] fun l => Rd.ret l) tr m' r ∧
    stores tr = [(5, 7), (6, 1), (5, 8)] ∧ r = [(0, 7)] :=
  ⟨fun _ => 0, _, _, _, ⟨by decide, by decide⟩, .store 5 7 (.store 6 1 (.load (.store 5 8 (.ret _ _)))), rfl, rfl⟩

example : AssignSafe (varWords .int64 false) ∧ ¬ AssignSafe (varWords .string false) ∧ ¬ AssignSafe (varWords .goTime false) ∧
    AssignSafe (varWords .goTime true) := by simp [C87_types]

/-- `C87_time_pointer`: the pointer is changed from one time to another after it has been loaded; the reader gets the first time -/
example : ∃ (m m' : Mem) (tr : List Ev) (r : Option (List (ℕ × ℕ))), NotInPlace 0 m tr ∧ Run m (readVar .goTime true 0 [2, 0, 1]) tr m' r ∧
    stores tr = assign 20 [4, 5, 6] ++ [(0, 20)] ∧ r = some [(2, 3), (0, 1), (1, 2)] := by
  let m : Mem := fun b => if b = 0 then 10 else if b = 10 then 1 else if b = 11 then 2 else if b = 12 then 3 else 0
  have h : Run m (readVar .goTime true 0 [2, 0, 1]) _ _ (some [(2, 3), (0, 1), (1, 2)]) :=
    .load (.load (.store 20 4 (.store 21 5 (.store 22 6 (.store 0 20 (.load (.load (.ret _ _))))))))
  refine ⟨m, _, _, _, ?_, h, rfl, rfl⟩
  intro t1 b x t2 ht mm hmm _
  have hm : ∀ mm ∈ mems m [.load 0 10, .load 12 3, .store 20 4, .store 21 5, .store 22 6], mm 0 = 10 := by
    simp [mems, Mem.set, m]
  have ht' : [.load 0 10, .load 12 3, .store 20 4, .store 21 5, .store 22 6, .store 0 20, .load 10 1, .load 11 2] = t1 ++ .store b x :: t2 := ht
  have hlen := congrArg List.length ht'
  have hb : b = 20 ∨ b = 21 ∨ b = 22 ∨ b = 0 := by
    have : Ev.store b x ∈ t1 ++ .store b x :: t2 := by simp
    rw [← ht'] at this
    simp at this
    omega
  have h10 : mm 0 = 10 := by
    rcases lt_or_ge t1.length 6 with hl | hl
    · have e : t1 = [Ev.load 0 10, .load 12 3, .store 20 4, .store 21 5, .store 22 6].take t1.length := by
        have := congrArg (List.take t1.length) ht'
        rw [List.take_left] at this
        rw [← this]
        interval_cases t1.length <;> rfl
      refine hm mm ?_
      rw [← List.take_append_drop t1.length [Ev.load 0 10, .load 12 3, .store 20 4, .store 21 5, .store 22 6], ← e]
      exact mems_left _ _ _ mm hmm
    · exfalso
      have := congrArg (fun l => l[t1.length]?) ht'
      simp only [List.getElem?_append_right (le_refl _), Nat.sub_self, List.getElem?_cons_zero] at this
      simp only [List.length_cons, List.length_nil, List.length_append] at hlen
      have hl2 : t1.length = 6 ∨ t1.length = 7 := by omega
      rcases hl2 with hl2 | hl2 <;> rw [hl2] at this <;> simp at this
  rw [h10]
  simp only [timeWords]
  omega

/-- `C87_undisturbed`: a string, while another variable changes -/
example : ∃ (m m' : Mem) (tr : List Ev), (∀ c x, .store c x ∈ tr → c < 5 ∨ 5 + varWords .string false ≤ c) ∧
    Run m (readVar .string false 5 [1, 0]) tr m' (some [(1, 3), (0, 3)]) ∧ stores tr = [(8, 1)] :=
  ⟨fun _ => 3, _, [.load 6 3, .store 8 1, .load 5 3], by simp [varWords], .load (.store 8 1 (.load (.ret _ _))), rfl⟩

end Tricorder.Words

namespace Tricorder.Whole
open Go Spec

variable {A : Type} {w : World}

/-- **C87** Variables, and words of variables, that only the update function of their group changes, do not change while a request
holds the group: whatever number of them it reads, in whatever order, it gets what the last update left. -/
theorem C87_group {a b : List (Item A)} {x : Item A} {s : St A} (hr : Run w (a ++ x :: b) s) {c r cl : ℕ} {t : Time}
    (hx : x.lab = .took c r cl t) (hno : ∀ y ∈ b, y.lab ≠ .gives c r cl) (V : List ℕ)
    (ho : ∀ v ∈ V, OnlyUpdate w r (.var v) b) : ∀ it ∈ b, ∀ v ∈ V, it.pre.vars[v]? = x.post.vars[v]? := by
  intro it hit v hv
  obtain ⟨b1, b2, rfl⟩ := List.append_of_mem hit
  have hq := (hr.held hx hno).2
  exact (hr.unchanged (sc := .var v) rfl (fun y hy => hq y (List.mem_append_left _ hy)) fun y hy => ho v hv y (List.mem_append_left _ hy)).symm

/-! ### Example: the first request of the example of C70, until it gives the group back; meanwhile the second comes -/

def exHeld : Option (List (Item Answer) × St Answer) :=
  playW exW (exBefore ++ .spawn (listCall true 3 (lit "/")) :: gos 1 3 ++
    taking 1 0 0 [.writeVar 0 (.scalar none (.int .int64 6)), .writeVar 1 (.scalar none (.int .int64 8))] ⟨100, 0⟩ ++
    gos 1 1 ++ [.spawn (listCall true 3 (lit "/"))] ++ gos 2 3 ++ sharing 2 0 1 ++ gos 1 3) [] (start Answer)

/-- the integer that a variable holds -/
def exInt : Dyn → Option ℤ
  | .scalar none (.int .int64 i) => some i
  | _ => none

/-- the variable holds the integer `i` -/
def exHas (σ : State) (v : ℕ) (i : ℤ) : Bool := decide ((σ.vars[v]?.bind exInt) = some i)

theorem exHas_eq {σ σ' : State} {v : ℕ} {i : ℤ} (h : exHas σ v i = true) (h' : exHas σ' v i = true) : σ.vars[v]? = σ'.vars[v]? := by
  have key : ∀ o : Option Dyn, o.bind exInt = some i → o = some (.scalar none (.int .int64 i)) := by
    rintro (_ | x) hx
    · cases hx
    · simp only [Option.bind_some] at hx
      unfold exInt at hx
      split at hx
      · cases hx; rfl
      · cases hx
  rw [key _ (of_decide_eq_true h), key _ (of_decide_eq_true h')]

theorem exHeld_checks : exHeld.map (fun x => x.1[19]?.map exKind = some (.took 1 0 0) ∧ x.1.length = 34 ∧
    ((x.1.drop 20).all fun it => exKind it ≠ .gives 1 0 0 ∧ exHas it.pre 0 6 ∧ exHas it.post 0 6 ∧ exHas it.pre 1 8 ∧ exHas it.post 1 8)
    : _ → Bool) = some true := by
  decide +kernel

example : ∃ (a b : List (Item Answer)) (x : Item Answer) (s : St Answer) (t : Time), Run exW (a ++ x :: b) s ∧
    x.lab = .took 1 0 0 t ∧ (∀ y ∈ b, y.lab ≠ .gives 1 0 0) ∧ b.length = 14 ∧ ∀ v ∈ [0, 1], OnlyUpdate exW 0 (.var v) b := by
  have h := exHeld_checks
  obtain ⟨⟨tr, s⟩, he⟩ : ∃ x, exHeld = some x := by
    cases hp : exHeld with
    | none => rw [hp] at h; cases h
    | some x => exact ⟨x, rfl⟩
  rw [he] at h
  simp only [Option.map_some, Option.some.injEq, decide_eq_true_eq, List.all_eq_true] at h
  obtain ⟨h1, h2, h3⟩ := h
  obtain ⟨x, hx, kx⟩ := Option.map_eq_some_iff.mp h1
  obtain ⟨t, lx⟩ := exKind_took kx
  refine ⟨tr.take 19, tr.drop 20, x, s, t, ?_, lx, fun y hy hl => ?_, by simp [h2], fun v hv it hit _ => ?_⟩
  · rw [← cut hx]
    exact playW_run .nil he
  · exact (h3 y hy).1 (by simp only [exKind, hl])
  · obtain ⟨-, e1, e2, e3, e4⟩ := h3 it hit
    simp only [List.mem_cons, List.not_mem_nil, or_false] at hv
    rcases hv with rfl | rfl
    · exact exHas_eq e2 e1
    · exact exHas_eq e4 e3

end Tricorder.Whole
