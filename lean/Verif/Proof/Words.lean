import Verif.Spec.Words
import Mathlib.Tactic.Common
/-! # Reading word by word -/

namespace Tricorder.Words

/-- memory at the end -/
def after (m : Mem) : List Ev → Mem
  | [] => m
  | .load _ _ :: tr => after m tr
  | .store a x :: tr => after (m.set a x) tr

theorem mems_self (m : Mem) (tr : List Ev) : m ∈ mems m tr := by
  rcases tr with _ | ⟨_ | _, _⟩ <;> simp [mems]

theorem mems_after (m : Mem) (t1 t2 : List Ev) : ∀ mm ∈ mems (after m t1) t2, mm ∈ mems m (t1 ++ t2) := by
  induction t1 generalizing m with
  | nil => exact fun mm h => h
  | cons e t1 ih => cases e <;> exact fun mm h => List.mem_cons_of_mem _ (ih _ mm h)

theorem mems_left (m : Mem) (t1 t2 : List Ev) : ∀ mm ∈ mems m t1, mm ∈ mems m (t1 ++ t2) := by
  induction t1 generalizing m with
  | nil =>
    intro mm h
    rw [List.mem_singleton.1 h]
    exact mems_self _ _
  | cons e t1 ih =>
    intro mm h
    cases e <;> rcases List.mem_cons.1 h with rfl | h
    · exact List.mem_cons_self
    · exact List.mem_cons_of_mem _ (ih _ mm h)
    · exact List.mem_cons_self
    · exact List.mem_cons_of_mem _ (ih _ mm h)

/-- a word is as in the beginning, or as stored since -/
theorem mems_word (m : Mem) (tr : List Ev) (a : ℕ) : ∀ mm ∈ mems m tr, mm a = m a ∨ (a, mm a) ∈ stores tr := by
  induction tr generalizing m with
  | nil => intro mm h; rw [List.mem_singleton.1 h]; exact .inl rfl
  | cons e tr ih =>
    intro mm h
    cases e with
    | load b x =>
      rcases List.mem_cons.1 h with rfl | h
      · exact .inl rfl
      · exact ih _ mm h
    | store b x =>
      rcases List.mem_cons.1 h with rfl | h
      · exact .inl rfl
      · rcases ih _ mm h with h | h
        · rw [h]
          by_cases hb : a = b
          · subst hb; right; simp [Mem.set, stores]
          · left; simp [Mem.set, hb]
        · exact .inr (List.mem_cons_of_mem _ h)

theorem stores_append (t1 t2 : List Ev) : stores (t1 ++ t2) = stores t1 ++ stores t2 := by
  induction t1 with
  | nil => rfl
  | cons e t1 ih => cases e <;> simp [stores, ih]

theorem mem_stores {tr : List Ev} {x : ℕ × ℕ} : x ∈ stores tr ↔ Ev.store x.1 x.2 ∈ tr := by
  induction tr with
  | nil => simp [stores]
  | cons e tr ih =>
    cases e with
    | load => simp [stores, ih]
    | store a v => simp [stores, ih, Prod.ext_iff]

theorem run_ret {α : Type} {m m' : Mem} {x r : α} {tr : List Ev} (h : Run m (.ret x) tr m' r) : r = x := by
  generalize hp : Rd.ret x = p at h
  induction h with
  | ret m y => cases hp; rfl
  | load => cases hp
  | store _ _ _ ih => exact ih hp

theorem run_load {α : Type} {m m' : Mem} {a : ℕ} {k : ℕ → Rd α} {tr : List Ev} {r : α} (h : Run m (.load a k) tr m' r) :
    ∃ t1 t2 x, tr = t1 ++ .load a x :: t2 ∧ x = after m t1 a ∧ Run (after m t1) (k x) t2 m' r := by
  generalize hp : Rd.load a k = p at h
  induction h with
  | ret => cases hp
  | @load m a' k' tr m' x h _ => cases hp; exact ⟨[], tr, m a, rfl, rfl, h⟩
  | store b v _ ih =>
    obtain ⟨t1, t2, x, rfl, h2, h3⟩ := ih hp
    exact ⟨.store b v :: t1, t2, x, rfl, h2, h3⟩

/-- copying: each word is what it was at some time -/
theorem run_copy {α : Type} {b : ℕ} {ord : List ℕ} {k : List (ℕ × ℕ) → Rd α} {m m' : Mem} {tr : List Ev} {r : α}
    (h : Run m (copy b ord k) tr m' r) : ∃ t1 t2 l, tr = t1 ++ t2 ∧ l.map Prod.fst = ord ∧
      (∀ i x, (i, x) ∈ l → ∃ mm ∈ mems m t1, x = mm (b + i)) ∧ Run (after m t1) (k l) t2 m' r := by
  induction ord generalizing m tr k with
  | nil => exact ⟨[], tr, [], rfl, rfl, by simp, h⟩
  | cons i ord ih =>
    obtain ⟨t1, t2, x, rfl, h2, h3⟩ := run_load h
    obtain ⟨t3, t4, l, rfl, h4, h5, h6⟩ := ih h3
    have ha : after m (t1 ++ .load (b + i) x :: t3) = after (after m t1) t3 := by
      clear h h2 h3 ih h5 h6
      induction t1 generalizing m with
      | nil => rfl
      | cons e t1 ih => cases e <;> exact ih
    refine ⟨t1 ++ .load (b + i) x :: t3, t4, (i, x) :: l, by simp, by simp [h4], fun j y hj => ?_, ha ▸ h6⟩
    rcases List.mem_cons.1 hj with hj | hj
    · cases hj
      exact ⟨after m t1, mems_after _ _ _ _ (mems_self _ _), h2⟩
    · obtain ⟨mm, h7, h8⟩ := h5 j y hj
      exact ⟨mm, mems_after _ _ _ _ (List.mem_cons_of_mem _ h7), h8⟩

/-- nobody stores into the value: it is read as a whole -/
theorem copy_quiet {b n : ℕ} {ord : List ℕ} {α : Type} {k : List (ℕ × ℕ) → α} {m m' : Mem} {tr : List Ev} {r : α} (ho : ord.Perm (List.range n))
    (hq : ∀ c x, .store c x ∈ tr → c < b ∨ b + n ≤ c)
    (h : Run m (copy b ord fun l => .ret (k l)) tr m' r) : ∃ l, r = k l ∧ Got l (valueAt m b n) := by
  obtain ⟨t1, t2, l, rfl, h1, h2, h3⟩ := run_copy h
  refine ⟨l, run_ret h3, by simpa [valueAt, h1] using ho, fun i x hi => ?_⟩
  have hlt : i < n := List.mem_range.1 (ho.subset (h1 ▸ List.mem_map.2 ⟨_, hi, rfl⟩))
  obtain ⟨mm, h4, rfl⟩ := h2 i x hi
  have : mm (b + i) = m (b + i) := by
    rcases mems_word m t1 (b + i) mm h4 with h | h
    · exact h
    · have := hq _ _ (List.mem_append_left _ (mem_stores.1 h))
      dsimp only at this
      omega
  simp [valueAt, hlt, this]

/-- one word -/
theorem assignSafe_one : AssignSafe 1 := by
  intro m m' a ord vs tr r ho ha h
  obtain rfl : ord = [0] := by simpa using ho
  obtain ⟨t1, t2, l, rfl, h1, h2, h3⟩ := run_copy h
  obtain rfl := run_ret h3
  obtain ⟨⟨i, x⟩, rfl, rfl⟩ := List.map_eq_singleton_iff.1 h1
  obtain ⟨mm, h4, h5⟩ := h2 _ x (List.mem_singleton.2 rfl)
  simp only [Nat.add_zero] at h5
  have key : ∃ v ∈ valueAt m a 1 :: vs, v = [x] := by
    rcases mems_word m t1 a mm h4 with h | h
    · exact ⟨_, List.mem_cons_self, by simp [valueAt, h5, h]⟩
    · have hm : (a, mm a) ∈ (stores (t1 ++ t2)).filter fun x => a ≤ x.1 ∧ x.1 < a + 1 := by
        rw [List.mem_filter, stores_append]
        exact ⟨List.mem_append_left _ h, by simp⟩
      have := ha.2.subset hm
      obtain ⟨l, hl, hx⟩ := List.mem_flatten.1 this
      obtain ⟨v, hv, rfl⟩ := List.mem_map.1 hl
      obtain ⟨y, rfl⟩ := List.length_eq_one_iff.1 (ha.1 v hv)
      simp [assign] at hx
      exact ⟨_, List.mem_cons_of_mem _ hv, by rw [h5, hx]⟩
  obtain ⟨v, hv, rfl⟩ := key
  refine ⟨_, hv, by simp, fun j y hj => ?_⟩
  cases List.mem_singleton.1 hj
  simp

theorem assignSafe_zero : AssignSafe 0 := by
  intro m m' a ord vs tr r ho ha h
  obtain rfl : ord = [] := by simpa using ho
  obtain rfl := run_ret h
  exact ⟨_, List.mem_cons_self, by simp [valueAt, Got]⟩

/-- copying without disturbance -/
theorem run_copy_intro {α : Type} {b : ℕ} {ord : List ℕ} {m : Mem} (k : List (ℕ × ℕ) → α) :
    ∃ tr, stores tr = [] ∧ Run m (copy b ord fun l => .ret (k l)) tr m (k (ord.map fun i => (i, m (b + i)))) := by
  induction ord generalizing k with
  | nil => exact ⟨[], rfl, .ret _ _⟩
  | cons i ord ih =>
    obtain ⟨tr, h1, h2⟩ := ih fun l => k ((i, m (b + i)) :: l)
    exact ⟨.load (b + i) (m (b + i)) :: tr, h1, .load h2⟩

theorem not_assignSafe {n : ℕ} (hn : 2 ≤ n) : ¬ AssignSafe n := by
  intro h
  obtain ⟨tr, h1, h2⟩ := run_copy_intro (b := 0) (ord := List.range n) (m := Mem.set (fun _ => 0) 0 1) (id : List (ℕ × ℕ) → List (ℕ × ℕ))
  have ha : Assigns 0 n [List.replicate n 1] (.store 0 1 :: tr) := by
    refine ⟨by simp, ?_⟩
    obtain ⟨k, rfl⟩ : ∃ k, n = k + 1 := ⟨n - 1, by omega⟩
    simp [stores, h1, assign, List.replicate_succ]
  obtain ⟨v, hv, hg⟩ := h _ _ 0 (List.range n) _ _ _ (List.Perm.refl _) ha (.store 0 1 h2)
  have g0 := hg.2 0 1 (by simp [Mem.set]; omega)
  have g1 := hg.2 1 0 (by simp [Mem.set]; omega)
  rcases List.mem_cons.1 hv with rfl | hv
  · simp [valueAt, show 0 < n by omega] at g0
  · rw [List.mem_singleton.1 hv] at g1
    simp [List.getElem?_replicate, show 1 < n by omega] at g1

theorem timePtr_whole {a : ℕ} {ord : List ℕ} {m m' : Mem} {tr : List Ev} {r : Option (List (ℕ × ℕ))} (ho : ord.Perm (List.range timeWords))
    (hd : NotInPlace a m tr) (h : Run m (readTimePtr a ord) tr m' r) :
    ∃ mm ∈ mems m tr, mm a = 0 ∧ r = none ∨ mm a ≠ 0 ∧ ∃ l, r = some l ∧ Got l (valueAt mm (mm a) timeWords) := by
  obtain ⟨t1, t2, p, rfl, h1, h2⟩ := run_load h
  refine ⟨after m t1, mems_after _ _ _ _ (mems_self _ _), ?_⟩
  by_cases hp : p = 0
  · simp only [hp, if_true] at h2
    exact .inl ⟨by rw [← h1, hp], run_ret h2⟩
  · simp only [hp, if_false] at h2
    refine .inr ⟨by rwa [← h1], ?_⟩
    rw [← h1]
    refine copy_quiet (k := some) ho (fun c x hc => ?_) h2
    obtain ⟨t3, t4, rfl⟩ := List.append_of_mem hc
    have := hd (t1 ++ .load a p :: t3) c x t4 (by simp) (after m t1) (mems_after _ _ _ _ (mems_self _ _)) (by rwa [← h1])
    rwa [← h1] at this

end Tricorder.Words
