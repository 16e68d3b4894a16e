import Verif.Proof.Joint
import Verif.Proof.Kinds
/-!
# Several goroutines that register at the same time: joint runs
-/

namespace Tricorder
open Go Spec Tree

variable {w : World} {α β ι : Type} [DecidableEq ι]

/-! ### a joint run is a run of each program -/

/-- the step is possible in states with `n` directories -/
def OkN (n : ℕ) : Cmd → Prop
  | .createDir d name => d < n ∧ (47 : UInt8) ∉ name ∧ trimSpace name ≠ []
  | .storeMetric d name _ _ => d < n ∧ (47 : UInt8) ∉ name ∧ trimSpace name ≠ []
  | _ => True

/-- a directory that the step returned is one of `m` -/
def NewIn : (c : Cmd) → c.Resp → ℕ → Prop
  | .createDir _ _, r, m => ∀ d', r = .ok d' → d' < m
  | _, _, _ => True

/-- all steps of the program are possible if there are `n` directories now -/
def SafeP : Prog α → ℕ → Prop
  | .ret _, _ => True
  | .op c k, n => OkN n c ∧ ∀ r m, n ≤ m → NewIn c r m → SafeP (k r) m

theorem SafeP.mono {p : Prog α} {n m : ℕ} (h : SafeP p n) (hm : n ≤ m) : SafeP p m := by
  cases p with
  | ret => trivial
  | op c k =>
    refine ⟨?_, fun r m' hm' hn => h.2 r m' (by omega) hn⟩
    have := h.1
    cases c <;> first | trivial | exact ⟨by have := this.1; omega, this.2⟩

theorem SafeP_bind {p : Prog α} {f : α → Prog β} {n : ℕ} (hp : SafeP p n)
    (hf : ∀ a m, n ≤ m → SafeP (f a) m) : SafeP (p.bind f) n := by
  induction p generalizing n with
  | ret a => exact hf a n le_rfl
  | op c k ih => exact ⟨hp.1, fun r m hm hn => ih r (hp.2 r m hm hn) fun a m' hm' => hf a m' (by omega)⟩

theorem OkN_ok {c : Cmd} {s : State} (h : OkN s.tree.dirs.length c) : c.Ok s := by
  cases c <;> first | trivial | exact h

theorem newIn_exec {c : Cmd} {s : State} (ht : IsTree s.tree) :
    NewIn c (exec w c s).2 (exec w c s).1.tree.dirs.length := by
  cases c <;> first | trivial | exact fun d' h => createDir_handle ht h

theorem SafeP_of_not_tree {p : Prog α} (h : ProgAll (fun c => c.isTree = false) p) (n : ℕ) : SafeP p n := by
  induction p generalizing n with
  | ret => trivial
  | op c k ih =>
    refine ⟨?_, fun r m _ _ => ih r (h.2 r) m⟩
    have := h.1
    cases c <;> first | trivial | cases this

/-- `registerDirectory`, and what follows with the directory -/
theorem registerDirectory_safeP {f : Except RegErr ℕ → Prog β} {d n : ℕ} {p : List Str} (hp : ∀ x ∈ p, GoodName x)
    (hd : d < n) (he : ∀ er m, SafeP (f (.error er)) m) (ho : ∀ d' m, n ≤ m → d' < m → SafeP (f (.ok d')) m) :
    SafeP ((registerDirectory d p).bind f) n := by
  induction p generalizing d n with
  | nil => exact ho d n le_rfl hd
  | cons name p ih =>
    refine ⟨⟨hd, okName.mpr (hp name List.mem_cons_self)⟩, fun r m hm hn => ?_⟩
    cases r with
    | error er => exact he er m
    | ok d' =>
      exact ih (fun x hx => hp x (List.mem_cons_of_mem _ hx)) (hn d' rfl) fun d2 m' hm' h => ho d2 m' (by omega) h

theorem regCall_safe (c : RegCall) {n : ℕ} (hd : c.dir < n) : SafeP (c.prog w) n := by
  cases c with
  | directory d path =>
    exact registerDirectory_safeP (fun x hx => newPathSpec_comp hx) hd (fun _ _ => trivial) fun _ _ _ _ => trivial
  | metric d path spec group unit desc =>
    change SafeP (registerMetric w.fnTy d (newPathSpec path) spec group unit desc) n
    by_cases h0 : newPathSpec path = []
    · rw [h0]; trivial
    obtain ⟨e1, e2⟩ := pathDir_base h0
    unfold registerMetric
    rw [if_neg (by simpa [pathEmpty] using h0)]
    simp only [e1, e2]
    refine registerDirectory_safeP (dropLast_good fun x hx => newPathSpec_comp hx) hd (fun _ _ => trivial) ?_
    intro d' m _ hd'
    refine SafeP_bind (SafeP_of_not_tree (newValue_all _ _ _ _) m) ?_
    intro v m' hm'
    cases v with
    | panic => trivial
    | ok x =>
      cases x with
      | error => trivial
      | ok v =>
        refine ⟨⟨by omega, okName.mpr (newPathSpec_comp (List.getLast_mem h0))⟩, ?_⟩
        rintro (_ | _) _ _ _ <;> trivial

/-- takes nothing away -/
def Adds : Cmd → Prop
  | .removeEntry _ _ | .unregisterDir _ => False
  | _ => True

theorem regCall_adds (c : RegCall) : ProgAll Adds (c.prog w) := by
  have hdir : ∀ d p, ProgAll Adds (registerDirectory d p) := by
    intro d p
    induction p generalizing d with
    | nil => trivial
    | cons name p ih => exact ⟨trivial, fun r => by cases r; trivial; exact ih _⟩
  cases c with
  | directory d path => exact ProgAll_bind (hdir _ _) fun _ => trivial
  | metric d path spec group unit desc =>
    change ProgAll Adds (registerMetric w.fnTy d (newPathSpec path) spec group unit desc)
    unfold registerMetric
    split
    · trivial
    · split
      · refine ProgAll_bind (hdir _ _) ?_
        rintro (_ | cur)
        · trivial
        · refine ProgAll_bind (ProgAll_mono (fun c hc => by cases c <;> first | trivial | cases hc) (newValue_all _ _ _ _)) ?_
          rintro ((_ | v) | _)
          · trivial
          · exact ⟨trivial, fun r => by cases r <;> trivial⟩
          · trivial
      · trivial

/-- the step as seen by goroutine `i` -/
def JEv.own (i : ι) (e : JEv ι) : Ev := ⟨decide (e.who = some i), e.cmd, e.pre⟩

theorem joint_run {ps : ι → Prog β} {s s' : State} {H : List (JEv ι)} {rs : ι → β} (hj : Joint w ps s H s' rs)
    (hs : Reachable w s) (hp : ∀ i, SafeP (ps i) s.tree.dirs.length) (ha : ∀ i, ProgAll Adds (ps i)) :
    (∀ i, RunI w (ps i) s (H.map (JEv.own i)) s' (rs i)) ∧
    ∀ e ∈ H, Reachable w e.pre ∧ e.cmd.Ok e.pre ∧ (e.who ≠ none → Adds e.cmd) := by
  induction hj with
  | done h => exact ⟨fun i => by rw [h i]; exact .ret _ _, fun e he => nomatch he⟩
  | @go ps s h s' rs i c k hi hj ih =>
    have hsafe : SafeP (.op c k) s.tree.dirs.length := hi ▸ hp i
    have hadd : ProgAll Adds (.op c k) := hi ▸ ha i
    have hok := OkN_ok hsafe.1
    have hlen : s.tree.dirs.length ≤ (exec w c s).1.tree.dirs.length := (exec_ext c s).dirs
    obtain ⟨i1, i2⟩ := ih (.step c hs hok) (fun j => by
      by_cases hji : j = i
      · subst hji
        rw [Function.update_self]
        exact hsafe.2 _ _ hlen (newIn_exec (reachable_isTree hs))
      · rw [Function.update_of_ne hji]
        exact (hp j).mono hlen) (fun j => by
      by_cases hji : j = i
      · subst hji; rw [Function.update_self]; exact hadd.2 _
      · rw [Function.update_of_ne hji]; exact ha j)
    refine ⟨fun j => ?_, fun e he => ?_⟩
    · have h1 := i1 j
      by_cases hji : j = i
      · subst hji
        rw [Function.update_self] at h1
        rw [hi]
        have hown : JEv.own j ⟨some j, c, s⟩ = ⟨true, c, s⟩ := by simp [JEv.own]
        rw [List.map_cons, hown]
        exact .op h1
      · rw [Function.update_of_ne hji] at h1
        have hown : JEv.own j ⟨some i, c, s⟩ = ⟨false, c, s⟩ := by simp [JEv.own, Ne.symm hji]
        rw [List.map_cons, hown]
        exact .env c hok h1
    · rcases List.mem_cons.mp he with he | he
      · subst he; exact ⟨hs, hok, fun _ => hadd.1⟩
      · exact i2 e he
  | @other ps s h s' rs c hok hj ih =>
    have hlen : s.tree.dirs.length ≤ (exec w c s).1.tree.dirs.length := (exec_ext c s).dirs
    obtain ⟨i1, i2⟩ := ih (.step c hs hok) (fun j => (hp j).mono hlen) ha
    refine ⟨fun j => ?_, fun e he => ?_⟩
    · rw [List.map_cons, show JEv.own j ⟨none, c, s⟩ = ⟨false, c, s⟩ by simp [JEv.own]]
      exact .env c hok (i1 j)
    · rcases List.mem_cons.mp he with he | he
      · subst he; exact ⟨hs, hok, fun h => absurd rfl h⟩
      · exact i2 e he

theorem joint_acc {ps : ι → Prog β} {s s' : State} {H : List (JEv ι)} {rs : ι → β} (hj : Joint w ps s H s' rs)
    {New : List Str → Node → Prop}
    (hE : ∀ e ∈ H, ∀ q n, Reaches (exec w e.cmd e.pre).1.tree 0 q n → Reaches e.pre.tree 0 q n ∨ New q n) :
    ∀ q n, Reaches s'.tree 0 q n → Reaches s.tree 0 q n ∨ New q n := by
  induction hj with
  | done => exact fun q n h => Or.inl h
  | go i c k hi hj ih =>
    intro q n h
    rcases ih (fun e he => hE e (List.mem_cons_of_mem _ he)) q n h with h | h
    · exact hE _ List.mem_cons_self q n h
    · exact Or.inr h
  | other c hok hj ih =>
    intro q n h
    rcases ih (fun e he => hE e (List.mem_cons_of_mem _ he)) q n h with h | h
    · exact hE _ List.mem_cons_self q n h
    · exact Or.inr h

end Tricorder
