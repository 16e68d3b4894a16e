import Verif.Proof.Whole3
import Verif.Proof.ListRun2
import Verif.Spec.Embed
/-!
# The whole library: each call is a run with interference as in `Model/Sys`

`RunI` takes the answers of the groups from the `World`, as a function of the state.  To have the answers of a given run of the
whole library there, the number of answers so far is kept in the component `noise` of the state.
-/

namespace Tricorder.Whole
open Go Spec

variable {A : Type} {w : World} {tr : List (Item A)} {s s' : St A} {it : Item A} {c : ℕ}

/-! ### Runs from a state -/

inductive Path {A : Type} (w : World) : St A → List (Item A) → St A → Prop where
  | nil (s0) : Path w s0 [] s0
  | cons {s0 i s1 l s2} : Step w s0 i s1 → Path w s1 l s2 → Path w s0 (i :: l) s2

theorem Path.snoc {l : List (Item A)} {s1 : St A} (h : Path w s l s1) (hs : Step w s1 it s') : Path w s (l ++ [it]) s' := by
  induction h with
  | nil => exact .cons hs (.nil _)
  | cons h _ ih => exact .cons h (ih hs)

theorem Run.path {a b : List (Item A)} (h : Run w (a ++ b) s) : ∃ s0, Run w a s0 ∧ Path w s0 b s := by
  induction b using List.reverseRecOn generalizing s with
  | nil => exact ⟨s, by simpa using h, .nil _⟩
  | append_singleton b x ih =>
    rw [← List.append_assoc] at h
    obtain ⟨s1, h1, h2⟩ := h.snoc_inv
    obtain ⟨s0, h3, h4⟩ := ih h1
    exact ⟨s0, h3, h4.snoc h2⟩

/-! ### Coding -/

theorem uncode_code (k : ℕ) (σ : State) : uncode (code k σ) = σ := by
  simp [uncode, code]

theorem codeCmd_eq {k : ℕ} {cmd : Cmd} (h : NotTick cmd) : codeCmd k cmd = cmd := by
  cases cmd <;> first | rfl | exact absurd rfl (h _)

theorem exec_timed {T : ℕ → Time} {k : ℕ} {cmd : Cmd} {σ : State} (h : MemOnly cmd ∨ cmd = .newRegion) (hn : NotTick cmd) :
    exec (timed w T) cmd (code k σ) = (code k (exec w cmd σ).1, (exec w cmd σ).2) := by
  cases cmd with
  | rlock r => rcases h with h | h <;> cases h
  | runlock r => rcases h with h | h <;> cases h
  | tick n => exact absurd rfl (hn n)
  | list d =>
    simp only [exec, timed, uncode_code]
    rfl
  | setUnit i u =>
    simp only [exec]
    have : (code k σ).dists = σ.dists := rfl
    rw [this]
    cases σ.dists[i]? <;> rfl
  | distCall i d =>
    simp only [exec]
    have : (code k σ).dists = σ.dists := rfl
    rw [this]
    cases σ.dists[i]? <;> rfl
  | newList a m t =>
    simp only [exec, State.newList]
    have : (code k σ).mem = σ.mem := rfl
    rw [this]
    cases asSliceValue σ.mem a m <;> rfl
  | changeList i a m t =>
    simp only [exec, State.changeList]
    have : (code k σ).mem = σ.mem := rfl
    have h2 : (code k σ).lists = σ.lists := rfl
    rw [this, h2]
    cases σ.lists[i]? with
    | none => rfl
    | some l =>
      cases asSliceValue σ.mem a m with
      | none => rfl
      | some x =>
        obtain ⟨mem, c, t⟩ := x
        dsimp only
        split <;> rfl
  | writeVar v d =>
    simp only [exec]
    have : (code k σ).vars = σ.vars := rfl
    rw [this]
    cases σ.vars[v]? with
    | none => rfl
    | some d0 =>
      dsimp only
      split <;> rfl
  | callFn f => simp only [exec, timed, uncode_code]
  | callFlagGet f => simp only [exec, timed, uncode_code]
  | callFlagString f => simp only [exec, timed, uncode_code]
  | _ => rfl

theorem exec_codeCmd {T : ℕ → Time} {k : ℕ} {cmd : Cmd} {σ : State} (h : MemOnly cmd ∨ cmd = .newRegion) :
    (exec (timed w T) (codeCmd k cmd) (code k σ)).1 = code k (exec w cmd σ).1 := by
  by_cases hn : NotTick cmd
  · rw [codeCmd_eq hn, exec_timed h hn]
  · simp only [NotTick, not_forall, not_not] at hn
    obtain ⟨n, rfl⟩ := hn
    rfl

theorem ok_codeCmd {k : ℕ} {cmd : Cmd} {σ : State} (h : cmd.Ok σ) : (codeCmd k cmd).Ok (code k σ) := by
  cases cmd <;> exact h

/-! ### The history as one goroutine sees it -/

/-- what a goroutine is still going to do -/
def Proc.rest (p : Proc A) : Prog A :=
  match p.pc with
  | .run q => q
  | .lock _ r k => .op (.rlock r) k
  | .unlock _ r k => .op (.runlock r) k

theorem Path.runI {l : List (Item A)} (h : Path w s l s') {T : ℕ → Time} {k : ℕ} {p : Proc A} {a : A} {held : List (ℕ × ℕ)}
    (hp : s.procs[c]? = some p) (hn : ProgAll NotTick p.rest) (hT : ∀ i t, (answers c l)[i]? = some t → T (k + 1 + i) = t)
    (hd : s'.procs[c]? = some ⟨.run (.ret a), held⟩) :
    RunI (timed w T) p.rest (code k s.mem) (image c k l) (code (k + (answers c l).length) s'.mem) a := by
  induction h generalizing k p with
  | nil =>
    rw [hp] at hd
    cases hd
    exact .ret _ _
  | @cons s it s1 l s' hs hpath ih =>
    -- a step which `c` does not see
    have skip : (∀ c' cmd, it.lab ≠ .own c' cmd) → (∀ r cmd, it.lab ≠ .upd r cmd) → (∀ r cl t, it.lab ≠ .took c r cl t) →
        (∀ r cl, it.lab ≠ .gave c r cl) → image c k (it :: l) = image c k l ∧ answers c (it :: l) = answers c l := by
      intro h1 h2 h3 h4
      obtain ⟨lab, evs, pre, post⟩ := it
      cases lab with
      | own c' cmd => exact absurd rfl (h1 c' cmd)
      | upd r cmd => exact absurd rfl (h2 r cmd)
      | took c' r cl t =>
        have : c' ≠ c := fun e => h3 r cl t (by rw [e])
        simp [image, answers, this]
      | gave c' r cl =>
        have : c' ≠ c := fun e => h4 r cl (by rw [e])
        simp [image, answers, this]
      | _ => simp [image, answers]
    cases hs with
    | spawn q =>
      obtain ⟨e1, e2⟩ := skip (by simp) (by simp) (by simp) (by simp)
      rw [e1, e2]
      rw [e2] at hT
      refine ih ?_ hn hT hd
      rw [List.getElem?_append_left (List.getElem?_eq_some_iff.mp hp).1]
      exact hp
    | own c' held' cmd q h1 h2 h3 =>
      have e : answers c (⟨.own c' cmd, [], s.mem, (exec w cmd s.mem).1⟩ :: l) = answers c l := by simp [answers]
      rw [e] at hT ⊢
      by_cases hc : c' = c
      · subst hc
        rw [h1] at hp
        cases hp
        obtain ⟨hn1, hn2⟩ := hn
        have := ih (p := ⟨.run (q (exec w cmd s.mem).2), held'⟩) (getElem?_set_same h1) (hn2 _) hT hd
        simp only [image, decide_true, codeCmd_eq hn1]
        refine .op ?_
        rw [exec_timed (.inl h2) hn1]
        exact this
      · have := ih (p := p) ((getElem?_set_other hc).trans hp) hn hT hd
        simp only [image, hc, decide_false]
        refine .env _ (ok_codeCmd h3) ?_
        rw [exec_codeCmd (.inl h2)]
        exact this
    | newGroup c' held' q h1 =>
      have e : answers c (⟨.own c' .newRegion, [.newGroup s.grp.regions.length 0 s.grp.nextId], s.mem,
        (exec w .newRegion s.mem).1⟩ :: l) = answers c l := by simp [answers]
      rw [e] at hT ⊢
      by_cases hc : c' = c
      · subst hc
        rw [h1] at hp
        cases hp
        obtain ⟨hn1, hn2⟩ := hn
        have := ih (p := ⟨.run (q s.mem.regions.length), held'⟩) (getElem?_set_same h1) (hn2 _) hT hd
        simp only [image, decide_true, codeCmd]
        exact .op this
      · have := ih (p := p) ((getElem?_set_other hc).trans hp) hn hT hd
        simp only [image, hc, decide_false]
        exact .env _ trivial this
    | upd r g cmd h1 h2 h3 h4 =>
      have e : answers c (⟨.upd r cmd, [], s.mem, (exec w cmd s.mem).1⟩ :: l) = answers c l := by simp [answers]
      rw [e] at hT ⊢
      simp only [image]
      refine .env _ (ok_codeCmd h4) ?_
      rw [exec_codeCmd (.inl h3)]
      exact ih hp hn hT hd
    | asks c' r held' q h1 h2 =>
      obtain ⟨e1, e2⟩ := skip (by simp) (by simp) (by simp) (by simp)
      rw [e1, e2]
      rw [e2] at hT
      by_cases hc : c' = c
      · subst hc
        rw [h1] at hp
        cases hp
        exact ih (p := ⟨.lock _ r q, held'⟩) (getElem?_set_same h1) hn hT hd
      · exact ih ((getElem?_set_other hc).trans hp) hn hT hd
    | took c' r cl t held' q h1 h2 =>
      by_cases hc : c' = c
      · subst hc
        rw [h1] at hp
        cases hp
        have e : answers c' (⟨.took c' r cl t, [], s.mem, s.mem⟩ :: l) = t :: answers c' l := by simp [answers]
        rw [e] at hT ⊢
        have ht : T (k + 1) = t := by simpa using hT 0 t rfl
        have := ih (k := k + 1) (p := ⟨.run (q t), (r, cl) :: held'⟩) (getElem?_set_same h1) (hn.2 t)
          (fun i t' h => by have := hT (i + 1) t' h; rw [← this]; congr 1; omega) hd
        simp only [image, if_true]
        refine .env _ trivial (.op ?_)
        have e2 : (exec (timed w T) (.rlock r)
            (exec (timed w T) (.tick (Nat.pair (k + 1) s.mem.noise)) (code k s.mem)).1).2 = t := by
          simp only [exec, timed, code, Nat.unpair_pair]
          exact ht
        have e3 : k + (t :: answers c' l).length = k + 1 + (answers c' l).length := by simp; omega
        rw [e2, e3]
        exact this
      · obtain ⟨e1, e2⟩ := skip (by simp) (by simp) (by simp [hc]) (by simp)
        rw [e1, e2]
        rw [e2] at hT
        exact ih ((getElem?_set_other hc).trans hp) hn hT hd
    | gives c' r cl client held' q h1 h2 h3 h4 =>
      obtain ⟨e1, e2⟩ := skip (by simp) (by simp) (by simp) (by simp)
      rw [e1, e2]
      rw [e2] at hT
      by_cases hc : c' = c
      · subst hc
        rw [h1] at hp
        cases hp
        exact ih (p := ⟨.unlock cl r q, held'⟩) (getElem?_set_same h1) hn hT hd
      · exact ih ((getElem?_set_other hc).trans hp) hn hT hd
    | gave c' r cl client held' q h1 h2 h3 =>
      by_cases hc : c' = c
      · subst hc
        rw [h1] at hp
        cases hp
        have e : answers c' (⟨.gave c' r cl, [], s.mem, s.mem⟩ :: l) = answers c' l := by simp [answers]
        rw [e] at hT ⊢
        simp only [image, if_true]
        exact .op (ih (p := ⟨.run (q ()), held'.erase (r, cl)⟩) (getElem?_set_same h1) (hn.2 ()) hT hd)
      · obtain ⟨e1, e2⟩ := skip (by simp) (by simp) (by simp) (by simp [hc])
        rw [e1, e2]
        rw [e2] at hT
        exact ih ((getElem?_set_other hc).trans hp) hn hT hd
    | loop es g h1 h2 h3 =>
      obtain ⟨e1, e2⟩ := skip (by simp) (by simp) (by simp) (by simp)
      rw [e1, e2]
      rw [e2] at hT
      exact ih hp hn hT hd

/-- the memory along a run is reachable in `Model/Sys` -/
theorem Step.reach (T : ℕ → Time) (k : ℕ) (hs : Step w s it s') (h : Reachable (timed w T) (code k s.mem)) :
    Reachable (timed w T) (code k s'.mem) := by
  cases hs with
  | own c held cmd q h1 h2 h3 =>
    have := h.step (codeCmd k cmd) (ok_codeCmd h3)
    rw [exec_codeCmd (.inl h2)] at this
    exact this
  | newGroup c held q h1 =>
    have := h.step (codeCmd k .newRegion) trivial
    rw [exec_codeCmd (.inr rfl)] at this
    exact this
  | upd r g cmd h1 h2 h3 h4 =>
    have := h.step (codeCmd k cmd) (ok_codeCmd h4)
    rw [exec_codeCmd (.inl h3)] at this
    exact this
  | _ => exact h

theorem Run.reach (T : ℕ → Time) (h : Run w tr s) : Reachable (timed w T) (code 0 s.mem) := by
  induction h with
  | nil =>
    have : code 0 State.init = State.init := rfl
    show Reachable _ (code 0 State.init)
    rw [this]
    exact .init
  | snoc _ hs ih => exact hs.reach T 0 ih

/-! ### What is in the history -/

theorem image_pre {l : List (Item A)} {k : ℕ} {e : Ev} (h : e ∈ image c k l) : ∃ it ∈ l, ∃ j, e.pre = code j it.pre := by
  induction l generalizing k with
  | nil => cases h
  | cons it l ih =>
    have next : ∀ {j}, e ∈ image c j l → ∃ x ∈ it :: l, ∃ j, e.pre = code j x.pre := fun h => by
      obtain ⟨x, hx, hj⟩ := ih h
      exact ⟨x, List.mem_cons_of_mem _ hx, hj⟩
    unfold image at h
    split at h
    · rcases List.mem_cons.mp h with rfl | h
      · exact ⟨it, List.mem_cons_self, k, rfl⟩
      · exact next h
    · rcases List.mem_cons.mp h with rfl | h
      · exact ⟨it, List.mem_cons_self, k, rfl⟩
      · exact next h
    · split at h
      · rcases List.mem_cons.mp h with rfl | h
        · exact ⟨it, List.mem_cons_self, k, rfl⟩
        · rcases List.mem_cons.mp h with rfl | h
          · exact ⟨it, List.mem_cons_self, k + 1, rfl⟩
          · exact next h
      · exact next h
    · split at h
      · rcases List.mem_cons.mp h with rfl | h
        · exact ⟨it, List.mem_cons_self, k, rfl⟩
        · exact next h
      · exact next h
    · exact next h

theorem image_states {l : List (Item A)} {k n : ℕ} {σ τ : State} (h : τ ∈ statesOf (image c k l) (code n σ)) :
    ∃ τ' j, During l σ τ' ∧ τ = code j τ' := by
  rcases List.mem_append.mp h with h | h
  · obtain ⟨e, he, rfl⟩ := List.mem_map.mp h
    obtain ⟨it, hit, j, hj⟩ := image_pre he
    exact ⟨it.pre, j, .inl ⟨it, hit, rfl⟩, hj⟩
  · rw [List.mem_singleton] at h
    exact ⟨σ, n, .inr rfl, h⟩

theorem Path.no_rlock {l : List (Item A)} (h : Path w s l s') : ∀ it ∈ l, ∀ c r, it.lab ≠ .own c (.rlock r) := by
  induction h with
  | nil => simp
  | cons hs _ ih =>
    intro it hit c r e
    rcases List.mem_cons.mp hit with rfl | hit
    · cases hs <;> simp at e
      rename_i h1 h2 h3
      obtain ⟨-, rfl⟩ := e
      exact h1
    · exact ih it hit c r e

theorem image_rlock {l : List (Item A)} {k : ℕ} {e : Ev} (hl : ∀ it ∈ l, ∀ c r, it.lab ≠ .own c (.rlock r)) (h : e ∈ image c k l)
    (ho : e.own = true) {r : ℕ} (hr : e.cmd = .rlock r) :
    ∃ it ∈ l, ∃ cl t i, it.lab = .took c r cl t ∧ e.pre = code (k + 1 + i) it.pre ∧ (answers c l)[i]? = some t := by
  induction l generalizing k with
  | nil => cases h
  | cons it l ih =>
    have hl' : ∀ it ∈ l, ∀ c r, it.lab ≠ .own c (.rlock r) := fun x hx => hl x (List.mem_cons_of_mem _ hx)
    have next : answers c (it :: l) = answers c l → e ∈ image c k l → ∃ x ∈ it :: l, ∃ cl t i, x.lab = .took c r cl t ∧
        e.pre = code (k + 1 + i) x.pre ∧ (answers c (it :: l))[i]? = some t := fun ha h => by
      obtain ⟨x, hx, hj⟩ := ih hl' h
      exact ⟨x, List.mem_cons_of_mem _ hx, by rw [ha]; exact hj⟩
    unfold image at h
    split at h
    · rename_i c' cmd hlab
      rcases List.mem_cons.mp h with rfl | h
      · exfalso
        refine hl it List.mem_cons_self c' r ?_
        rw [hlab]
        cases cmd <;> simp [codeCmd] at hr
        rw [hr]
      · exact next (by simp [answers, hlab]) h
    · rename_i r' cmd hlab
      rcases List.mem_cons.mp h with rfl | h
      · cases ho
      · exact next (by simp [answers, hlab]) h
    · rename_i c' r' cl t hlab
      split at h
      · rename_i hc
        subst hc
        rcases List.mem_cons.mp h with rfl | h
        · cases ho
        · rcases List.mem_cons.mp h with rfl | h
          · cases hr
            exact ⟨it, List.mem_cons_self, cl, t, 0, hlab, rfl, by simp [answers, hlab]⟩
          · obtain ⟨x, hx, cl', t', i, h1, h2, h3⟩ := ih hl' h
            refine ⟨x, List.mem_cons_of_mem _ hx, cl', t', i + 1, h1, ?_, ?_⟩
            · rw [h2]; congr 1; omega
            · have : answers c' (it :: l) = t :: answers c' l := by simp [answers, hlab]
              rw [this]
              exact h3
      · rename_i hc
        exact next (by simp [answers, hlab, hc]) h
    · rename_i c' r' cl hlab
      split at h
      · rcases List.mem_cons.mp h with rfl | h
        · cases hr
        · exact next (by simp [answers, hlab]) h
      · exact next (by simp [answers, hlab]) h
    · rename_i h1 h2 h3 h4
      refine next ?_ h
      cases hlab : it.lab with
      | took c' r' cl t => exact absurd hlab (h3 c' r' cl t)
      | _ => simp [answers, hlab]

/-! ### The call -/

/-- a time for each answer -/
def timesOf (ts : List Time) (n : ℕ) : Time := (ts[n - 1]?).getD default

theorem Run.call {a b : List (Item A)} {x : Item A} (hr : Run w (a ++ x :: b) s) {p : Prog A} (hx : x.lab = .spawn c p)
    (hn : ProgAll NotTick p) {r : A} {held : List (ℕ × ℕ)} (hd : s.procs[c]? = some ⟨.run (.ret r), held⟩) :
    Reachable (timed w (timesOf (answers c b))) (code 0 x.post) ∧ (∃ s0, s0.mem = x.post ∧ Path w s0 b s) ∧
    RunI (timed w (timesOf (answers c b))) p (code 0 x.post) (image c 0 b) (code (answers c b).length s.mem) r := by
  rw [List.append_cons] at hr
  obtain ⟨s0, h1, h2⟩ := hr.path
  obtain ⟨s1, h3, h4⟩ := h1.snoc_inv
  have hm : s0.mem = x.post := by cases h4 <;> rfl
  have hp : s0.procs[c]? = some ⟨.run p, []⟩ := by
    cases h4 <;> simp at hx
    obtain ⟨rfl, rfl⟩ := hx
    simp
  refine ⟨hm ▸ h1.reach _, ⟨s0, hm, h2⟩, ?_⟩
  have := h2.runI (T := timesOf (answers c b)) (k := 0) hp hn (fun i t h => by
    have e : 0 + 1 + i - 1 = i := by omega
    simp [timesOf, e, h]) hd
  rw [hm, Nat.zero_add] at this
  exact this

theorem notTick_reads {p : Prog A} (h : OnlyReads p) : ProgAll NotTick p :=
  ProgAll_mono (fun cmd hc n e => by subst e; cases hc) h

/-! ### States with a number in them -/

variable {S S' : State → Prop} {T : ℕ → Time}

theorem current_code {k : ℕ} {σ : State} (sc : Src) : current (timed w T) (code k σ) sc = current w σ sc := by
  cases sc <;> simp only [current, timed, uncode_code] <;> rfl

theorem listView_code {k i : ℕ} {σ : State} : listView (code k σ) i = listView σ i := rfl

theorem seen_code (h : ∀ τ, S τ → ∃ τ' j, S' τ' ∧ τ = code j τ') {d m : ℕ} {p : List Str} (hs : Seen S d p m) : Seen S' d p m := by
  induction hs with
  | metric h1 h2 =>
    obtain ⟨τ, j, h3, rfl⟩ := h _ h1
    exact .metric h3 h2
  | dir h1 h2 _ ih =>
    obtain ⟨τ, j, h3, rfl⟩ := h _ h1
    exact .dir h3 h2 ih

theorem stable_code (h : ∀ τ, S τ → ∃ τ' j, S' τ' ∧ τ = code j τ') {d m : ℕ} {p : List Str} (hs : Stable S' d p m) :
    Stable S d p m := by
  intro σ hσ
  obtain ⟨τ, j, h3, rfl⟩ := h _ hσ
  exact hs τ h3

theorem alwaysInfNaN_code (h : ∀ τ, S τ → ∃ τ' j, S' τ' ∧ τ = code j τ') {m : ℕ} (hs : AlwaysInfNaN w S' m) :
    AlwaysInfNaN (timed w T) S m := by
  intro σ hσ mv hm
  obtain ⟨τ, j, h3, rfl⟩ := h _ hσ
  obtain ⟨h4, h5⟩ := hs τ h3 mv hm
  refine ⟨h4, fun σ' hσ' sc d h6 h7 => ?_⟩
  obtain ⟨τ', j', h8, rfl⟩ := h _ hσ'
  exact h5 τ' h8 sc d h6 (by rwa [current_code] at h7)

theorem PreTells.whole {l : List (Item A)} {σ' : State} (h : ∀ τ, S τ → ∃ τ' j, During l σ' τ' ∧ τ = code j τ') {mv : MetricView}
    {x : Metric} (ht : PreTells (timed w T) S mv x) {se : Session} (hti : Timed se mv x)
    (hs : ∀ r t, se.lookup r = some t → ∃ it ∈ l, ∃ cl, it.lab = .took c r cl t) : Tells w c l σ' mv x := by
  cases ht with
  | dist a b d e f g i j =>
    obtain ⟨τ, k, h3, rfl⟩ := h _ d
    exact .dist a b h3 e f g i j
  | list a b d e f g i j =>
    obtain ⟨τ, k, h3, rfl⟩ := h _ d
    exact .list a b h3 e f g i j
  | scalar a b d e f g i j m =>
    obtain ⟨r, t, h1, h2, h3⟩ := hti a b
    rw [i] at h1
    cases h1
    obtain ⟨it, h4, cl, h5⟩ := hs _ _ h2
    obtain ⟨τ, k, h6, rfl⟩ := h _ e
    obtain ⟨τ', k', h7, rfl⟩ := h _ j
    exact .scalar ⟨a, b⟩ d h6 (by rwa [current_code] at f) g i h7 m h4 h5 h3

end Tricorder.Whole
