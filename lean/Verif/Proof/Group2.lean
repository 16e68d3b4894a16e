import Verif.Proof.Group
/-! # Groups: who is being served -/

namespace Tricorder.Group
open Go

variable {τ : Type} [Inhabited τ]

inductive Kind where
  | lock | unlock | fn
deriving DecidableEq

/-- the reply a goroutine is waiting for -/
def waitsFor : PC τ → Option (Rid × Kind)
  | .lockRecv r => some (r, .lock)
  | .unlockRecv r _ => some (r, .unlock)
  | .fnRecv r => some (r, .fn)
  | _ => none

def pendStep (r : Rid) (a : Option (Cid × Kind)) : Ev τ → Option (Cid × Kind)
  | .accept c r' n => if r' = r then some (c, if n = 1 then .lock else .unlock) else a
  | .acceptFn c r' _ => if r' = r then some (c, .fn) else a
  | .answer _ r' _ => if r' = r then none else a
  | .answerFn _ r' => if r' = r then none else a
  | _ => a

/-- the request being served by group `r` -/
def pend (r : Rid) (tr : List (Ev τ)) : Option (Cid × Kind) := tr.foldl (pendStep r) none

omit [Inhabited τ] in
@[simp] theorem pend_snoc (r : Rid) (tr : List (Ev τ)) (e : Ev τ) :
    pend r (tr ++ [e]) = pendStep r (pend r tr) e := by simp [pend]

omit [Inhabited τ] in
@[simp] theorem pend_nil (r : Rid) : pend r ([] : List (Ev τ)) = none := rfl

def loopOK (g : Region τ) : Option Kind → Prop := fun k =>
  match g.loop with
  | .select => k = none
  | .handle n => (n = 1 ∧ k = some .lock) ∨ (n = -1 ∧ k = some .unlock)
  | .calling => k = some .lock
  | .reply t => (k = some .lock ∨ k = some .unlock) ∧ t = g.updateTime
  | .handleFn _ => k = some .fn
  | .replyFn => k = some .fn
  | .crashed => True

structure Inv2 (tr : List (Ev τ)) (s : State τ) : Prop where
  waits : ∀ (c : Cid) (cl : Client τ) r k, s.clients[c]? = some cl → waitsFor cl.pc = some (r, k) →
    pend r tr = some (c, k)
  owner : ∀ r c k, pend r tr = some (c, k) → ∃ cl : Client τ, s.clients[c]? = some cl ∧ waitsFor cl.pc = some (r, k)
  loop : ∀ (r : Rid) (g : Region τ), s.regions[r]? = some g → loopOK g ((pend r tr).map Prod.snd)

omit [Inhabited τ] in
/-- replacing the state of a goroutine that was not and is not waiting -/
theorem Inv2.setC_idle {tr : List (Ev τ)} {s : State τ} (h : Inv2 tr s) {c : Cid} {cl cl' : Client τ}
    (hc : s.clients[c]? = some cl) (h1 : waitsFor cl.pc = none) (h2 : waitsFor cl'.pc = none) :
    Inv2 tr (s.setC c cl') := by
  have hlt : c < s.clients.length := (List.getElem?_eq_some_iff.1 hc).1
  refine ⟨?_, ?_, h.loop⟩
  · intro c1 cl1 r k hc1 hw
    simp only [State.setC, List.getElem?_set, hlt, if_true] at hc1
    split at hc1
    · cases hc1; rw [h2] at hw; cases hw
    · exact h.waits c1 cl1 r k hc1 hw
  · intro r c1 k hp
    obtain ⟨cl1, e1, e2⟩ := h.owner r c1 k hp
    refine ⟨cl1, ?_, e2⟩
    simp only [State.setC, List.getElem?_set, hlt, if_true]
    split
    · next he => subst he; rw [hc] at e1; cases e1; rw [h1] at e2; cases e2
    · exact e1

omit [Inhabited τ] in
/-- an event that is not traffic -/
theorem Inv2.quiet {tr : List (Ev τ)} {s : State τ} (h : Inv2 tr s) {e : Ev τ}
    (he : ∀ r a, pendStep r a e = a) : Inv2 (tr ++ [e]) s := by
  have : ∀ r, pend r (tr ++ [e]) = pend r tr := fun r => by rw [pend_snoc, he]
  exact ⟨fun c cl r k => by rw [this]; exact h.waits c cl r k,
    fun r c k => by rw [this]; exact h.owner r c k, fun r g => by rw [this]; exact h.loop r g⟩

omit [Inhabited τ] in
/-- the loop of `r` moves on without traffic -/
theorem Inv2.setR {tr : List (Ev τ)} {s : State τ} (h : Inv2 tr s) {r : Rid} {g : Region τ}
    (hg : loopOK g ((pend r tr).map Prod.snd)) : Inv2 tr (s.setR r g) := by
  refine ⟨h.waits, h.owner, ?_⟩
  intro r' g' hr
  simp only [State.setR, List.getElem?_set] at hr
  split at hr
  · next he => subst he; split at hr <;> cases hr; exact hg
  · exact h.loop r' g' hr

omit [Inhabited τ] in
/-- the loop of `r` accepts a request -/
theorem Inv2.begin {tr : List (Ev τ)} {s : State τ} (h : Inv2 tr s) {c : Cid} {cl cl' : Client τ}
    {r : Rid} {g g' : Region τ} {e : Ev τ} {k : Kind} (hc : s.clients[c]? = some cl)
    (h1 : waitsFor cl.pc = none) (hg : s.regions[r]? = some g) (hl : g.loop = .select)
    (h2 : waitsFor cl'.pc = some (r, k)) (hg' : loopOK g' (some k))
    (he : ∀ r' a, pendStep r' a e = if r = r' then some (c, k) else a) :
    Inv2 (tr ++ [e]) ((s.setC c cl').setR r g') := by
  have hlt : c < s.clients.length := (List.getElem?_eq_some_iff.1 hc).1
  have hnone : pend r tr = none := by
    have := h.loop r g hg
    simp only [loopOK, hl, Option.map_eq_none_iff] at this
    exact this
  have hp : ∀ r', pend r' (tr ++ [e]) = if r = r' then some (c, k) else pend r' tr := fun r' => by
    rw [pend_snoc, he]
  refine ⟨?_, ?_, ?_⟩
  · intro c1 cl1 r1 k1 hc1 hw
    rw [hp]
    simp only [State.setC, State.setR, List.getElem?_set, hlt, if_true] at hc1
    split at hc1
    · next hcc =>
      cases hc1
      rw [h2] at hw; cases hw; rw [if_pos rfl, hcc]
    · have := h.waits c1 cl1 r1 k1 hc1 hw
      split
      · next hr => subst hr; rw [hnone] at this; cases this
      · exact this
  · intro r1 c1 k1 hpp
    rw [hp] at hpp
    simp only [State.setC, State.setR, List.getElem?_set, hlt, if_true]
    split at hpp
    · next hr => subst hr; cases hpp; exact ⟨cl', by simp, h2⟩
    · obtain ⟨cl1, e1, e2⟩ := h.owner r1 c1 k1 hpp
      refine ⟨cl1, ?_, e2⟩
      split
      · next he => subst he; rw [hc] at e1; cases e1; rw [h1] at e2; cases e2
      · exact e1
  · intro r1 g1 hr1
    rw [hp]
    simp only [State.setC, State.setR, List.getElem?_set] at hr1
    split at hr1
    · next hr => subst hr; rw [if_pos rfl]; split at hr1 <;> cases hr1; exact hg'
    · next hr => rw [if_neg hr]; exact h.loop r1 g1 hr1

omit [Inhabited τ] in
/-- the loop of `r` answers -/
theorem Inv2.finish {tr : List (Ev τ)} {s : State τ} (h : Inv2 tr s) {c : Cid} {cl cl' : Client τ}
    {r : Rid} {g' : Region τ} {e : Ev τ} {k : Kind} (hc : s.clients[c]? = some cl)
    (h1 : waitsFor cl.pc = some (r, k)) (h2 : waitsFor cl'.pc = none) (hg' : g'.loop = .select)
    (he : ∀ r' a, pendStep r' a e = if r = r' then none else a) :
    Inv2 (tr ++ [e]) ((s.setC c cl').setR r g') := by
  have hlt : c < s.clients.length := (List.getElem?_eq_some_iff.1 hc).1
  have hp : ∀ r', pend r' (tr ++ [e]) = if r = r' then none else pend r' tr := fun r' => by
    rw [pend_snoc, he]
  have hme := h.waits c cl r k hc h1
  refine ⟨?_, ?_, ?_⟩
  · intro c1 cl1 r1 k1 hc1 hw
    rw [hp]
    simp only [State.setC, State.setR, List.getElem?_set, hlt, if_true] at hc1
    split at hc1
    · cases hc1
      rw [h2] at hw; cases hw
    · next hne =>
      have := h.waits c1 cl1 r1 k1 hc1 hw
      split
      · next hr => subst hr; rw [hme] at this; cases this; exact absurd rfl hne
      · exact this
  · intro r1 c1 k1 hpp
    rw [hp] at hpp
    simp only [State.setC, State.setR, List.getElem?_set, hlt, if_true]
    split at hpp
    · cases hpp
    · next hr =>
      obtain ⟨cl1, e1, e2⟩ := h.owner r1 c1 k1 hpp
      refine ⟨cl1, ?_, e2⟩
      split
      · next he =>
        subst he; rw [hc] at e1; cases e1; rw [h1] at e2; cases e2; exact absurd rfl hr
      · exact e1
  · intro r1 g1 hr1
    rw [hp]
    simp only [State.setC, State.setR, List.getElem?_set] at hr1
    split at hr1
    · next hr => subst hr; rw [if_pos rfl]; split at hr1 <;> cases hr1; simp [loopOK, hg']
    · next hr => rw [if_neg hr]; exact h.loop r1 g1 hr1

omit [Inhabited τ] in
theorem waits_lt {n : ℕ} {cl : Client τ} {r : Rid} {k : Kind} (h : ClientOK n cl)
    (hw : waitsFor cl.pc = some (r, k)) : r < n := by
  obtain ⟨-, -, h3⟩ := h
  cases hp : cl.pc <;> rw [hp] at hw h3 <;> simp only [waitsFor, reduceCtorEq, Option.some.injEq, Prod.mk.injEq] at hw
  · obtain ⟨rfl, -⟩ := hw; exact h3.2
  · obtain ⟨rfl, -⟩ := hw; exact h3.2.1
  · obtain ⟨rfl, -⟩ := hw; exact h3

theorem inv2_step {tr : List (Ev τ)} {s s' : State τ} {es : List (Ev τ)} (h : Inv2 tr s) (h1 : Inv1 s)
    (hs : Step s es s') : Inv2 (tr ++ es) s' := by
  cases hs with
  | newGroup f =>
    refine Inv2.quiet ?_ (fun _ _ => rfl)
    refine ⟨h.waits, h.owner, ?_⟩
    intro r g hr
    rw [List.getElem?_append] at hr
    split at hr
    · exact h.loop r g hr
    · next hlt =>
      have hg : g = newRegion s.nextId f := by
        have := List.mem_of_getElem? hr
        simpa using this
      subst hg
      have : pend r tr = none := by
        by_contra hc
        obtain ⟨⟨c, k⟩, hck⟩ := Option.ne_none_iff_exists'.1 hc
        obtain ⟨cl, e1, e2⟩ := h.owner r c k hck
        have := waits_lt (h1 c cl e1) e2
        omega
      simp [loopOK, newRegion, this]
  | newOther => 
    have h' : Inv2 tr { s with nextId := i64 (s.nextId + 1) } := ⟨h.waits, h.owner, h.loop⟩
    exact h'.quiet (fun _ _ => rfl)
  | openSession =>
    refine Inv2.quiet ?_ (fun _ _ => rfl)
    refine ⟨?_, ?_, h.loop⟩
    · intro c cl r k hc hw
      simp only [List.getElem?_append] at hc
      split at hc
      · exact h.waits c cl r k hc hw
      · have : cl = ⟨[], .user⟩ := by
          have := List.mem_of_getElem? hc
          simpa using this
        subst this
        cases hw
    · intro r c k hp
      obtain ⟨cl, e1, e2⟩ := h.owner r c k hp
      refine ⟨cl, ?_, e2⟩
      have hlt : c < s.clients.length := (List.getElem?_eq_some_iff.1 e1).1
      simp only [List.getElem?_append, hlt, if_true]; exact e1
  | visitAgain c cl r t hc hp hv => exact h.quiet (fun _ _ => rfl)
  | visitNew c cl r hc hp hr hv =>
    rw [(visit_none hv).1, List.append_nil]
    exact h.setC_idle hc (by simp [hp, waitsFor]) (by simp [waitsFor])
  | visitClosed c cl hc hp =>
    rw [List.append_nil]
    exact h.setC_idle hc (by simp [hp, waitsFor]) (by simp [waitsFor])
  | send c cl cl' r g n hc hg hl hsend =>
    rcases send_cases hsend with ⟨hp, rfl, rfl⟩ | ⟨todo, hp, rfl, rfl⟩
    · exact h.begin (k := .lock) hc (by simp [hp, waitsFor]) hg hl (by simp [waitsFor])
        (by simp [loopOK]) (fun r' a => by simp [pendStep])
    · exact h.begin (k := .unlock) hc (by simp [hp, waitsFor]) hg hl (by simp [waitsFor])
        (by simp [loopOK]) (fun r' a => by simp [pendStep])
  | handle r g n hg hl =>
    have key : Inv2 tr (s.setR r (g.handleLockUnlock n)) := by
      apply h.setR
      have := h.loop r g hg
      simp only [loopOK, hl] at this
      unfold Region.handleLockUnlock
      simp only
      split
      · simp [loopOK]
      · split
        · next hz =>
          rcases this with ⟨rfl, hk⟩ | ⟨rfl, hk⟩
          · simpa [loopOK] using hk
          · omega
        · simp only [loopOK]
          rcases this with ⟨rfl, hk⟩ | ⟨rfl, hk⟩ <;> simp [hk]
    unfold Region.handleEvents
    split
    · exact key.quiet (fun _ _ => rfl)
    · rwa [List.append_nil]
  | updated r g t hg hl =>
    refine Inv2.quiet ?_ (fun _ _ => rfl)
    apply h.setR
    have := h.loop r g hg
    simp only [loopOK, hl] at this ⊢
    exact ⟨.inl this, by trivial⟩
  | receive c cl cl' r g t hc hg hl hrec =>
    rcases receive_cases hrec with ⟨hp, rfl⟩ | ⟨todo, hp, rfl⟩
    · exact h.finish (k := .lock) hc (by simp [hp, waitsFor]) (by simp [waitsFor]) rfl
        (fun r' a => by simp [pendStep])
    · exact h.finish (k := .unlock) hc (by simp [hp, waitsFor]) (by simp [waitsFor]) rfl
        (fun r' a => by simp [pendStep])
  | visitDone c cl r t hc hp =>
    exact (h.setC_idle hc (by simp [hp, waitsFor]) (by simp [waitsFor])).quiet (fun _ _ => rfl)
  | closeBegin c cl hc hp =>
    exact (h.setC_idle hc (by simp [hp, waitsFor]) (by simp [waitsFor])).quiet (fun _ _ => rfl)
  | closeNext c cl r todo hc hp hr =>
    rw [List.append_nil]
    exact h.setC_idle hc (by simp [hp, waitsFor]) (by simp [waitsFor])
  | closeEnd c cl hc hp =>
    exact (h.setC_idle hc (by simp [hp, waitsFor]) (by simp [waitsFor])).quiet (fun _ _ => rfl)
  | closeAgain c cl hc hp => rwa [List.append_nil]
  | fnBegin c cl r f hc hp hr =>
    rw [List.append_nil]
    exact h.setC_idle hc (by simp [hp, waitsFor]) (by simp [waitsFor])
  | fnSend c cl r f g hc hp hg hl =>
    exact h.begin (k := .fn) hc (by simp [hp, waitsFor]) hg hl (by simp [waitsFor])
        (by simp [loopOK]) (fun r' a => by simp [pendStep])
  | fnHandle r f g hg hl =>
    rw [List.append_nil]
    apply h.setR
    have := h.loop r g hg
    simp only [loopOK, hl] at this ⊢
    exact this
  | fnReceive c cl r g hc hp hg hl =>
    exact h.finish (k := .fn) hc (by simp [hp, waitsFor]) (by simp [waitsFor]) rfl
        (fun r' a => by simp [pendStep])

/-! ### Layer 3: counting -/

/-- does the goroutine hold group `r`: 1 from the moment its increment is accepted to the moment its
decrement is accepted -/
def holding (cl : Client τ) (r : Rid) : ℤ :=
  match cl.pc with
  | .user | .lockSend _ | .fnSend _ _ | .fnRecv _ => if r ∈ cl.visited.map Prod.fst then 1 else 0
  | .lockRecv r' | .lockDone r' _ => if r ∈ r' :: cl.visited.map Prod.fst then 1 else 0
  | .closing todo => if r ∈ todo then 1 else 0
  | .unlockSend r' todo => if r ∈ r' :: todo then 1 else 0
  | .unlockRecv _ todo => if r ∈ todo then 1 else 0
  | .closed | .panicked => 0

/-- an accepted increment that is not yet in `lockCount` -/
def pendingInc (g : Region τ) : ℤ := match g.loop with | .handle n => n | _ => 0

structure Inv3 (tr : List (Ev τ)) (s : State τ) : Prop where
  hold : ∀ (c : Cid) (cl : Client τ) r, s.clients[c]? = some cl → holds c r tr = holding cl r
  hold0 : ∀ (c : Cid) r, s.clients.length ≤ c → holds c r tr = 0
  count : ∀ (r : Rid) (g : Region τ), s.regions[r]? = some g →
    g.lockCount + pendingInc g = accepted r tr
  total : ∀ r, accepted r tr = (s.clients.map fun cl => holding cl r).sum
  last : ∀ (r : Rid) (g : Region τ), s.regions[r]? = some g →
    g.updateTime = (lastUpdate r tr).getD default
  upd : ∀ (r : Rid) (g : Region τ), s.regions[r]? = some g → 1 ≤ g.lockCount →
    g.loop = .calling ∨ (lastUpdate r tr).isSome
  fnc : ∀ (r : Rid) (g : Region τ), s.regions[r]? = some g →
    currentFn r tr = some (match g.loop with | .handleFn f => f | _ => g.updateFunc)
  fut : ∀ r, s.regions.length ≤ r → lastUpdate r tr = none ∧ accepted r tr = 0
  alive : ∀ (r : Rid) (g : Region τ), s.regions[r]? = some g → 0 ≤ g.lockCount ∧ g.loop ≠ .crashed

omit [Inhabited τ] in
theorem holding_nonneg (cl : Client τ) (r : Rid) : 0 ≤ holding cl r := by
  unfold holding; split <;> (try split) <;> omega

omit [Inhabited τ] in
theorem holding_le (cl : Client τ) (r : Rid) : holding cl r ≤ 1 := by
  unfold holding; split <;> (try split) <;> omega

theorem sum_set {α : Type} (f : α → ℤ) (l : List α) (i : ℕ) (x y : α) (h : l[i]? = some x) :
    ((l.set i y).map f).sum = (l.map f).sum - f x + f y := by
  induction l generalizing i with
  | nil => cases h
  | cons a l ih =>
    cases i with
    | zero => simp at h; subst h; simp; ring
    | succ i =>
      simp only [List.getElem?_cons_succ] at h
      simp only [List.set_cons_succ, List.map_cons, List.sum_cons, ih i h]; ring

theorem sum_ge_one {α : Type} (f : α → ℤ) (hf : ∀ a, 0 ≤ f a) (l : List α) (i : ℕ) (x : α) (h : l[i]? = some x) :
    f x ≤ (l.map f).sum := by
  induction l generalizing i with
  | nil => cases h
  | cons a l ih =>
    have h0 : 0 ≤ (l.map f).sum := List.sum_nonneg (by simp only [List.mem_map]; rintro _ ⟨b, _, rfl⟩; exact hf b)
    cases i with
    | zero => simp at h; subst h; simp [h0]
    | succ i =>
      simp only [List.getElem?_cons_succ] at h
      have := ih i h
      have := hf a
      simp only [List.map_cons, List.sum_cons]; omega

theorem sum_ge_two {α : Type} (f : α → ℤ) (hf : ∀ a, 0 ≤ f a) (l : List α) (i j : ℕ) (x y : α)
    (hx : l[i]? = some x) (hy : l[j]? = some y) (hij : i ≠ j) :
    f x + f y ≤ (l.map f).sum := by
  have e := sum_set (fun a => if (f a = f a) then f a else 0) l i x x hx
  induction l generalizing i j with
  | nil => cases hx
  | cons a l ih =>
    cases i with
    | zero =>
      cases j with
      | zero => exact absurd rfl hij
      | succ j =>
        simp at hx; subst hx
        simp only [List.getElem?_cons_succ] at hy
        have := sum_ge_one f hf l j y hy
        simp only [List.map_cons, List.sum_cons]; omega
    | succ i =>
      simp only [List.getElem?_cons_succ] at hx
      cases j with
      | zero =>
        simp at hy; subst hy
        have := sum_ge_one f hf l i x hx
        simp only [List.map_cons, List.sum_cons]; omega
      | succ j =>
        simp only [List.getElem?_cons_succ] at hy
        have := ih i j hx hy (by omega) (sum_set _ l i x x hx)
        have := hf a
        simp only [List.map_cons, List.sum_cons]; omega

section ev
omit [Inhabited τ]
variable (r : Rid) (c : Cid) (tr : List (Ev τ)) (e : Ev τ)

theorem accepted_snoc : accepted r (tr ++ [e]) = accepted r tr +
    (match e with | .accept _ r' n => if r' = r then n else 0 | _ => 0) := by
  cases e <;> simp [accepted]

theorem holds_snoc : holds c r (tr ++ [e]) = holds c r tr +
    (match e with | .accept c' r' n => if c' = c ∧ r' = r then n else 0 | _ => 0) := by
  cases e <;> simp [holds]

theorem lastUpdate_snoc : lastUpdate r (tr ++ [e]) =
    (match e with | .updEnd r' _ t => if r' = r then some t else lastUpdate r tr | _ => lastUpdate r tr) := by
  cases e <;> simp [lastUpdate]

theorem currentFn_snoc : currentFn r (tr ++ [e]) =
    (match e with
    | .newGroup r' f _ => if r' = r then some f else currentFn r tr
    | .acceptFn _ r' f => if r' = r then some f else currentFn r tr
    | _ => currentFn r tr) := by
  cases e <;> simp [currentFn]

/-- an event irrelevant to layer 3 -/
def plain (e : Ev τ) : Prop :=
  match e with
  | .accept .. | .updEnd .. | .newGroup .. | .acceptFn .. => False
  | _ => True

end ev

omit [Inhabited τ] in
theorem plain_eqs {e : Ev τ} (he : plain e) (tr : List (Ev τ)) :
    (∀ r, accepted r (tr ++ [e]) = accepted r tr) ∧ (∀ c r, holds c r (tr ++ [e]) = holds c r tr) ∧
    (∀ r, lastUpdate r (tr ++ [e]) = lastUpdate r tr) ∧ (∀ r, currentFn r (tr ++ [e]) = currentFn r tr) := by
  refine ⟨fun r => ?_, fun c r => ?_, fun r => ?_, fun r => ?_⟩
  · rw [accepted_snoc]; cases e <;> simp_all [plain]
  · rw [holds_snoc]; cases e <;> simp_all [plain]
  · rw [lastUpdate_snoc]; cases e <;> simp_all [plain]
  · rw [currentFn_snoc]; cases e <;> simp_all [plain]

theorem Inv3.quiet {tr : List (Ev τ)} {s : State τ} (h : Inv3 tr s) {e : Ev τ} (he : plain e) :
    Inv3 (tr ++ [e]) s := by
  obtain ⟨h1, h2, h3, h4⟩ := plain_eqs he tr
  constructor <;> try simp only [h1, h2, h3, h4]
  · exact h.hold
  · exact h.hold0
  · exact h.count
  · exact h.total
  · exact h.last
  · exact h.upd
  · exact h.fnc
  · exact h.fut
  · exact h.alive

/-- a goroutine moves without changing what it holds -/
theorem Inv3.setC_same {tr : List (Ev τ)} {s : State τ} (h : Inv3 tr s) {c : Cid} {cl cl' : Client τ}
    (hc : s.clients[c]? = some cl) (hh : ∀ r, holding cl' r = holding cl r) : Inv3 tr (s.setC c cl') := by
  have hlt : c < s.clients.length := (List.getElem?_eq_some_iff.1 hc).1
  refine ⟨?_, ?_, h.count, ?_, h.last, h.upd, h.fnc, h.fut, h.alive⟩
  · intro c1 cl1 r hc1
    simp only [State.setC, List.getElem?_set, hlt, if_true] at hc1
    split at hc1
    · next he => cases hc1; subst he; rw [hh]; exact h.hold _ _ r hc
    · exact h.hold c1 cl1 r hc1
  · intro c1 r hle
    exact h.hold0 c1 r (by simpa [State.setC] using hle)
  · intro r
    rw [h.total r]
    simp only [State.setC]
    rw [sum_set _ _ _ _ _ hc, hh]; ring

/-- a group moves without accepting anything, its function, time and accounted increments unchanged -/
theorem Inv3.setR_same {tr : List (Ev τ)} {s : State τ} (h : Inv3 tr s) {r : Rid} {g g' : Region τ}
    (hg : s.regions[r]? = some g) (h1 : g'.lockCount + pendingInc g' = g.lockCount + pendingInc g)
    (h2 : g'.updateTime = g.updateTime)
    (h3 : 1 ≤ g'.lockCount → g'.loop = .calling ∨ (lastUpdate r tr).isSome)
    (h4 : (match g'.loop with | .handleFn f => f | _ => g'.updateFunc) =
      (match g.loop with | .handleFn f => f | _ => g.updateFunc))
    (h5 : 0 ≤ g'.lockCount ∧ g'.loop ≠ .crashed) : Inv3 tr (s.setR r g') := by
  have key : ∀ (P : Rid → Region τ → Prop), (∀ (r : Rid) (g : Region τ), s.regions[r]? = some g → P r g) → P r g' →
      ∀ (r1 : Rid) (g1 : Region τ), (s.setR r g').regions[r1]? = some g1 → P r1 g1 := by
    intro P hP hr r1 g1 hr1
    simp only [State.setR, List.getElem?_set] at hr1
    split at hr1
    · next he => subst he; split at hr1 <;> cases hr1; exact hr
    · exact hP r1 g1 hr1
  refine ⟨h.hold, h.hold0, ?_, h.total, ?_, ?_, ?_, ?_, ?_⟩
  · exact key (fun r g => g.lockCount + pendingInc g = accepted r tr) h.count (h1.trans (h.count r g hg))
  · exact key (fun r g => g.updateTime = (lastUpdate r tr).getD default) h.last (h2.trans (h.last r g hg))
  · exact key (fun r g => 1 ≤ g.lockCount → g.loop = .calling ∨ (lastUpdate r tr).isSome) h.upd h3
  · refine key (fun r g => currentFn r tr = some (match g.loop with | .handleFn f => f | _ => g.updateFunc)) h.fnc ?_
    rw [h4]; exact h.fnc r g hg
  · intro r1 hr1; exact h.fut r1 (by simpa [State.setR] using hr1)
  · exact key (fun r g => 0 ≤ g.lockCount ∧ g.loop ≠ .crashed) h.alive h5

theorem inv3_step {tr : List (Ev τ)} {s s' : State τ} {es : List (Ev τ)} (h : Inv3 tr s) (h1 : Inv1 s)
    (h2 : Inv2 tr s) (hs : Step s es s') : Inv3 (tr ++ es) s' := by
  cases hs with
  | newGroup f =>
    obtain ⟨f1, f2⟩ := h.fut s.regions.length le_rfl
    have e1 : ∀ r, accepted r (tr ++ [Ev.newGroup s.regions.length f s.nextId]) = accepted r tr := by
      intro r; rw [accepted_snoc]; simp
    have e2 : ∀ c r, holds c r (tr ++ [Ev.newGroup s.regions.length f s.nextId]) = holds c r tr := by
      intro c r; rw [holds_snoc]; simp
    have e3 : ∀ r, lastUpdate r (tr ++ [Ev.newGroup s.regions.length f s.nextId]) = lastUpdate r tr := by
      intro r; rw [lastUpdate_snoc]
    have key : ∀ (P : Rid → Region τ → Prop), (∀ (r : Rid) (g : Region τ), s.regions[r]? = some g → P r g) →
        P s.regions.length (newRegion s.nextId f) →
        ∀ (r1 : Rid) (g1 : Region τ), (s.regions ++ [newRegion s.nextId f])[r1]? = some g1 → P r1 g1 := by
      intro P hP hr r1 g1 hr1
      rw [List.getElem?_append] at hr1
      split at hr1
      · exact hP r1 g1 hr1
      · next hlt =>
        have hg : g1 = newRegion s.nextId f := by
          have := List.mem_of_getElem? hr1
          simpa using this
        have hr' : r1 = s.regions.length := by
          have := (List.getElem?_eq_some_iff.1 hr1).1
          simp at this; omega
        subst hg; subst hr'; exact hr
    constructor <;> try simp only [e1, e2, e3]
    · exact h.hold
    · exact h.hold0
    · exact key (fun r g => g.lockCount + pendingInc g = accepted r tr) h.count (by rw [f2]; rfl)
    · exact h.total
    · exact key (fun r g => g.updateTime = (lastUpdate r tr).getD default) h.last (by rw [f1]; rfl)
    · exact key (fun r g => 1 ≤ g.lockCount → g.loop = .calling ∨ (lastUpdate r tr).isSome) h.upd
        (by intro hh; simp [newRegion] at hh)
    · refine key (fun r g => currentFn r (tr ++ [Ev.newGroup s.regions.length f s.nextId]) =
        some (match g.loop with | .handleFn f => f | _ => g.updateFunc)) ?_ ?_
      · intro r g hr
        have hlt := (List.getElem?_eq_some_iff.1 hr).1
        rw [currentFn_snoc]
        simp only
        rw [if_neg (by omega)]; exact h.fnc r g hr
      · rw [currentFn_snoc]; simp [newRegion]
    · intro r hr; exact h.fut r (by simp at hr; omega)
    · exact key (fun r g => 0 ≤ g.lockCount ∧ g.loop ≠ .crashed) h.alive (by simp [newRegion])
  | newOther =>
    refine Inv3.quiet ?_ (by simp [plain])
    exact ⟨h.hold, h.hold0, h.count, h.total, h.last, h.upd, h.fnc, h.fut, h.alive⟩
  | openSession =>
    refine Inv3.quiet ?_ (by simp [plain])
    refine ⟨?_, ?_, h.count, ?_, h.last, h.upd, h.fnc, h.fut, h.alive⟩
    · intro c cl r hc
      simp only [List.getElem?_append] at hc
      split at hc
      · exact h.hold c cl r hc
      · next hlt =>
        have : cl = ⟨[], .user⟩ := by
          have := List.mem_of_getElem? hc
          simpa using this
        subst this
        rw [h.hold0 c r (by omega)]; simp [holding]
    · intro c r hc; exact h.hold0 c r (by simp at hc; omega)
    · intro r; rw [h.total r]; simp [holding]
  | visitAgain c cl r t hc hp hv => exact h.quiet (by simp [plain])
  | visitNew c cl r hc hp hr hv =>
    rw [(visit_none hv).1, List.append_nil]
    exact h.setC_same hc (fun r' => by simp [holding, hp])
  | visitClosed c cl hc hp =>
    rw [List.append_nil]
    exact h.setC_same hc (fun r' => by simp [holding, hp])
  | send c cl cl' r g n hc hg hl hsend =>
    have hlt : c < s.clients.length := (List.getElem?_eq_some_iff.1 hc).1
    have ok := h1 c cl hc
    -- what the goroutine holds changes by `n` for `r`, and by nothing for other groups
    have hh : (∀ r', holding cl' r' = holding cl r' + if r = r' then n else 0) := by
      intro r'
      rcases send_cases hsend with ⟨hp, rfl, rfl⟩ | ⟨todo, hp, rfl, rfl⟩
      · simp only [ClientOK, hp] at ok
        simp only [holding, hp, List.mem_cons]
        by_cases hr : r = r'
        · subst hr; simp [ok.2.2.1]
        · have : ¬ r' = r := fun hh => hr hh.symm
          rw [if_neg hr]
          by_cases hm : r' ∈ cl.visited.map Prod.fst
          · rw [if_pos (Or.inr hm), if_pos hm]; rfl
          · rw [if_neg (by rintro (hh | hh); exacts [this hh, hm hh]), if_neg hm]; rfl
      · simp only [ClientOK, hp, List.nodup_cons] at ok
        simp only [holding, hp, List.mem_cons]
        by_cases hr : r = r'
        · subst hr; simp [ok.2.2.1.1]
        · have : ¬ r' = r := fun hh => hr hh.symm
          simp [hr, this]
    have e1 : ∀ r', accepted r' (tr ++ [Ev.accept c r n]) = accepted r' tr + if r = r' then n else 0 := by
      intro r'; rw [accepted_snoc]
    have e2 : ∀ c' r', holds c' r' (tr ++ [Ev.accept c r n]) =
        holds c' r' tr + if c = c' ∧ r = r' then n else 0 := by
      intro c' r'; rw [holds_snoc]
    have e3 : ∀ r', lastUpdate r' (tr ++ [Ev.accept c r n]) = lastUpdate r' tr := by
      intro r'; rw [lastUpdate_snoc]
    have e4 : ∀ r', currentFn r' (tr ++ [Ev.accept c r n]) = currentFn r' tr := by
      intro r'; rw [currentFn_snoc]
    have hrl : r < s.regions.length := (List.getElem?_eq_some_iff.1 hg).1
    have key : ∀ (P : Rid → Region τ → Prop), (∀ (r1 : Rid) (g : Region τ), r ≠ r1 → s.regions[r1]? = some g → P r1 g) →
        P r { g with loop := .handle n } →
        ∀ (r1 : Rid) (g1 : Region τ), ((s.setC c cl').setR r { g with loop := .handle n }).regions[r1]? = some g1 →
          P r1 g1 := by
      intro P hP hr r1 g1 hr1
      simp only [State.setR, State.setC, List.getElem?_set, hrl, if_true] at hr1
      split at hr1
      · next he => subst he; cases hr1; exact hr
      · next he => exact hP r1 g1 he hr1
    constructor <;> try simp only [e1, e2, e3, e4]
    · intro c1 cl1 r1 hc1
      simp only [State.setC, State.setR, List.getElem?_set, hlt, if_true] at hc1
      split at hc1
      · next he =>
        cases hc1; subst he
        rw [hh, h.hold _ _ r1 hc]; simp
      · next he => rw [h.hold c1 cl1 r1 hc1]; simp [he]
    · intro c1 r1 hc1
      simp only [State.setC, State.setR, List.length_set] at hc1
      rw [h.hold0 c1 r1 hc1]
      simp; omega
    · refine key (fun r' g => g.lockCount + pendingInc g = accepted r' tr + if r = r' then n else 0) ?_ ?_
      · intro r1 g1 hne hr1; rw [h.count r1 g1 hr1]; simp [hne]
      · have := h.count r g hg
        simp only [pendingInc, hl] at this ⊢
        simp; omega
    · intro r1
      simp only [State.setC, State.setR]
      rw [sum_set _ _ _ _ _ hc, hh, h.total]; ring
    · exact key (fun r g => g.updateTime = (lastUpdate r tr).getD default) (fun r1 g1 _ hr1 => h.last r1 g1 hr1) (h.last r g hg)
    · refine key (fun r g => 1 ≤ g.lockCount → g.loop = .calling ∨ (lastUpdate r tr).isSome)
        (fun r1 g1 _ hr1 => h.upd r1 g1 hr1) ?_
      intro hge
      rcases h.upd r g hg hge with hcl | hcl
      · rw [hl] at hcl; cases hcl
      · exact .inr hcl
    · refine key (fun r g => currentFn r tr = some (match g.loop with | .handleFn f => f | _ => g.updateFunc))
        (fun r1 g1 _ hr1 => h.fnc r1 g1 hr1) ?_
      rw [h.fnc r g hg, hl]
    · intro r1 hr1
      simp only [State.setC, State.setR, List.length_set] at hr1
      have := h.fut r1 hr1
      rw [if_neg (by omega)]; simpa using this
    · exact key (fun r g => 0 ≤ g.lockCount ∧ g.loop ≠ .crashed) (fun r1 g1 _ hr1 => h.alive r1 g1 hr1)
        ⟨(h.alive r g hg).1, by simp⟩
  | handle r g n hg hl =>
    have hk := h2.loop r g hg
    simp only [loopOK, hl] at hk
    have hcount := h.count r g hg
    simp only [pendingInc, hl] at hcount
    have hnn : 0 ≤ g.lockCount + n := by
      rw [hcount, h.total]
      exact List.sum_nonneg (by simp only [List.mem_map]; rintro _ ⟨b, _, rfl⟩; exact holding_nonneg b r)
    have key : Inv3 tr (s.setR r (g.handleLockUnlock n)) := by
      unfold Region.handleLockUnlock
      simp only
      rw [if_neg (by omega)]
      split
      · refine h.setR_same hg ?_ rfl ?_ ?_ ?_
        · simp [pendingInc, hl]
        · intro _; exact .inl rfl
        · simp [hl]
        · simpa using hnn
      · next hz =>
        refine h.setR_same hg ?_ rfl ?_ ?_ ?_
        · simp [pendingInc, hl]
        · intro hge
          right
          simp only at hge
          have h0 := (h.alive r g hg).1
          rcases h.upd r g hg (by omega) with hh | hh
          · rw [hl] at hh; cases hh
          · exact hh
        · simp [hl]
        · simpa using hnn
    unfold Region.handleEvents
    split
    · exact key.quiet (by simp [plain])
    · rwa [List.append_nil]
  | updated r g t hg hl =>
    have hrl : r < s.regions.length := (List.getElem?_eq_some_iff.1 hg).1
    have key : ∀ (P : Rid → Region τ → Prop), (∀ (r1 : Rid) (g : Region τ), r ≠ r1 → s.regions[r1]? = some g → P r1 g) →
        P r { g with updateTime := t, loop := .reply t } →
        ∀ (r1 : Rid) (g1 : Region τ), (s.setR r { g with updateTime := t, loop := .reply t }).regions[r1]? = some g1 →
          P r1 g1 := by
      intro P hP hr r1 g1 hr1
      simp only [State.setR, List.getElem?_set, hrl, if_true] at hr1
      split at hr1
      · next he => subst he; cases hr1; exact hr
      · next he => exact hP r1 g1 he hr1
    have e1 : ∀ r', accepted r' (tr ++ [Ev.updEnd r g.updateFunc t]) = accepted r' tr := by
      intro r'; rw [accepted_snoc]; simp
    have e2 : ∀ c' r', holds c' r' (tr ++ [Ev.updEnd r g.updateFunc t]) = holds c' r' tr := by
      intro c' r'; rw [holds_snoc]; simp
    have e3 : ∀ r', lastUpdate r' (tr ++ [Ev.updEnd r g.updateFunc t]) =
        if r = r' then some t else lastUpdate r' tr := by
      intro r'; rw [lastUpdate_snoc]
    have e4 : ∀ r', currentFn r' (tr ++ [Ev.updEnd r g.updateFunc t]) = currentFn r' tr := by
      intro r'; rw [currentFn_snoc]
    constructor <;> try simp only [e1, e2, e3, e4]
    · exact h.hold
    · exact h.hold0
    · refine key (fun r' g => g.lockCount + pendingInc g = accepted r' tr)
        (fun r1 g1 _ hr1 => h.count r1 g1 hr1) ?_
      have := h.count r g hg
      simp only [pendingInc, hl] at this ⊢; exact this
    · exact h.total
    · refine key (fun r' g => g.updateTime = (if r = r' then some t else lastUpdate r' tr).getD default) ?_ (by simp)
      intro r1 g1 hne hr1; rw [if_neg hne]; exact h.last r1 g1 hr1
    · refine key (fun r' g => 1 ≤ g.lockCount → g.loop = .calling ∨ (if r = r' then some t else lastUpdate r' tr).isSome) ?_ ?_
      · intro r1 g1 hne hr1; rw [if_neg hne]; exact h.upd r1 g1 hr1
      · intro _; right; simp
    · refine key (fun r g => currentFn r tr = some (match g.loop with | .handleFn f => f | _ => g.updateFunc))
        (fun r1 g1 _ hr1 => h.fnc r1 g1 hr1) ?_
      rw [h.fnc r g hg, hl]
    · intro r1 hr1
      simp only [State.setR, List.length_set] at hr1
      rw [if_neg (by omega)]; exact h.fut r1 hr1
    · exact key (fun r g => 0 ≤ g.lockCount ∧ g.loop ≠ .crashed) (fun r1 g1 _ hr1 => h.alive r1 g1 hr1)
        ⟨(h.alive r g hg).1, by simp⟩
  | receive c cl cl' r g t hc hg hl hrec =>
    refine Inv3.quiet ?_ (by simp [plain])
    have hh : ∀ r', holding cl' r' = holding cl r' := by
      intro r'
      rcases receive_cases hrec with ⟨hp, rfl⟩ | ⟨todo, hp, rfl⟩ <;> simp [holding, hp]
    refine (h.setC_same hc hh).setR_same hg ?_ rfl ?_ ?_ ?_
    · simp [pendingInc, hl]
    · intro hge
      rcases h.upd r g hg hge with hh | hh
      · rw [hl] at hh; cases hh
      · exact .inr hh
    · simp [hl]
    · exact ⟨(h.alive r g hg).1, by simp⟩
  | visitDone c cl r t hc hp =>
    refine Inv3.quiet ?_ (by simp [plain])
    exact h.setC_same hc (fun r' => by simp only [holding, hp]; rfl)
  | closeBegin c cl hc hp =>
    refine Inv3.quiet ?_ (by simp [plain])
    exact h.setC_same hc (fun r' => by simp [holding, hp])
  | closeNext c cl r todo hc hp hr =>
    rw [List.append_nil]
    refine h.setC_same hc (fun r' => ?_)
    have ok := h1 c cl hc
    simp only [ClientOK, hp] at ok
    simp only [holding, hp, List.mem_cons, ok.2.2.1.mem_erase_iff]
    by_cases hr' : r' = r
    · subst hr'; simp [hr]
    · simp [hr']
  | closeEnd c cl hc hp =>
    refine Inv3.quiet ?_ (by simp [plain])
    exact h.setC_same hc (fun r' => by simp [holding, hp])
  | closeAgain c cl hc hp => rwa [List.append_nil]
  | fnBegin c cl r f hc hp hr =>
    rw [List.append_nil]
    exact h.setC_same hc (fun r' => by simp [holding, hp])
  | fnSend c cl r f g hc hp hg hl =>
    have hrl : r < s.regions.length := (List.getElem?_eq_some_iff.1 hg).1
    have h' : Inv3 tr (s.setC c { cl with pc := .fnRecv r }) :=
      h.setC_same hc (fun r' => by simp [holding, hp])
    have key : ∀ (P : Rid → Region τ → Prop), (∀ (r1 : Rid) (g : Region τ), r ≠ r1 → s.regions[r1]? = some g → P r1 g) →
        P r { g with loop := .handleFn f } →
        ∀ (r1 : Rid) (g1 : Region τ), ((s.setC c { cl with pc := .fnRecv r }).setR r
          { g with loop := .handleFn f }).regions[r1]? = some g1 → P r1 g1 := by
      intro P hP hr r1 g1 hr1
      simp only [State.setR, State.setC, List.getElem?_set, hrl, if_true] at hr1
      split at hr1
      · next he => subst he; cases hr1; exact hr
      · next he => exact hP r1 g1 he hr1
    have e1 : ∀ r', accepted r' (tr ++ [Ev.acceptFn c r f]) = accepted r' tr := by
      intro r'; rw [accepted_snoc]; simp
    have e2 : ∀ c' r', holds c' r' (tr ++ [Ev.acceptFn c r f]) = holds c' r' tr := by
      intro c' r'; rw [holds_snoc]; simp
    have e3 : ∀ r', lastUpdate r' (tr ++ [Ev.acceptFn c r f]) = lastUpdate r' tr := by
      intro r'; rw [lastUpdate_snoc]
    have e4 : ∀ r', currentFn r' (tr ++ [Ev.acceptFn c r f]) = if r = r' then some f else currentFn r' tr := by
      intro r'; rw [currentFn_snoc]
    constructor <;> try simp only [e1, e2, e3, e4]
    · exact h'.hold
    · exact h'.hold0
    · refine key (fun r' g => g.lockCount + pendingInc g = accepted r' tr)
        (fun r1 g1 _ hr1 => h.count r1 g1 hr1) ?_
      have := h.count r g hg
      simp only [pendingInc, hl] at this ⊢; exact this
    · exact h'.total
    · exact key (fun r' g => g.updateTime = (lastUpdate r' tr).getD default)
        (fun r1 g1 _ hr1 => h.last r1 g1 hr1) (h.last r g hg)
    · refine key (fun r' g => 1 ≤ g.lockCount → g.loop = .calling ∨ (lastUpdate r' tr).isSome)
        (fun r1 g1 _ hr1 => h.upd r1 g1 hr1) ?_
      intro hge
      rcases h.upd r g hg hge with hcl | hcl
      · rw [hl] at hcl; cases hcl
      · exact .inr hcl
    · refine key (fun r' g => (if r = r' then some f else currentFn r' tr) =
        some (match g.loop with | .handleFn f => f | _ => g.updateFunc)) ?_ (by simp)
      intro r1 g1 hne hr1; rw [if_neg hne]; exact h.fnc r1 g1 hr1
    · intro r1 hr1
      exact h'.fut r1 (by simpa [State.setR] using hr1)
    · exact key (fun r g => 0 ≤ g.lockCount ∧ g.loop ≠ .crashed) (fun r1 g1 _ hr1 => h.alive r1 g1 hr1)
        ⟨(h.alive r g hg).1, by simp⟩
  | fnHandle r f g hg hl =>
    rw [List.append_nil]
    refine h.setR_same hg ?_ rfl ?_ ?_ ?_
    · simp [pendingInc, hl]
    · intro hge
      rcases h.upd r g hg hge with hh | hh
      · rw [hl] at hh; cases hh
      · exact .inr hh
    · simp [hl]
    · exact ⟨(h.alive r g hg).1, by simp⟩
  | fnReceive c cl r g hc hp hg hl =>
    refine Inv3.quiet ?_ (by simp [plain])
    refine (h.setC_same hc (fun r' => by simp [holding, hp])).setR_same hg ?_ rfl ?_ ?_ ?_
    · simp [pendingInc, hl]
    · intro hge
      rcases h.upd r g hg hge with hh | hh
      · rw [hl] at hh; cases hh
      · exact .inr hh
    · simp [hl]
    · exact ⟨(h.alive r g hg).1, by simp⟩

end Tricorder.Group
