import Verif.Proof.Whole3
import Verif.Proof.Live
import Verif.Proof.Kinds
/-!
# The whole library: calls can finish
-/

namespace Tricorder.Group
open Go

variable {τ : Type} [Inhabited τ] {s s' : State τ} {es : List (Ev τ)}

/-- only a closed session panics -/
theorem Step.panicked (h : Step s es s') {c : ℕ} {cl cl' : Client τ} (hc : s.clients[c]? = some cl) (hc' : s'.clients[c]? = some cl')
    (hp : cl'.pc = .panicked) : cl.pc = .panicked ∨ cl.pc = .closed := by
  have hlt : c < s.clients.length := (List.getElem?_eq_some_iff.1 hc).1
  have same : s'.clients = s.clients → cl.pc = .panicked ∨ cl.pc = .closed := fun e => by
    rw [e, hc] at hc'; cases hc'; exact .inl hp
  have set_case : ∀ (c1 : Cid) (x : Client τ), s'.clients = s.clients.set c1 x → x.pc ≠ .panicked → cl.pc = .panicked ∨ cl.pc = .closed := by
    intro c1 x e hx
    rw [e, List.getElem?_set] at hc'
    split at hc'
    · split at hc'
      · cases hc'; exact absurd hp hx
      · cases hc'
    · rw [hc] at hc'; cases hc'; exact .inl hp
  cases h with
  | openSession =>
    rw [List.getElem?_append_left hlt, hc] at hc'
    cases hc'; exact .inl hp
  | visitNew c1 cl1 r hc1 hp1 hr hv =>
    rw [(visit_none hv).1] at set_case
    exact set_case c1 _ rfl (by simp)
  | visitClosed c1 cl1 hc1 hp1 =>
    by_cases e : c1 = c
    · subst e; rw [hc] at hc1; cases hc1; exact .inr hp1
    · have : (s.setC c1 { cl1 with pc := .panicked }).clients[c]? = s.clients[c]? := List.getElem?_set_ne e
      rw [this, hc] at hc'; cases hc'; exact .inl hp
  | send c1 cl1 cl' r g n hc1 hg hl hsend =>
    rcases send_cases hsend with ⟨-, rfl, -⟩ | ⟨todo, -, rfl, -⟩
    · exact set_case c1 _ rfl (by simp)
    · exact set_case c1 _ rfl (by simp)
  | receive c1 cl1 cl' r g t hc1 hg hl hrec =>
    rcases receive_cases hrec with ⟨-, rfl⟩ | ⟨todo, -, rfl⟩
    · exact set_case c1 _ rfl (by simp)
    · exact set_case c1 _ rfl (by simp)
  | visitDone c1 cl1 r t hc1 hp => exact set_case c1 _ rfl (by simp)
  | closeBegin c1 cl1 hc1 hp => exact set_case c1 _ rfl (by simp)
  | closeNext c1 cl1 r todo hc1 hp hr => exact set_case c1 _ rfl (by simp)
  | closeEnd c1 cl1 hc1 hp => exact set_case c1 _ rfl (by simp)
  | fnBegin c1 cl1 r f hc1 hp hr => exact set_case c1 _ rfl (by simp)
  | fnSend c1 cl1 r f g hc1 hp hg hl => exact set_case c1 _ rfl (by simp)
  | fnReceive c1 cl1 r g hc1 hp hg hl => exact set_case c1 _ rfl (by simp)
  | _ => exact same rfl

/-- in `RLock` of `r`, or just after it -/
def Locking (r : ℕ) (cl : Client τ) : Prop :=
  (cl.visited = [] ∧ (cl.pc = .lockSend r ∨ cl.pc = .lockRecv r ∨ ∃ t, cl.pc = .lockDone r t)) ∨ ∃ t, cl = ⟨[(r, t)], .user⟩

/-- in `RUnlock`, or just after it -/
def Unlocking (cl : Client τ) : Prop := isOpen cl.pc = false ∧ cl.pc ≠ .panicked

theorem Step.locking (h : Step s es s') {c r : ℕ} {cl : Client τ} (hc : s.clients[c]? = some cl) (hl : Locking r cl)
    (hu : cl.pc = .user ∨ cl.pc = .closed → s'.clients[c]? = some cl) : ∃ cl', s'.clients[c]? = some cl' ∧ Locking r cl' := by
  rcases hl with ⟨hv, hl⟩ | ⟨t, rfl⟩
  · obtain ⟨cl', h1, h2⟩ := h.client c cl hc
    refine ⟨cl', h1, ?_⟩
    rcases hl with hp | hp | ⟨t, hp⟩ <;> rw [hp] at h2 <;> simp [isOpen] at h2
    · rcases h2 with rfl | ⟨rfl, -⟩
      · exact .inl ⟨hv, .inl hp⟩
      · exact .inl ⟨hv, .inr (.inl rfl)⟩
    · rcases h2 with rfl | ⟨t, rfl, -⟩
      · exact .inl ⟨hv, .inr (.inl hp)⟩
      · exact .inl ⟨hv, .inr (.inr ⟨t, rfl⟩)⟩
    · rcases h2 with rfl | ⟨rfl, -⟩
      · exact .inl ⟨hv, .inr (.inr ⟨t, hp⟩)⟩
      · exact .inr ⟨t, by rw [hv]⟩
  · exact ⟨_, hu (.inl rfl), .inr ⟨t, rfl⟩⟩

theorem Step.unlocking (h : Step s es s') {c : ℕ} {cl : Client τ} (hc : s.clients[c]? = some cl) (hl : Unlocking cl)
    (hu : cl.pc = .user ∨ cl.pc = .closed → s'.clients[c]? = some cl) : ∃ cl', s'.clients[c]? = some cl' ∧ Unlocking cl' := by
  by_cases hcl : cl.pc = .closed
  · exact ⟨cl, hu (.inr hcl), hl⟩
  obtain ⟨cl', h1, h2⟩ := h.client c cl hc
  refine ⟨cl', h1, ?_, fun hp => ?_⟩
  · have hl1 := hl.1
    rcases h2 with rfl | ⟨e, -⟩ | ⟨r, e, -⟩ | ⟨r, t, e, -⟩ | ⟨r, t, e, -⟩ | ⟨r, f, e, -⟩ | ⟨r, e, -⟩ | ⟨e, -⟩ | ⟨-, e, -⟩
    · exact hl1
    all_goals first | exact e | (rw [e] at hl1; cases hl1)
  · rcases h.panicked hc h1 hp with e | e
    · exact hl.2 e
    · exact hcl e

end Tricorder.Group

namespace Tricorder
open Go Spec

variable {A α β : Type}

/-- `p`, started with the metrics `vs` known and holding the groups of `s`, only reads, takes only groups of known metrics,
gives back what it took last, and ends with `Q` -/
def Mannered (Q : α → Session → Prop) : List MetricView → Prog α → Session → Prop
  | _, .ret a, s => Q a s
  | vs, .op (.rlock r) k, s => (∃ mv ∈ vs, mv.value.region = some r) ∧ ∀ t, Mannered Q vs (k t) ((r, t) :: s)
  | vs, .op (.runlock r) k, s => ∃ t s', s = (r, t) :: s' ∧ Mannered Q vs (k ()) s'
  | vs, .op (.metric _) k, s => ∀ x : Option MetricView, Mannered Q (x.toList ++ vs) (k x) s
  | vs, .op c k, s => c.reads = true ∧ ∀ x, Mannered Q vs (k x) s

theorem Careful.mannered {Q : α → Session → Prop} {p : Prog α} {vs : List MetricView} {s : Session} (h : Careful Q vs p s) :
    Mannered Q vs p s := by
  induction p generalizing vs s with
  | ret a => exact h
  | op c k ih =>
    cases c with
    | rlock r => exact ⟨h.2.1, fun t => ih t (h.2.2 t)⟩
    | runlock r => obtain ⟨t, s', e, h⟩ := h; exact ⟨t, s', e, ih () h⟩
    | metric m => exact fun x => ih x (h x)
    | getEntry d n => exact ⟨rfl, fun x => ih x (h x)⟩
    | list d => exact ⟨rfl, fun x => ih x (h x)⟩
    | dirAbsPath d => exact ⟨rfl, fun x => ih x (h x)⟩
    | snapshot d => exact ⟨rfl, fun x => ih x (h x)⟩
    | getList d => exact ⟨rfl, fun x => ih x (h x)⟩
    | readVar d => exact ⟨rfl, fun x => ih x (h.2 x)⟩
    | callFn d => exact ⟨rfl, fun x => ih x (h.2 x)⟩
    | callFlagGet d => exact ⟨rfl, fun x => ih x (h.2 x)⟩
    | callFlagString d => exact ⟨rfl, fun x => ih x (h.2 x)⟩
    | regionId d => exact ⟨rfl, fun x => ih x (h x)⟩
    | _ => exact h.elim

theorem Mannered_bind {Q : α → Session → Prop} {R : β → Session → Prop} {p : Prog α} {q : α → Prog β}
    {vs vs' : List MetricView} {s : Session} (hp : Mannered Q vs p s) (hv : vs ⊆ vs')
    (hq : ∀ a s' vs'', vs' ⊆ vs'' → Q a s' → Mannered R vs'' (q a) s') : Mannered R vs' (p.bind q) s := by
  induction p generalizing s vs vs' with
  | ret a => exact hq a s _ (fun _ h => h) hp
  | op c k ih =>
    cases c with
    | rlock r =>
      obtain ⟨⟨mv, h2, h3⟩, h4⟩ := hp
      exact ⟨⟨mv, hv h2, h3⟩, fun t => ih t (h4 t) hv hq⟩
    | runlock r =>
      obtain ⟨t, s', h1, h2⟩ := hp
      exact ⟨t, s', h1, ih () h2 hv hq⟩
    | metric d =>
      intro x
      refine ih x (hp x) ?_ fun a s' vs'' h => hq a s' vs'' fun y hy => h (List.mem_append_right _ hy)
      intro y hy
      rcases List.mem_append.mp hy with h | h
      · exact List.mem_append_left _ h
      · exact List.mem_append_right _ (hv h)
    | _ => exact ⟨hp.1, fun x => ih x (hp.2 x) hv hq⟩

/-- started with nothing, it ends with nothing -/
def Polite (p : Prog α) : Prop := ∀ vs, Mannered (fun _ s' => s' = []) vs p []

theorem Tidy.polite {p : Prog α} (h : Tidy p) : Polite p := fun vs => Careful.mannered (h vs)

theorem Polite.map {p : Prog α} (h : Polite p) (f : α → A) : Polite (p.bind fun x => .ret (f x)) :=
  fun vs => Mannered_bind (h vs) (fun _ h => h) fun _ _ _ _ h => h

theorem evalAlone_polite {mv : MetricView} {vs : List MetricView} (hm : mv ∈ vs) :
    Mannered (fun _ s' => s' = []) vs (evalAlone mv.value) [] := by
  refine Mannered_bind (Careful.mannered (evalIn_careful hm [])) (fun _ h => h) ?_
  rintro ⟨s1, o⟩ s' vs' - ⟨rfl, -⟩
  exact Mannered_bind (Careful.mannered (close_careful vs' s1)) (fun _ h => h) fun _ _ _ _ h => h

theorem asTextString_polite (fm : Fmts) {mv : MetricView} {vs : List MetricView} (hm : mv ∈ vs) :
    Mannered (fun _ s' => s' = []) vs (asTextString fm mv.value none) [] := by
  unfold asTextString
  split
  · rfl
  · unfold readAs
    refine Mannered_bind (Q := fun _ s' => s' = []) (vs := vs) ?_ (fun _ h => h) ?_
    · exact Mannered_bind (evalAlone_polite hm) (fun _ h => h) fun _ _ _ _ h => h
    · rintro ⟨s1, o⟩ s' vs' - rfl
      cases o with
      | panic => rfl
      | ok h =>
        refine Mannered_bind (Q := fun _ s'' => s'' = []) (vs := vs') ?_ (fun _ h => h) ?_
        · cases h with
          | val d => rfl
          | var v => exact ⟨rfl, fun _ => rfl⟩
        · rintro d s'' vs'' - rfl
          split <;> rfl

theorem textEndpoint_polite (fm : Fmts) {W : Type} (wr : Writer W) (fuel : ℕ) (path : Str) (x : W) :
    Polite (textEndpoint fm wr fuel path x) := by
  intro vs
  refine Mannered_bind (Careful.mannered (lookupPath_mild 0 path vs [])) (fun _ h => h) ?_
  rintro ⟨d, m⟩ s' vs' - rfl
  match d, m with
  | none, none => rfl
  | some d, none => exact Tidy.polite (getAllMetrics_tidy (textColl_careful fm wr) fuel d x) vs'
  | d, some m =>
    have : Mannered (fun _ s' => s' = []) vs' (.op (.metric m) fun
      | none => .ret (x, .panic)
      | some mv => (textEmitMetric fm wr mv none x).bind fun r => .ret r.2) [] := ?_
    · cases d <;> exact this
    intro r
    match r with
    | none => rfl
    | some mv =>
      refine Mannered_bind (Q := fun _ s' => s' = []) ?_ (fun _ h => h) fun _ _ _ _ h => h
      have hm : mv ∈ (some mv).toList ++ vs' := by simp
      unfold textEmitMetric
      split
      · split
        · rfl
        · refine ⟨rfl, fun x => ?_⟩
          cases x <;> rfl
      · split
        · split
          · rfl
          · refine ⟨rfl, fun x => ?_⟩
            cases x with
            | none => rfl
            | some y =>
              dsimp only
              split <;> rfl
        · refine Mannered_bind (asTextString_polite fm hm) (fun _ h => h) ?_
          rintro ⟨a, o⟩ s' vs'' - rfl
          cases o <;> rfl

end Tricorder

namespace Tricorder.Whole
open Go Spec

variable {A : Type} {w : World} {tr : List (Item A)} {s s' : St A} {it : Item A} {Q : A → Session → Prop} {c : ℕ}

/-! ### Known groups -/

theorem exec_regions (cmd : Cmd) (σ : State) : σ.regions.length ≤ (exec w cmd σ).1.regions.length ∧
    (cmd ≠ .newRegion → (exec w cmd σ).1.regions = σ.regions) := by
  by_cases h : cmd = .newRegion
  · subst h
    exact ⟨by simp [exec], fun h => absurd rfl h⟩
  · have : (exec w cmd σ).1.regions = σ.regions := by
      cases cmd with
      | newRegion => exact absurd rfl h
      | setUnit i u => simp only [exec]; split <;> rfl
      | distCall i d => simp only [exec]; split <;> rfl
      | newList a m t => simp only [exec, State.newList]; split <;> rfl
      | changeList i a m t =>
        simp only [exec, State.changeList]
        split
        · rfl
        · split
          · rfl
          · split <;> rfl
      | writeVar v d => simp only [exec]; split <;> (try split) <;> rfl
      | _ => rfl
    exact ⟨this ▸ le_rfl, fun _ => this⟩

/-- as many groups as event loops, and every metric belongs to one of them -/
structure Known (s : St A) : Prop where
  len : s.mem.regions.length = s.grp.regions.length
  reg : ∀ (m : ℕ) mo r, s.mem.tree.metrics[m]? = some mo → mo.value.region = some r → r < s.mem.regions.length

theorem Known.view (h : Known s) {m : ℕ} {mv : MetricView} {r : ℕ} (hm : metricView s.mem.tree m = some mv)
    (hr : mv.value.region = some r) : r < s.grp.regions.length := by
  unfold metricView at hm
  split at hm
  · rename_i mo p h1 h2
    cases hm
    exact h.len ▸ h.reg m mo r h1 hr
  · cases hm

theorem group_regions_le {a b : Group.State Time} {es} (h : Group.Step a es b) : a.regions.length ≤ b.regions.length := by
  by_contra hlt
  rw [not_le] at hlt
  obtain ⟨g', h1, -⟩ := h.region _ _ (List.getElem?_eq_getElem hlt)
  have := (List.getElem?_eq_some_iff.mp h1).1
  omega

theorem Step.known (hs : Step w s it s') (h : Known s) (hk : KnownGroup it) :
    Known s' ∧ s.grp.regions.length ≤ s'.grp.regions.length := by
  have mem : ∀ (cmd : Cmd), MemOnly cmd → (∀ d name desc v r, cmd = .storeMetric d name desc v → v.region = some r →
      r < s.mem.regions.length) → ∀ procs, Known (⟨(exec w cmd s.mem).1, s.grp, procs⟩ : St A) := by
    intro cmd hm hst procs
    have e := (exec_regions (w := w) cmd s.mem).2 (fun e => by subst e; exact hm)
    refine ⟨by show (exec w cmd s.mem).1.regions.length = _; rw [e]; exact h.len, fun m mo r h1 h2 => ?_⟩
    show r < (exec w cmd s.mem).1.regions.length
    rw [e]
    rcases exec_metric h1 with h3 | ⟨d, name, desc, h3⟩
    · exact h.reg m mo r h3 h2
    · exact hst d name desc _ r h3 h2
  cases hs with
  | own c held cmd k h1 h2 h3 =>
    exact ⟨mem cmd h2 (fun d name desc v r e hr => hk d name desc v r (.inl ⟨c, by rw [e]⟩) hr) _, le_rfl⟩
  | newGroup c held k h1 =>
    refine ⟨⟨by simp [exec, h.len], fun m mo r h1 h2 => ?_⟩, by simp⟩
    have := h.reg m mo r h1 h2
    simp only [exec, List.length_append]
    omega
  | upd q g cmd h1 h2 h3 h4 =>
    exact ⟨mem cmd h3 (fun d name desc v r e hr => hk d name desc v r (.inr ⟨q, by rw [e]⟩) hr) _, le_rfl⟩
  | loop es g h1 h2 h3 => exact ⟨⟨h.len.trans h2.symm, h.reg⟩, h2.ge⟩
  | spawn p => exact ⟨⟨h.len, h.reg⟩, le_rfl⟩
  | asks c r held k h1 h2 => exact ⟨⟨h.len, h.reg⟩, le_rfl⟩
  | took c r cl t held k h1 h2 => exact ⟨⟨h.len, h.reg⟩, le_rfl⟩
  | gives c r cl client held k h1 h2 h3 h4 => exact ⟨⟨h.len, h.reg⟩, le_rfl⟩
  | gave c r cl client held k h1 h2 h3 => exact ⟨⟨h.len, h.reg⟩, le_rfl⟩

theorem Run.known (h : Run w tr s) (hk : ∀ it ∈ tr, KnownGroup it) : Known s := by
  induction h with
  | nil => exact ⟨rfl, fun m mo r h1 => by simp [start, State.init, Tree.init] at h1⟩
  | snoc _ hs ih =>
    exact (hs.known (ih fun it hit => hk it (List.mem_append_left _ hit)) (hk _ (List.mem_append_right _ (by simp)))).1

/-! ### Where a goroutine is -/

/-- where a goroutine is; `vs` are the metrics that it has looked at, `ss` is what it holds -/
inductive AtC (Q : A → Session → Prop) (G : Group.State Time) : List MetricView → Session → Proc A → Prop where
  | run {vs ss p held} : Mannered Q vs p ss → List.Forall₂ (Linked G) ss held → AtC Q G vs ss ⟨.run p, held⟩
  | lock {vs ss cl r k held client} : (∀ t, Mannered Q vs (k t) ((r, t) :: ss)) → List.Forall₂ (Linked G) ss held →
      G.clients[cl]? = some client → Group.Locking r client → AtC Q G vs ss ⟨.lock cl r k, held⟩
  | unlock {vs ss cl r k held client} : Mannered Q vs (k ()) ss → List.Forall₂ (Linked G) ss held →
      G.clients[cl]? = some client → Group.Unlocking client → AtC Q G vs ss ⟨.unlock cl r k, (r, cl) :: held⟩

theorem _root_.Tricorder.Mannered.own {cmd : Cmd} {k : cmd.Resp → Prog A} {vs : List MetricView} {ss : Session}
    (h : Mannered Q vs (.op cmd k) ss) (hm : MemOnly cmd) (σ : State) : ∃ vs', Mannered Q vs' (k (exec w cmd σ).2) ss ∧
      ∀ v ∈ vs', v ∈ vs ∨ ∃ m, metricView σ.tree m = some v := by
  cases cmd with
  | rlock => exact hm.elim
  | runlock => exact hm.elim
  | metric m =>
    refine ⟨_, h (metricView σ.tree m), fun v hv => ?_⟩
    rcases List.mem_append.mp hv with hv | hv
    · exact .inr ⟨m, Option.mem_toList.mp hv⟩
    · exact .inl hv
  | _ => exact ⟨vs, h.2 _, fun v hv => .inl hv⟩

/-- what a client of goroutine `c` does in a step, unless `c` gives it up -/
theorem Step.client (hr : Run w tr s) (hs : Step w s it s') {p : Proc A} (hp : s.procs[c]? = some p) {cl : ℕ} (hcl : cl ∈ p.clients)
    (hg : ∀ r, it.lab ≠ .gives c r cl) {P : Group.Client Time → Prop}
    (hP : ∀ {es G client}, Group.Step s.grp es G → s.grp.clients[cl]? = some client → P client →
      (client.pc = .user ∨ client.pc = .closed → G.clients[cl]? = some client) → ∃ client', G.clients[cl]? = some client' ∧ P client')
    {client : Group.Client Time} (hc : s.grp.clients[cl]? = some client) (hpc : P client) :
    ∃ client', s'.grp.clients[cl]? = some client' ∧ P client' := by
  have hlt := (List.getElem?_eq_some_iff.mp hc).1
  cases hs with
  | asks c r held k h1 h2 =>
    refine ⟨client, ?_, hpc⟩
    dsimp only
    rw [List.getElem?_append_left hlt]
    exact hc
  | gives c' r cl' client' held k h1 h2 h3 h4 =>
    refine ⟨client, ?_, hpc⟩
    have hne : cl' ≠ cl := by
      rintro rfl
      by_cases hcc : c' = c
      · subst hcc
        exact hg r rfl
      · have : cl' ∈ held.map Prod.snd := by
          obtain ⟨l1, l2, e, -⟩ := List.lookup_eq_some_iff.mp h2
          rw [e]; simp
        exact hr.own_inv.disj (Ne.symm hcc) hp h1 _ hcl this
    show (s.grp.clients.set cl' _)[cl]? = _
    rw [List.getElem?_set_ne hne]
    exact hc
  | loop es G h1 h2 h3 =>
    exact hP h1 hc hpc fun h => h3 p (List.mem_of_getElem? hp) cl hcl client hc h
  | _ => exact ⟨client, hc, hpc⟩

/-- a step by somebody else -/
theorem Step.otherC (hr : Run w tr s) (hs : Step w s it s') {p : Proc A} (hp : s.procs[c]? = some p)
    (hg : ∀ r cl, it.lab ≠ .gives c r cl) {vs : List MetricView} {ss : Session} (ha : AtC Q s.grp vs ss p) : AtC Q s'.grp vs ss p := by
  cases ha with
  | run h1 h2 => exact .run h1 (hs.keeps hr hp (fun y hy => List.mem_map_of_mem hy) (fun y hy r => hg r _) h2).1
  | lock h1 h2 h3 h4 =>
    obtain ⟨k1, -⟩ := hs.keeps hr hp (fun y hy => List.mem_cons_of_mem _ (List.mem_map_of_mem hy)) (fun y hy r => hg r _) h2
    obtain ⟨client', h5, h6⟩ := hs.client hr hp (by simp [Proc.clients]) (fun r => hg r _) (fun a b c d => a.locking b c d) h3 h4
    exact .lock h1 k1 h5 h6
  | unlock h1 h2 h3 h4 =>
    obtain ⟨k1, -⟩ := hs.keeps hr hp (fun y hy => List.mem_cons_of_mem _ (List.mem_map_of_mem hy)) (fun y hy r => hg r _) h2
    obtain ⟨client', h5, h6⟩ := hs.client hr hp (by simp [Proc.clients]) (fun r => hg r _) (fun a b c d => a.unlocking b c d) h3 h4
    exact .unlock h1 k1 h5 h6

/-- what is known of goroutine `c` -/
def FollowsC (Q : A → Session → Prop) (c : ℕ) (s : St A) : Prop :=
  ∃ p vs ss, s.procs[c]? = some p ∧ AtC Q s.grp vs ss p ∧ ∀ v ∈ vs, ∀ r, v.value.region = some r → r < s.grp.regions.length

theorem Step.followsC (hr : Run w tr s) (hk : Known s) (hs : Step w s it s') (hkn : KnownGroup it) (h : FollowsC Q c s) :
    FollowsC Q c s' := by
  obtain ⟨p, vs, ss, hp, ha, hv⟩ := h
  have hle := (hs.known hk hkn).2
  have hv' : ∀ v ∈ vs, ∀ r, v.value.region = some r → r < s'.grp.regions.length := fun v h r hr => (hv v h r hr).trans_le hle
  have hs0 := hs
  cases hs with
  | spawn q =>
    refine ⟨p, vs, ss, ?_, hs0.otherC hr hp (fun _ _ h => nomatch h) ha, hv'⟩
    rw [List.getElem?_append_left (List.getElem?_eq_some_iff.mp hp).1]
    exact hp
  | own c' held cmd k h1 h2 h3 =>
    have k1 := hs0.otherC hr hp (fun _ _ h => nomatch h) ha
    by_cases hc : c' = c
    · subst hc
      rw [h1] at hp; cases hp
      cases k1 with
      | run hw hl =>
        obtain ⟨vs', e1, e2⟩ := Tricorder.Mannered.own hw h2 s.mem (w := w)
        refine ⟨_, vs', ss, getElem?_set_same h1, .run e1 hl, fun v hv r hr => ?_⟩
        rcases e2 v hv with hv | ⟨m, hm⟩
        · exact hv' v hv r hr
        · exact hk.view hm hr
    · exact ⟨p, vs, ss, (getElem?_set_other hc).trans hp, k1, hv'⟩
  | newGroup c' held k h1 =>
    have k1 := hs0.otherC hr hp (fun _ _ h => nomatch h) ha
    by_cases hc : c' = c
    · subst hc
      rw [h1] at hp; cases hp
      cases k1 with
      | run hw hl => exact (nomatch hw.1)
    · exact ⟨p, vs, ss, (getElem?_set_other hc).trans hp, k1, hv'⟩
  | upd r G cmd h1 h2 h3 => exact ⟨p, vs, ss, hp, hs0.otherC hr hp (fun _ _ h => nomatch h) ha, hv'⟩
  | asks c' r held k h1 h2 =>
    have k1 := hs0.otherC hr hp (fun _ _ h => nomatch h) ha
    by_cases hc : c' = c
    · subst hc
      rw [h1] at hp; cases hp
      cases k1 with
      | run hw hl =>
        refine ⟨_, vs, ss, getElem?_set_same h1, .lock hw.2 hl (client := ⟨[], .lockSend r⟩) ?_ (.inl ⟨rfl, .inl rfl⟩), hv'⟩
        simp
    · exact ⟨p, vs, ss, (getElem?_set_other hc).trans hp, k1, hv'⟩
  | took c' r cl t held k h1 h2 =>
    have k1 := hs0.otherC hr hp (fun _ _ h => nomatch h) ha
    by_cases hc : c' = c
    · subst hc
      rw [h1] at hp; cases hp
      cases k1 with
      | lock hw hl _ _ => exact ⟨_, vs, _, getElem?_set_same h1, .run (hw t) (.cons ⟨rfl, h2⟩ hl), hv'⟩
    · exact ⟨p, vs, ss, (getElem?_set_other hc).trans hp, k1, hv'⟩
  | gives c' r cl client held k h1 h2 h3 h4 =>
    by_cases hc : c' = c
    · subst hc
      rw [h1] at hp; cases hp
      have hnd := hr.own_inv.nodup h1
      cases ha with
      | run hw hl =>
        obtain ⟨t, ss, rfl, hw⟩ := hw
        cases hl with
        | @cons _ y _ held' hy hl =>
          obtain ⟨r', cl'⟩ := y
          obtain rfl : r' = r := hy.1
          obtain rfl : cl' = cl := by
            rw [List.lookup_cons_self] at h2
            exact Option.some.inj h2
          have hnd' : cl' ∉ held'.map Prod.snd := (List.nodup_cons.mp hnd).1
          obtain ⟨e1, -⟩ := hs0.keeps hr h1 (held := held') (fun y hy => List.mem_cons_of_mem _ (List.mem_map_of_mem hy))
            (fun y hy' r h => by cases h; exact hnd' (List.mem_map_of_mem hy')) hl
          refine ⟨_, vs, ss, getElem?_set_same h1, .unlock hw e1 (client := { client with pc := .closing (client.visited.map Prod.fst) }) ?_ ?_, hv'⟩
          · show (s.grp.clients.set cl' _)[cl']? = _
            simp [(List.getElem?_eq_some_iff.mp h3).1]
          · exact ⟨rfl, by simp⟩
    · exact ⟨p, vs, ss, (getElem?_set_other hc).trans hp, hs0.otherC hr hp (fun _ _ h => by cases h; exact hc rfl) ha, hv'⟩
  | gave c' r cl client held k h1 h2 h3 =>
    have k1 := hs0.otherC hr hp (fun _ _ h => nomatch h) ha
    by_cases hc : c' = c
    · subst hc
      rw [h1] at hp; cases hp
      cases k1 with
      | unlock hw hl _ _ =>
        refine ⟨_, vs, ss, getElem?_set_same h1, ?_, hv'⟩
        rw [List.erase_cons_head]
        exact .run hw hl
    · exact ⟨p, vs, ss, (getElem?_set_other hc).trans hp, k1, hv'⟩
  | loop es G h1 h2 h3 => exact ⟨p, vs, ss, hp, hs0.otherC hr hp (fun _ _ h => nomatch h) ha, hv'⟩

theorem Run.followsC (h : Run w tr s) (hk : ∀ it ∈ tr, KnownGroup it) {p : Prog A} (hw : Mannered Q [] p [])
    (hit : ∃ it ∈ tr, it.lab = .spawn c p) : FollowsC Q c s := by
  induction h with
  | nil => obtain ⟨it, h, -⟩ := hit; exact nomatch h
  | @snoc tr s it s' hr hs ih =>
    have hk' : ∀ it ∈ tr, KnownGroup it := fun it hit => hk it (List.mem_append_left _ hit)
    obtain ⟨i, hi, hl⟩ := hit
    rcases List.mem_append.mp hi with hi | hi
    · exact hs.followsC hr (hr.known hk') (hk _ (List.mem_append_right _ (by simp))) (ih hk' ⟨i, hi, hl⟩)
    · obtain rfl : i = it := List.mem_singleton.mp hi
      cases hs <;> cases hl
      exact ⟨_, [], [], List.getElem?_concat_length, .run hw .nil, fun _ h => nomatch h⟩

/-! ### Finishing -/

/-- nothing but what `c` does, and the loops; the memory stays as it is -/
structure Ahead (w : World) (c : ℕ) (tr : List (Item A)) (s : St A) (tr' : List (Item A)) (s' : St A) : Prop where
  run : Run w (tr ++ tr') s'
  alone : ∀ it ∈ tr', Alone c it
  mem : s'.mem = s.mem
  others : ∀ c', c' ≠ c → s'.procs[c']? = s.procs[c']?

theorem Ahead.refl (hr : Run w tr s) : Ahead w c tr s [] s := ⟨by simpa using hr, by simp, rfl, fun _ _ => rfl⟩

theorem Ahead.trans {tr1 tr2 : List (Item A)} {s1 s2 : St A} (h1 : Ahead w c tr s tr1 s1) (h2 : Ahead w c (tr ++ tr1) s1 tr2 s2) :
    Ahead w c tr s (tr1 ++ tr2) s2 :=
  ⟨by rw [← List.append_assoc]; exact h2.run, fun it hit => by
    rcases List.mem_append.mp hit with hit | hit
    · exact h1.alone it hit
    · exact h2.alone it hit, h2.mem.trans h1.mem, fun c' hc => (h2.others c' hc).trans (h1.others c' hc)⟩

theorem Ahead.one (hr : Run w tr s) (hs : Step w s it s') (ha : Alone c it) (hm : s'.mem = s.mem)
    (ho : ∀ c', c' ≠ c → s'.procs[c']? = s.procs[c']?) : Ahead w c tr s [it] s' :=
  ⟨hr.snoc hs, by simpa using ha, hm, ho⟩

theorem Alone.known {it : Item A} (h : Alone c it) (hm : ∀ cmd, it.lab = .own c cmd → cmd.reads = true) : KnownGroup it := by
  intro d name desc v r hl hr
  rcases hl with ⟨c', hl⟩ | ⟨q, hl⟩
  · rcases h with ⟨cmd, h⟩ | ⟨_, _, h⟩ | ⟨_, _, _, h⟩ | ⟨_, _, h⟩ | ⟨_, _, h⟩ | ⟨h, -⟩ <;> rw [hl] at h <;> cases h
    have := hm _ hl
    cases this
  · rcases h with ⟨cmd, h⟩ | ⟨_, _, h⟩ | ⟨_, _, _, h⟩ | ⟨_, _, h⟩ | ⟨_, _, h⟩ | ⟨h, -⟩ <;> rw [hl] at h <;> cases h

/-- a goroutine with what is known of it, in a run -/
structure Here (Q : A → Session → Prop) (w : World) (c : ℕ) (tr : List (Item A)) (s : St A) (p : Proc A) : Prop where
  run : Run w tr s
  known : Known s
  follows : FollowsC Q c s
  proc : s.procs[c]? = some p

/-- a step of its own -/
theorem Here.step {p p' : Proc A} (h : Here Q w c tr s p) (hs : Step w s it s') (ha : Alone c it)
    (hm : ∀ cmd, it.lab = .own c cmd → cmd.reads = true) (hmem : s'.mem = s.mem) (hp : s'.procs = s.procs.set c p') :
    Here Q w c (tr ++ [it]) s' p' ∧ Ahead w c tr s [it] s' := by
  have hk := ha.known hm
  refine ⟨⟨h.run.snoc hs, (hs.known h.known hk).1, hs.followsC h.run h.known hk h.follows, ?_⟩, .one h.run hs ha hmem fun c' hc => ?_⟩
  · rw [hp]; exact getElem?_set_same h.proc
  · rw [hp]; exact getElem?_set_other (Ne.symm hc)

/-- a step of a loop -/
theorem Here.loop {p : Proc A} (h : Here Q w c tr s p) {es : List (Group.Ev Time)} {g : Group.State Time} (hs : Group.Step s.grp es g)
    (hg : Group.Gentle s.grp es g) : ∃ it : Item A, Here Q w c (tr ++ [it]) { s with grp := g } p ∧ Ahead w c tr s [it] { s with grp := g } := by
  have hs' : Step w s ⟨.loop, es, s.mem, s.mem⟩ { s with grp := g } :=
    .loop s es g hs hg.regions (fun p _ cl _ client h1 h2 => hg.idle cl client h1 h2)
  have ha : Alone c (⟨.loop, es, s.mem, s.mem⟩ : Item A) := .inr (.inr (.inr (.inr (.inr ⟨rfl, hg.quiet⟩))))
  have hk : KnownGroup (⟨.loop, es, s.mem, s.mem⟩ : Item A) := ha.known (fun _ h => nomatch h)
  exact ⟨_, ⟨h.run.snoc hs', (hs'.known h.known hk).1, hs'.followsC h.run h.known hk h.follows, h.proc⟩,
    .one h.run hs' ha rfl fun _ _ => rfl⟩

/-- `RLock` returns -/
theorem Here.locked {cl r : ℕ} {k : Time → Prog A} {held : List (ℕ × ℕ)} (h : Here Q w c tr s ⟨.lock cl r k, held⟩) :
    ∃ tr' s' t, Ahead w c tr s tr' s' ∧ Here Q w c (tr ++ tr') s' ⟨.lock cl r k, held⟩ ∧ s'.grp.clients[cl]? = some ⟨[(r, t)], .user⟩ := by
  obtain ⟨p, vs, ss, h1, h2, -⟩ := h.follows
  rw [h.proc] at h1
  cases h1
  obtain ⟨client, hc, hl⟩ : ∃ client, s.grp.clients[cl]? = some client ∧ Group.Locking r client := by
    cases h2
    exact ⟨_, ‹_›, ‹_›⟩
  clear h2
  generalize hn : Group.work client + Group.loops s.grp = n
  induction n using Nat.strong_induction_on generalizing tr s client with
  | _ n ih =>
    rcases hl with ⟨-, hl⟩ | ⟨t, rfl⟩
    · have hb : Group.busy client.pc = true := by
        rcases hl with e | e | ⟨t, e⟩ <;> rw [e] <;> rfl
      obtain ⟨es, g, cl', h3, h4, h5, h6⟩ := Group.client_gentle (h.run.inv) cl client hc hb
      obtain ⟨it, h7, h8⟩ := h.loop h3 h4
      obtain ⟨p, vs, ss, h9, h10, -⟩ := h7.follows
      rw [h7.proc] at h9
      cases h9
      cases h10 with
      | lock _ _ hc' hl' =>
        rw [h5] at hc'
        cases hc'
        obtain ⟨tr', s', t, k1, k2, k3⟩ := ih _ (hn ▸ h6) h7 _ h5 hl' rfl
        exact ⟨_, s', t, h8.trans k1, by rw [← List.append_assoc]; exact k2, k3⟩
    · exact ⟨[], s, t, .refl h.run, by simpa using h, hc⟩

/-- `RUnlock` returns -/
theorem Here.unlocked {cl r : ℕ} {k : Unit → Prog A} {held : List (ℕ × ℕ)} (h : Here Q w c tr s ⟨.unlock cl r k, held⟩) :
    ∃ tr' s' client, Ahead w c tr s tr' s' ∧ Here Q w c (tr ++ tr') s' ⟨.unlock cl r k, held⟩ ∧
      s'.grp.clients[cl]? = some client ∧ client.pc = .closed := by
  obtain ⟨p, vs, ss, h1, h2, -⟩ := h.follows
  rw [h.proc] at h1
  cases h1
  obtain ⟨client, hc, hl⟩ : ∃ client, s.grp.clients[cl]? = some client ∧ Group.Unlocking client := by
    cases h2
    exact ⟨_, ‹_›, ‹_›⟩
  clear h2
  generalize hn : Group.work client + Group.loops s.grp = n
  induction n using Nat.strong_induction_on generalizing tr s client with
  | _ n ih =>
    by_cases hcl : client.pc = .closed
    · exact ⟨[], s, client, .refl h.run, by simpa using h, hc, hcl⟩
    · have hb : Group.busy client.pc = true := by
        obtain ⟨a, b⟩ := hl
        revert a b hcl
        cases client.pc <;> simp [Group.isOpen, Group.busy]
      obtain ⟨es, g, cl', h3, h4, h5, h6⟩ := Group.client_gentle (h.run.inv) cl client hc hb
      obtain ⟨it, h7, h8⟩ := h.loop h3 h4
      obtain ⟨p, vs, ss, h9, h10, -⟩ := h7.follows
      rw [h7.proc] at h9
      cases h9
      cases h10 with
      | unlock _ _ hc' hl' =>
        rw [h5] at hc'
        cases hc'
        obtain ⟨tr', s', client', k1, k2, k3⟩ := ih _ (hn ▸ h6) h7 _ h5 hl' rfl
        exact ⟨_, s', client', h8.trans k1, by rw [← List.append_assoc]; exact k2, k3⟩

theorem _root_.Tricorder.Mannered.reads {cmd : Cmd} {k : cmd.Resp → Prog A} {vs : List MetricView} {ss : Session}
    (h : Mannered Q vs (.op cmd k) ss) : cmd.reads = true := by
  cases cmd <;> first | rfl | exact h.1

theorem reads_ok {cmd : Cmd} (h : cmd.reads = true) (σ : State) : cmd.Ok σ := by
  cases cmd <;> first | trivial | cases h

/-- the program ends -/
theorem Here.finish {p : Prog A} {held : List (ℕ × ℕ)} (h : Here Q w c tr s ⟨.run p, held⟩) :
    ∃ tr' s' r held', Ahead w c tr s tr' s' ∧ Here Q w c (tr ++ tr') s' ⟨.run (.ret r), held'⟩ := by
  induction p generalizing tr s held with
  | ret r => exact ⟨[], s, r, held, .refl h.run, by simpa using h⟩
  | op cmd k ih =>
    obtain ⟨q, vs, ss, h1, h2, hv⟩ := h.follows
    rw [h.proc] at h1
    cases h1
    cases h2 with
    | run hw hl =>
    have glue : ∀ {tr1 s1 x held1}, Ahead w c tr s tr1 s1 → Here Q w c (tr ++ tr1) s1 ⟨.run (k x), held1⟩ →
        ∃ tr' s' r held', Ahead w c tr s tr' s' ∧ Here Q w c (tr ++ tr') s' ⟨.run (.ret r), held'⟩ := by
      intro tr1 s1 x held1 a b
      obtain ⟨tr', s', r, held', k1, k2⟩ := ih x b
      exact ⟨_, s', r, held', a.trans k1, by rw [← List.append_assoc]; exact k2⟩
    have hrd := Tricorder.Mannered.reads hw
    by_cases hm : MemOnly cmd
    · have hmem := exec_reads (w := w) hrd s.mem
      have hs : Step w s _ _ := .own s c held cmd k h.proc hm (reads_ok hrd _)
      obtain ⟨k1, k2⟩ := h.step hs (.inl ⟨cmd, rfl⟩) (fun cmd' e => by cases e; exact hrd) hmem rfl
      exact glue k2 k1
    · cases cmd with
      | rlock r =>
        obtain ⟨⟨mv, hmv, hr⟩, -⟩ := hw
        have hs : Step w s _ _ := .asks s c r held k h.proc (hv mv hmv r hr)
        obtain ⟨k1, k2⟩ := h.step hs (.inr (.inl ⟨_, _, rfl⟩)) (fun _ e => nomatch e) rfl rfl
        obtain ⟨tr2, s2, t, k3, k4, k5⟩ := k1.locked
        have hs2 : Step w s2 _ _ := .took s2 c r _ t held k k4.proc k5
        obtain ⟨k6, k7⟩ := k4.step hs2 (.inr (.inr (.inl ⟨_, _, _, rfl⟩))) (fun _ e => nomatch e) rfl rfl
        exact glue ((k2.trans k3).trans (by simpa using k7)) (by simpa using k6)
      | runlock r =>
        obtain ⟨t, ss, rfl, -⟩ := hw
        cases hl with
        | @cons _ y _ held' hy hl =>
        obtain ⟨r', cl⟩ := y
        obtain rfl : r' = r := hy.1
        have hs : Step w s _ _ := .gives s c r' cl _ _ k h.proc List.lookup_cons_self hy.2 rfl
        obtain ⟨k1, k2⟩ := h.step hs (.inr (.inr (.inr (.inl ⟨_, _, rfl⟩)))) (fun _ e => nomatch e) rfl rfl
        obtain ⟨tr2, s2, client, k3, k4, k5, k8⟩ := k1.unlocked
        have hs2 : Step w s2 _ _ := .gave s2 c r' cl client _ k k4.proc k5 k8
        obtain ⟨k6, k7⟩ := k4.step hs2 (.inr (.inr (.inr (.inr (.inl ⟨_, _, rfl⟩))))) (fun _ e => nomatch e) rfl rfl
        exact glue ((k2.trans k3).trans (by simpa using k7)) (by simpa using k6)
      | _ => first | exact absurd trivial hm | cases hrd

/-- wherever it is, it ends -/
theorem Here.ends {p : Proc A} (h : Here Q w c tr s p) :
    ∃ tr' s' r held', Ahead w c tr s tr' s' ∧ Here Q w c (tr ++ tr') s' ⟨.run (.ret r), held'⟩ := by
  obtain ⟨pc, held⟩ := p
  cases pc with
  | run p => exact h.finish
  | lock cl r k =>
    obtain ⟨tr2, s2, t, k3, k4, k5⟩ := h.locked
    have hs2 : Step w s2 _ _ := .took s2 c r _ t held k k4.proc k5
    obtain ⟨k6, k7⟩ := k4.step hs2 (.inr (.inr (.inl ⟨_, _, _, rfl⟩))) (fun _ e => nomatch e) rfl rfl
    obtain ⟨tr3, s3, x, held', k8, k9⟩ := k6.finish
    exact ⟨_, s3, x, held', (k3.trans k7).trans (by simpa using k8), by simpa using k9⟩
  | unlock cl r k =>
    obtain ⟨tr2, s2, client, k3, k4, k5, k8⟩ := h.unlocked
    have hs2 : Step w s2 _ _ := .gave s2 c r cl client _ k k4.proc k5 k8
    obtain ⟨k6, k7⟩ := k4.step hs2 (.inr (.inr (.inr (.inr (.inl ⟨_, _, rfl⟩))))) (fun _ e => nomatch e) rfl rfl
    obtain ⟨tr3, s3, x, held', k8, k9⟩ := k6.finish
    exact ⟨_, s3, x, held', (k3.trans k7).trans (by simpa using k8), by simpa using k9⟩

theorem polite_ends {p : Prog A} (hp : Polite p) (hr : Run w tr s) (hk : ∀ it ∈ tr, KnownGroup it)
    (hit : ∃ it ∈ tr, it.lab = .spawn c p) : ∃ tr' s' r, Ahead w c tr s tr' s' ∧ s'.procs[c]? = some ⟨.run (.ret r), []⟩ := by
  have hf := hr.followsC hk (hp []) hit
  obtain ⟨q, -, -, hq, -⟩ := id hf
  obtain ⟨tr', s', r, held', h1, h2⟩ := Here.ends ⟨hr, hr.known hk, hf, hq⟩
  refine ⟨tr', s', r, h1, ?_⟩
  obtain ⟨q, vs, ss, h3, h4, -⟩ := h2.follows
  rw [h2.proc] at h3
  cases h3
  cases h4 with
  | run hw hl =>
    obtain rfl : ss = [] := hw
    cases hl
    exact h2.proc

end Tricorder.Whole
