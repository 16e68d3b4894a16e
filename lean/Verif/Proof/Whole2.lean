import Verif.Proof.Whole
/-!
# The whole library: what a request has read, along a run
-/

namespace Tricorder.Whole
open Go Spec

variable {A : Type} {w : World} {tr : List (Item A)} {s s' : St A} {it : Item A} {Q : A → Gh → Prop} {c : ℕ} {g : Gh}

/-- where a goroutine is, with what it has seen -/
inductive At (Q : A → Gh → Prop) (G : Group.State Time) : Gh → Proc A → Prop where
  | run {g p held} : WP Q p g → List.Forall₂ (Linked G) g.sess held → At Q G g ⟨.run p, held⟩
  | lock {g cl r k held} : (∀ t, WP Q (k t) (g.lock r t)) →
      List.Forall₂ (Linked G) g.sess held → At Q G g ⟨.lock cl r k, held⟩
  | unlock {g cl r k held} : WP Q (k ()) g → List.Forall₂ (Linked G) g.sess held →
      At Q G g ⟨.unlock cl r k, (r, cl) :: held⟩

/-- the groups taken by `c`, in order -/
def tooks (c : ℕ) (tr : List (Item A)) : List ℕ :=
  tr.filterMap fun it => match it.lab with
    | .took c' r _ _ => if c' = c then some r else none
    | _ => none

/-- `c` has taken `r` after its last update, which returned `t` -/
def Held (c : ℕ) (tr : List (Item A)) (r : ℕ) (t : Time) : Prop :=
  ∃ a u b, tr = a ++ u :: b ∧ Updated r t u ∧ Quiet r b ∧ ∃ x ∈ b, ∃ cl, x.lab = .took c r cl t

theorem Held.snoc {r : ℕ} {t : Time} (h : Held c tr r t) (hq : Quiet r [it]) : Held c (tr ++ [it]) r t := by
  obtain ⟨a, u, b, rfl, h1, h2, x, hx, h3⟩ := h
  refine ⟨a, u, b ++ [it], by simp, h1, fun y hy => ?_, x, List.mem_append_left _ hx, h3⟩
  rcases List.mem_append.mp hy with hy | hy
  · exact h2 y hy
  · exact hq y hy

/-- the run so far is what `g` says -/
structure Past (w : World) (c : ℕ) (tr : List (Item A)) (g : Gh) : Prop where
  locks : tooks c tr = g.locks.reverse
  sess : ∀ x ∈ g.sess, Held c tr x.1 x.2
  reads : ∀ x ∈ g.reads, ∃ a it b, tr = a ++ it :: b ∧ (∃ cmd, it.lab = .own c cmd) ∧ current w it.pre x.1 = x.2.1 ∧
    ∀ r t, x.2.2.lookup r = some t → Held c a r t
  views : ∀ v ∈ g.views, ∃ it ∈ tr, it.lab = .own c (.metric v.1) ∧ metricView it.pre.tree v.1 = some v.2
  ids : ∀ v ∈ g.ids, ∃ it ∈ tr, it.lab = .own c (.regionId v.1) ∧ it.pre.regions[v.1]? = some v.2

theorem tooks_snoc (c : ℕ) (tr : List (Item A)) (it : Item A) (h : ∀ r cl t, it.lab ≠ .took c r cl t) :
    tooks c (tr ++ [it]) = tooks c tr := by
  unfold tooks
  rw [List.filterMap_append]
  suffices h' : (match it.lab with | .took c' r _ _ => if c' = c then some r else none | _ => none) = none by
    simp [h']
  split
  · rename_i c' r cl t e
    rw [if_neg]
    rintro rfl
    exact h r cl t e
  · rfl

theorem Past.snoc (h : Past w c tr g) (hl : ∀ r cl t, it.lab ≠ .took c r cl t) (hq : ∀ x ∈ g.sess, Quiet x.1 [it]) :
    Past w c (tr ++ [it]) g := by
  refine ⟨?_, fun x hx => (h.sess x hx).snoc (hq x hx), fun x hx => ?_, fun v hv => ?_, fun v hv => ?_⟩
  · rw [tooks_snoc _ _ _ hl]; exact h.locks
  · obtain ⟨a, i, b, rfl, h1⟩ := h.reads x hx
    exact ⟨a, i, b ++ [it], by simp, h1⟩
  · obtain ⟨i, hi, h1⟩ := h.views v hv
    exact ⟨i, List.mem_append_left _ hi, h1⟩
  · obtain ⟨i, hi, h1⟩ := h.ids v hv
    exact ⟨i, List.mem_append_left _ hi, h1⟩

theorem Past.pop (h : Past w c tr g) {ss : Session} (hs : ∀ x ∈ ss, x ∈ g.sess) : Past w c tr { g with sess := ss } :=
  ⟨h.locks, fun x hx => h.sess x (hs x hx), h.reads, h.views, h.ids⟩

/-- a step on the shared memory -/
theorem WP_own {cmd : Cmd} {k : cmd.Resp → Prog A} (h : WP Q (.op cmd k) g) (hm : MemOnly cmd) (σ : State) :
    ∃ g', WP Q (k (exec w cmd σ).2) g' ∧ g'.sess = g.sess ∧ g'.locks = g.locks ∧
      (∀ x ∈ g'.reads, x ∈ g.reads ∨ x.2.2 = g.sess ∧ current w σ x.1 = x.2.1) ∧
      (∀ v ∈ g'.views, v ∈ g.views ∨ cmd = .metric v.1 ∧ metricView σ.tree v.1 = some v.2) ∧
      ∀ v ∈ g'.ids, v ∈ g.ids ∨ cmd = .regionId v.1 ∧ σ.regions[v.1]? = some v.2 := by
  have same : ∀ {p : Prog A}, WP Q p g → ∃ g', WP Q p g' ∧ g'.sess = g.sess ∧ g'.locks = g.locks ∧
      (∀ x ∈ g'.reads, x ∈ g.reads ∨ x.2.2 = g.sess ∧ current w σ x.1 = x.2.1) ∧
      (∀ v ∈ g'.views, v ∈ g.views ∨ cmd = .metric v.1 ∧ metricView σ.tree v.1 = some v.2) ∧
      ∀ v ∈ g'.ids, v ∈ g.ids ∨ cmd = .regionId v.1 ∧ σ.regions[v.1]? = some v.2 :=
    fun hp => ⟨g, hp, rfl, rfl, fun x hx => .inl hx, fun v hv => .inl hv, fun v hv => .inl hv⟩
  have read : ∀ {p : Prog A} {sc : Src} {d}, WP Q p (g.read sc d) → current w σ sc = d → ∃ g', WP Q p g' ∧ g'.sess = g.sess ∧
      g'.locks = g.locks ∧ (∀ x ∈ g'.reads, x ∈ g.reads ∨ x.2.2 = g.sess ∧ current w σ x.1 = x.2.1) ∧
      (∀ v ∈ g'.views, v ∈ g.views ∨ cmd = .metric v.1 ∧ metricView σ.tree v.1 = some v.2) ∧
      ∀ v ∈ g'.ids, v ∈ g.ids ∨ cmd = .regionId v.1 ∧ σ.regions[v.1]? = some v.2 := by
    intro p sc d hp hd
    refine ⟨_, hp, rfl, rfl, fun x hx => ?_, fun v hv => .inl hv, fun v hv => .inl hv⟩
    rcases List.mem_cons.mp hx with rfl | hx
    · exact .inr ⟨rfl, hd⟩
    · exact .inl hx
  cases cmd with
  | rlock => exact hm.elim
  | runlock => exact hm.elim
  | getEntry => exact same (h _)
  | list => exact same (h _)
  | metric m =>
    refine ⟨_, h (metricView σ.tree m), rfl, rfl, fun x hx => .inl hx, fun v hv => ?_, fun v hv => .inl hv⟩
    rcases List.mem_append.mp hv with hv | hv
    · obtain ⟨x, hx, rfl⟩ := List.mem_map.mp hv
      exact .inr ⟨rfl, Option.mem_toList.mp hx⟩
    · exact .inl hv
  | dirAbsPath => exact same (h _)
  | snapshot => exact same (h _)
  | getList => exact same (h _)
  | readVar v => exact read (h _) rfl
  | callFn f => exact read (h _) rfl
  | callFlagGet f => exact read (h _) rfl
  | callFlagString f => exact read (h _) rfl
  | regionId r =>
    refine ⟨_, h σ.regions[r]?, rfl, rfl, fun x hx => .inl hx, fun v hv => .inl hv, fun v hv => ?_⟩
    rcases List.mem_append.mp hv with hv | hv
    · obtain ⟨x, hx, rfl⟩ := List.mem_map.mp hv
      exact .inr ⟨rfl, Option.mem_toList.mp hx⟩
    · exact .inl hv
  | _ => exact h.elim

theorem forall₂_imp_mem {α β : Type} {R S : α → β → Prop} {l : List α} {l' : List β} (h : List.Forall₂ R l l')
    (hi : ∀ x ∈ l, ∀ y ∈ l', R x y → S x y) : List.Forall₂ S l l' := by
  induction h with
  | nil => exact .nil
  | @cons a b l l' h _ ih =>
    exact .cons (hi a (by simp) b (by simp) h) (ih fun x hx y hy => hi x (by simp [hx]) y (by simp [hy]))

theorem forall₂_left {α β : Type} {R : α → β → Prop} {l : List α} {l' : List β} (h : List.Forall₂ R l l') :
    ∀ x ∈ l, ∃ y ∈ l', R x y := by
  induction h with
  | nil => exact fun _ h => nomatch h
  | @cons a b l l' h _ ih =>
    intro x hx
    rcases List.mem_cons.mp hx with rfl | hx
    · exact ⟨b, by simp, h⟩
    · obtain ⟨y, hy, hr⟩ := ih x hx
      exact ⟨y, by simp [hy], hr⟩

/-- the groups held are still held, and were not updated -/
theorem Step.keeps (hr : Run w tr s) (hs : Step w s it s') {p : Proc A} (hp : s.procs[c]? = some p) {ss : Session}
    {held : List (ℕ × ℕ)} (hh : ∀ y ∈ held, y.2 ∈ p.clients) (hno : ∀ y ∈ held, ∀ r, it.lab ≠ .gives c r y.2)
    (h : List.Forall₂ (Linked s.grp) ss held) :
    List.Forall₂ (Linked s'.grp) ss held ∧ ∀ x ∈ ss, Quiet x.1 [it] := by
  have h' : List.Forall₂ (Linked s'.grp) ss held :=
    forall₂_imp_mem h fun x _ y hy hxy => hs.linked hr.own_inv hp (hh y hy) (hno y hy) hxy
  have hb := h
  refine ⟨h', fun x hx => ?_⟩
  have hboth : List.Forall₂ (fun x y => Linked s.grp x y ∧ Linked s'.grp x y) ss held :=
    forall₂_imp_mem h fun x _ y hy hxy => ⟨hxy, hs.linked hr.own_inv hp (hh y hy) (hno y hy) hxy⟩
  obtain ⟨y, -, h1, h2⟩ := forall₂_left hboth x hx
  exact hs.quiet hr h1 h2

/-- a step by somebody else -/
theorem Step.other (hr : Run w tr s) (hs : Step w s it s') {p : Proc A} (hp : s.procs[c]? = some p)
    (ht : ∀ r cl t, it.lab ≠ .took c r cl t) (hg : ∀ r cl, it.lab ≠ .gives c r cl)
    (ha : At Q s.grp g p) (hpast : Past w c tr g) : At Q s'.grp g p ∧ Past w c (tr ++ [it]) g := by
  cases ha with
  | run h1 h2 =>
    obtain ⟨k1, k2⟩ := hs.keeps hr hp (fun y hy => List.mem_map_of_mem hy) (fun y hy r => hg r _) h2
    exact ⟨.run h1 k1, hpast.snoc ht k2⟩
  | lock h1 h2 =>
    obtain ⟨k1, k2⟩ := hs.keeps hr hp (fun y hy => List.mem_cons_of_mem _ (List.mem_map_of_mem hy)) (fun y hy r => hg r _) h2
    exact ⟨.lock h1 k1, hpast.snoc ht k2⟩
  | unlock h1 h2 =>
    obtain ⟨k1, k2⟩ := hs.keeps hr hp (fun y hy => List.mem_cons_of_mem _ (List.mem_map_of_mem hy)) (fun y hy r => hg r _) h2
    exact ⟨.unlock h1 k1, hpast.snoc ht k2⟩

theorem getElem?_set_other {l : List (Proc A)} {c c' : ℕ} {p : Proc A} (h : c' ≠ c) : (l.set c' p)[c]? = l[c]? :=
  List.getElem?_set_ne h

theorem getElem?_set_same {l : List (Proc A)} {c : ℕ} {p q : Proc A} (h : l[c]? = some q) : (l.set c p)[c]? = some p := by
  have := (List.getElem?_eq_some_iff.mp h).1
  simp [this]

/-- what is known of goroutine `c` -/
def Follows (Q : A → Gh → Prop) (w : World) (c : ℕ) (tr : List (Item A)) (s : St A) : Prop :=
  ∃ p g, s.procs[c]? = some p ∧ At Q s.grp g p ∧ Past w c tr g

theorem Step.follows (hr : Run w tr s) (hs : Step w s it s') (h : Follows Q w c tr s) : Follows Q w c (tr ++ [it]) s' := by
  obtain ⟨p, g, hp, ha, hpast⟩ := h
  have hs0 := hs
  cases hs with
  | spawn q =>
    obtain ⟨k1, k2⟩ := hs0.other hr hp (fun _ _ _ h => nomatch h) (fun _ _ h => nomatch h) ha hpast
    refine ⟨p, g, ?_, k1, k2⟩
    rw [List.getElem?_append_left (List.getElem?_eq_some_iff.mp hp).1]
    exact hp
  | own c' held cmd k h1 h2 h3 =>
    obtain ⟨k1, k2⟩ := hs0.other hr hp (fun _ _ _ h => nomatch h) (fun _ _ h => nomatch h) ha hpast
    by_cases hc : c' = c
    · subst hc
      rw [h1] at hp; cases hp
      cases k1 with
      | run hw hl =>
        obtain ⟨g', e1, e2, e3, e4, e5, e6⟩ := WP_own hw h2 s.mem (w := w)
        refine ⟨_, g', getElem?_set_same h1, .run e1 (e2 ▸ hl), e3 ▸ k2.locks, fun x hx => k2.sess x (e2 ▸ hx), fun x hx => ?_,
          fun v hv => ?_, fun v hv => ?_⟩
        · rcases e4 x hx with hx | ⟨f1, f2⟩
          · exact k2.reads x hx
          · refine ⟨tr, _, [], rfl, ⟨cmd, rfl⟩, f2, fun r t hrt => ?_⟩
            rw [f1] at hrt
            obtain ⟨l1, l2, e, -⟩ := List.lookup_eq_some_iff.mp hrt
            exact hpast.sess (r, t) (by rw [e]; simp)
        · rcases e5 v hv with hv | ⟨rfl, f⟩
          · exact k2.views v hv
          · exact ⟨_, List.mem_append_right _ (List.mem_singleton_self _), rfl, f⟩
        · rcases e6 v hv with hv | ⟨rfl, f⟩
          · exact k2.ids v hv
          · exact ⟨_, List.mem_append_right _ (List.mem_singleton_self _), rfl, f⟩
    · exact ⟨p, g, (getElem?_set_other hc).trans hp, k1, k2⟩
  | newGroup c' held k h1 =>
    obtain ⟨k1, k2⟩ := hs0.other hr hp (fun _ _ _ h => nomatch h) (fun _ _ h => nomatch h) ha hpast
    by_cases hc : c' = c
    · subst hc
      rw [h1] at hp; cases hp
      cases k1 with
      | run hw hl => exact hw.elim
    · exact ⟨p, g, (getElem?_set_other hc).trans hp, k1, k2⟩
  | upd r G cmd h1 h2 h3 =>
    obtain ⟨k1, k2⟩ := hs0.other hr hp (fun _ _ _ h => nomatch h) (fun _ _ h => nomatch h) ha hpast
    exact ⟨p, g, hp, k1, k2⟩
  | asks c' r held k h1 h2 =>
    obtain ⟨k1, k2⟩ := hs0.other hr hp (fun _ _ _ h => nomatch h) (fun _ _ h => nomatch h) ha hpast
    by_cases hc : c' = c
    · subst hc
      rw [h1] at hp; cases hp
      cases k1 with
      | run hw hl => exact ⟨_, g, getElem?_set_same h1, .lock hw.2 hl, k2⟩
    · exact ⟨p, g, (getElem?_set_other hc).trans hp, k1, k2⟩
  | took c' r cl t held k h1 h2 =>
    by_cases hc : c' = c
    · subst hc
      rw [h1] at hp; cases hp
      cases ha with
      | lock hw hl =>
        obtain ⟨e1, e2⟩ := hs0.keeps hr h1 (fun y hy => List.mem_cons_of_mem _ (List.mem_map_of_mem hy))
          (fun y hy r h => nomatch h) hl
        refine ⟨_, g.lock r t, getElem?_set_same h1, .run (hw t) (.cons ⟨rfl, h2⟩ e1), ?_, fun x hx => ?_, fun x hx => ?_,
          fun v hv => ?_, fun v hv => ?_⟩
        · simp only [Gh.lock, List.reverse_cons]
          rw [← hpast.locks]
          simp [tooks]
        · rcases List.mem_cons.mp hx with rfl | hx
          · obtain ⟨f1, f2⟩ := hr.inv.i4 _ _ _ _ h2 (seen_user (r, t))
            obtain ⟨a, u, b, rfl, f3, f4⟩ := hr.settled f1 f2
            refine ⟨a, u, b ++ [_], by simp; rfl, f3, fun y hy => ?_, _, List.mem_append_right _ (List.mem_singleton_self _), cl, rfl⟩
            rcases List.mem_append.mp hy with hy | hy
            · exact f4 y hy
            · rw [List.mem_singleton.mp hy]
              exact ⟨fun _ h => (nomatch h), fun _ h => nomatch h⟩
          · exact (hpast.sess x hx).snoc (e2 x hx)
        · obtain ⟨a, i, b, rfl, h1⟩ := hpast.reads x hx
          exact ⟨a, i, b ++ [_], by simp; rfl, h1⟩
        · obtain ⟨i, hi, h1⟩ := hpast.views v hv
          exact ⟨i, List.mem_append_left _ hi, h1⟩
        · obtain ⟨i, hi, h1⟩ := hpast.ids v hv
          exact ⟨i, List.mem_append_left _ hi, h1⟩
    · obtain ⟨k1, k2⟩ := hs0.other hr hp (fun _ _ _ h => by cases h; exact hc rfl) (fun _ _ h => nomatch h) ha hpast
      exact ⟨p, g, (getElem?_set_other hc).trans hp, k1, k2⟩
  | gives c' r cl client held k h1 h2 h3 h4 =>
    by_cases hc : c' = c
    · subst hc
      rw [h1] at hp; cases hp
      have hnd := hr.own_inv.nodup h1
      cases ha with
      | run hw hl =>
        obtain ⟨t, ss, hss, hw⟩ := hw
        rw [hss] at hl
        cases hl with
        | @cons _ y _ held' hy hl =>
          obtain ⟨r', cl'⟩ := y
          obtain rfl : r' = r := hy.1
          obtain rfl : cl' = cl := by
            rw [List.lookup_cons_self] at h2
            exact Option.some.inj h2
          have hnd' : cl' ∉ held'.map Prod.snd := (List.nodup_cons.mp hnd).1
          obtain ⟨e1, e2⟩ := hs0.keeps hr h1 (held := held') (fun y hy => List.mem_cons_of_mem _ (List.mem_map_of_mem hy))
            (fun y hy' r h => by cases h; exact hnd' (List.mem_map_of_mem hy')) hl
          refine ⟨_, { g with sess := ss }, getElem?_set_same h1, .unlock hw e1, ?_⟩
          exact (hpast.pop fun x hx => by rw [hss]; exact List.mem_cons_of_mem _ hx).snoc (fun _ _ _ h => nomatch h) e2
    · obtain ⟨k1, k2⟩ := hs0.other hr hp (fun _ _ _ h => nomatch h) (fun _ _ h => by cases h; exact hc rfl) ha hpast
      exact ⟨p, g, (getElem?_set_other hc).trans hp, k1, k2⟩
  | gave c' r cl client held k h1 h2 h3 =>
    obtain ⟨k1, k2⟩ := hs0.other hr hp (fun _ _ _ h => nomatch h) (fun _ _ h => nomatch h) ha hpast
    by_cases hc : c' = c
    · subst hc
      rw [h1] at hp; cases hp
      cases k1 with
      | unlock hw hl =>
        refine ⟨_, g, getElem?_set_same h1, ?_, k2⟩
        rw [List.erase_cons_head]
        exact .run hw hl
    · exact ⟨p, g, (getElem?_set_other hc).trans hp, k1, k2⟩
  | loop es G h1 h2 h3 =>
    obtain ⟨k1, k2⟩ := hs0.other hr hp (fun _ _ _ h => nomatch h) (fun _ _ h => nomatch h) ha hpast
    exact ⟨p, g, hp, k1, k2⟩

/-- who did it -/
def Lab.who : Lab A → Option ℕ
  | .spawn c _ | .own c _ | .asks c _ _ | .took c _ _ _ | .gives c _ _ | .gave c _ _ => some c
  | _ => none

theorem Step.procs_le (hs : Step w s it s') : s.procs.length ≤ s'.procs.length ∧ ∀ c, it.lab.who = some c → c < s'.procs.length := by
  cases hs with
  | spawn p => exact ⟨by simp, fun c h => by cases h; simp⟩
  | upd r G cmd h1 h2 h3 => exact ⟨le_rfl, fun c h => nomatch h⟩
  | loop es G h1 h2 h3 => exact ⟨le_rfl, fun c h => nomatch h⟩
  | own c held cmd k h1 h2 h3 =>
    exact ⟨by simp [St.setP], fun c h => by cases h; simpa [St.setP] using (List.getElem?_eq_some_iff.mp h1).1⟩
  | newGroup c held k h1 =>
    exact ⟨by simp [St.setP], fun c h => by cases h; simpa [St.setP] using (List.getElem?_eq_some_iff.mp h1).1⟩
  | asks c r held k h1 h2 =>
    exact ⟨by simp [St.setP], fun c h => by cases h; simpa [St.setP] using (List.getElem?_eq_some_iff.mp h1).1⟩
  | took c r cl t held k h1 h2 =>
    exact ⟨by simp [St.setP], fun c h => by cases h; simpa [St.setP] using (List.getElem?_eq_some_iff.mp h1).1⟩
  | gives c r cl client held k h1 h2 h3 h4 =>
    exact ⟨by simp [St.setP], fun c h => by cases h; simpa [St.setP] using (List.getElem?_eq_some_iff.mp h1).1⟩
  | gave c r cl client held k h1 h2 h3 =>
    exact ⟨by simp [St.setP], fun c h => by cases h; simpa [St.setP] using (List.getElem?_eq_some_iff.mp h1).1⟩

theorem Run.who_lt (h : Run w tr s) : ∀ it ∈ tr, ∀ c, it.lab.who = some c → c < s.procs.length := by
  induction h with
  | nil => exact fun _ h => nomatch h
  | snoc hr hs ih =>
    intro it hit c hc
    obtain ⟨h1, h2⟩ := hs.procs_le
    rcases List.mem_append.mp hit with hit | hit
    · exact (ih it hit c hc).trans_le h1
    · rw [List.mem_singleton.mp hit] at hc
      exact h2 c hc

theorem Run.follows (h : Run w tr s) {p : Prog A} (hw : WP Q p Gh.none) (hit : ∃ it ∈ tr, it.lab = .spawn c p) :
    Follows Q w c tr s := by
  induction h with
  | nil => obtain ⟨it, h, -⟩ := hit; exact nomatch h
  | @snoc tr s it s' hr hs ih =>
    obtain ⟨i, hi, hl⟩ := hit
    rcases List.mem_append.mp hi with hi | hi
    · exact hs.follows hr (ih ⟨i, hi, hl⟩)
    · obtain rfl : i = it := List.mem_singleton.mp hi
      cases hs with
      | spawn q =>
        cases hl
        refine ⟨_, Gh.none, List.getElem?_concat_length, .run hw .nil, ?_, fun _ h => (nomatch h), fun _ h => (nomatch h),
          fun _ h => (nomatch h), fun _ h => (nomatch h)⟩
        refine (tooks_snoc _ _ _ (fun _ _ _ h => by cases h)).trans ?_
        refine List.filterMap_eq_nil_iff.mpr fun x hx => ?_
        have := hr.who_lt x hx
        split
        · rename_i c' r cl t e
          rw [if_neg]
          rintro rfl
          have := this s.procs.length (by rw [e]; rfl)
          omega
        · rfl
      | own => cases hl
      | newGroup => cases hl
      | upd => cases hl
      | asks => cases hl
      | took => cases hl
      | gives => cases hl
      | gave => cases hl
      | loop => cases hl

/-! ### One update per group -/

/-- in a list without repetitions an element has one place -/
theorem split_unique {α β : Type} {f : α → Option β} {l a a' b b' : List α} {x x' : α} {y : β} (hl : (l.filterMap f).Nodup)
    (h : l = a ++ x :: b) (h' : l = a' ++ x' :: b') (hx : f x = some y) (hx' : f x' = some y) : a = a' ∧ x = x' ∧ b = b' := by
  induction a generalizing l a' with
  | nil =>
    cases a' with
    | nil =>
      rw [h] at h'
      simp only [List.nil_append, List.cons.injEq] at h'
      exact ⟨rfl, h'⟩
    | cons z a' =>
      exfalso
      rw [h] at h' hl
      simp only [List.nil_append, List.cons_append, List.cons.injEq] at h'
      rw [h'.2] at hl
      simp [hx, hx'] at hl
  | cons z a ih =>
    cases a' with
    | nil =>
      exfalso
      rw [h'] at h hl
      simp only [List.nil_append, List.cons_append, List.cons.injEq] at h
      rw [h.2] at hl
      simp [hx, hx'] at hl
    | cons z' a' =>
      rw [h] at h' hl
      simp only [List.cons_append, List.cons.injEq] at h'
      obtain ⟨rfl, h'⟩ := h'
      have hl' : ((a ++ x :: b).filterMap f).Nodup := by
        refine hl.sublist ?_
        exact List.Sublist.filterMap _ (List.sublist_cons_self _ _)
      obtain ⟨rfl, h2⟩ := ih hl' rfl h'
      exact ⟨rfl, h2⟩

/-- the last update has one place -/
theorem last_unique {r : ℕ} {t t' : Time} {l a a' b b' : List (Item A)} {u u' : Item A}
    (h : l = a ++ u :: b) (h' : l = a' ++ u' :: b') (hu : Updated r t u) (hu' : Updated r t' u') (hq : Quiet r b)
    (hq' : Quiet r b') : a = a' ∧ u = u' ∧ b = b' := by
  induction l generalizing a a' with
  | nil => simp at h
  | cons x l ih =>
    have no : ∀ {v : Item A} {t b}, Updated r t v → Quiet r b → v ∉ b := by
      rintro v t b ⟨f, hf⟩ hq hm
      have := (hq v hm).2 _ hf
      simp [Group.isUpdate] at this
    cases a with
    | nil =>
      simp only [List.nil_append, List.cons.injEq] at h
      obtain ⟨rfl, rfl⟩ := h
      cases a' with
      | nil =>
        simp only [List.nil_append, List.cons.injEq] at h'
        exact ⟨rfl, h'⟩
      | cons z a' =>
        simp only [List.cons_append, List.cons.injEq] at h'
        exact absurd (by rw [h'.2]; simp) (no hu' hq)
    | cons z a =>
      simp only [List.cons_append, List.cons.injEq] at h
      obtain ⟨rfl, h⟩ := h
      cases a' with
      | nil =>
        simp only [List.nil_append, List.cons.injEq] at h'
        obtain ⟨rfl, rfl⟩ := h'
        exact absurd (by rw [h]; simp) (no hu hq')
      | cons z' a' =>
        simp only [List.cons_append, List.cons.injEq] at h'
        obtain ⟨rfl, h'⟩ := h'
        obtain ⟨rfl, h2⟩ := ih h h'
        exact ⟨rfl, h2⟩

/-- each step begins where the one before ended -/
theorem Run.chain (h : Run w tr s) : ∀ a b x y, tr = a ++ x :: y :: b → y.pre = x.post := by
  suffices h' : (∀ a b x y, tr = a ++ x :: y :: b → y.pre = x.post) ∧ ∀ a x, tr = a ++ [x] → x.post = s.mem from h'.1
  induction h with
  | nil => exact ⟨fun _ _ _ _ h => by simp at h, fun _ _ h => by simp at h⟩
  | @snoc tr s it s' hr hs ih =>
    obtain ⟨m1, m2⟩ := hs.mem
    refine ⟨fun a b x y h => ?_, fun a x h => ?_⟩
    · rcases List.eq_nil_or_concat b with rfl | ⟨b, z, rfl⟩
      · have h' : tr ++ [it] = (a ++ [x]) ++ [y] := by simpa using h
        obtain ⟨h1, h2⟩ := List.append_inj' h' rfl
        cases h2
        rw [m1, ih.2 _ _ h1]
      · have h' : tr ++ [it] = (a ++ x :: y :: b) ++ [z] := by simpa using h
        exact ih.1 _ _ _ _ (List.append_inj' h' rfl).1
    · obtain ⟨-, h2⟩ := List.append_inj' h rfl
      cases h2
      exact m2

theorem Run.unchanged (h : Run w tr s) {r : ℕ} {sc : Src} {u rd : Item A} {a b1 b2 : List (Item A)}
    (htr : tr = a ++ u :: (b1 ++ rd :: b2)) (hq : Quiet r b1) (ho : OnlyUpdate w r sc b1) :
    current w u.post sc = current w rd.pre sc := by
  induction b1 generalizing a u with
  | nil => rw [h.chain _ _ _ _ htr]
  | cons x b1 ih =>
    have e1 : x.pre = u.post := h.chain _ _ _ _ htr
    have e2 := ho x (by simp) (hq x (by simp)).1
    have := ih (a := a ++ [u]) (u := x) (by simp [htr]) (fun y hy => hq y (by simp [hy])) (fun y hy => ho y (by simp [hy]))
    rw [← e1, ← e2, this]

theorem Past.oneUpdate (hr : Run w tr s) (hp : Past w c tr g) (hn : g.locks.Nodup) {V : List (MetricView × Metric)}
    (hV : ∀ v ∈ V, TellsG g v.1 v.2) {r : ℕ} (hv : ∃ v ∈ V, Scalar v.1 ∧ v.1.value.region = some r) : OneUpdate w c tr r V := by
  have hnd : (tooks c tr).Nodup := by rw [hp.locks]; exact List.nodup_reverse.mpr hn
  have tell : ∀ v ∈ V, Scalar v.1 → v.1.value.region = some r → ∃ sc d t a u b1 rd b2 x, v.1.value.src = some sc ∧
      v.2.timeStamp = .time t ∧ tr = a ++ u :: (b1 ++ rd :: b2) ∧ Updated r t u ∧ Quiet r b1 ∧ x ∈ b1 ∧ (∃ cl, x.lab = .took c r cl t) ∧
      (∃ cmd, rd.lab = .own c cmd) ∧ current w rd.pre sc = some d ∧
      valueToInterface d v.1.value.valType v.1.value.isPtr = some v.2.value := by
    intro v hv hs hreg
    obtain ⟨sc, d, ss, r', t, h1, h2, h3, h4, h5, h6, -⟩ := hV v hv hs.1 hs.2
    rw [hreg] at h4; cases h4
    obtain ⟨a, rd, b, k1, k2, k3, k4⟩ := hp.reads _ h2
    obtain ⟨a', u, b', rfl, e1, e2, x, e3, e4⟩ := k4 r t h5
    exact ⟨sc, d, t, a', u, b', rd, b, x, h1, h6, by simpa using k1, e1, e2, e3, e4, k2, k3, h3⟩
  obtain ⟨v, hv, hs, hreg⟩ := hv
  obtain ⟨sc, d, t, a, u, b1, rd, b2, x, h1, h2, h3, h4, h5, h6, ⟨cl, h7⟩, -⟩ := tell v hv hs hreg
  refine ⟨a, u, b1 ++ rd :: b2, t, h3, h4, fun v' hv' hs' hreg' => ?_⟩
  obtain ⟨sc', d', t', a', u', b1', rd', b2', x', k1, k2, k3, k4, k5, k6, ⟨cl', k7⟩, k8, k9, k10⟩ := tell v' hv' hs' hreg'
  obtain ⟨p, q, rfl⟩ := List.append_of_mem h6
  obtain ⟨p', q', rfl⟩ := List.append_of_mem k6
  obtain ⟨e1, rfl, e2⟩ := split_unique (y := r) (a := a ++ u :: p) (a' := a' ++ u' :: p') (x := x) (x' := x')
    (b := q ++ rd :: b2) (b' := q' ++ rd' :: b2') hnd (by simp [h3]) (by simp [k3]) (by simp [h7]) (by simp [k7])
  obtain ⟨rfl, rfl, rfl⟩ := last_unique rfl e1 h4 k4 (fun y hy => h5 y (List.mem_append_left _ hy))
    (fun y hy => k5 y (List.mem_append_left _ hy))
  rw [h7] at k7
  cases k7
  refine ⟨k2, sc', d', p ++ x :: q', rd', b2', k1, by simp [e2], ⟨x, by simp, cl, h7⟩, k5, k8, k9, k10, fun ho => ?_⟩
  rw [hr.unchanged k3 k5 ho, k9]

end Tricorder.Whole
