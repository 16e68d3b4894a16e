import Verif.Proof.Request
/-!
# Sources are read while their group is held
-/

namespace Tricorder
open Go Spec Tree

variable {A α β : Type} {w : World}

/-- one of the metrics `vs` has the source `sc`, and its group is held -/
def Guard (vs : List MetricView) (s : Session) (sc : Src) : Prop :=
  ∃ mv ∈ vs, mv.value.src = some sc ∧ ∀ r, mv.value.region = some r → s.lookup r ≠ none

/-- `p`, started with the metrics `vs` known and holding the groups of `s`, reads only guarded sources, takes only groups of
known metrics, and ends with `Q` -/
def Careful (Q : α → Session → Prop) : List MetricView → Prog α → Session → Prop
  | _, .ret a, s => Q a s
  | vs, .op (.rlock r) k, s => s.lookup r = none ∧ (∃ mv ∈ vs, mv.value.region = some r) ∧ ∀ t, Careful Q vs (k t) ((r, t) :: s)
  | vs, .op (.runlock r) k, s => ∃ t s', s = (r, t) :: s' ∧ Careful Q vs (k ()) s'
  | vs, .op (.getEntry d n) k, s => ∀ x, Careful Q vs (k x) s
  | vs, .op (.list d) k, s => ∀ x, Careful Q vs (k x) s
  | vs, .op (.metric m) k, s => ∀ x : Option MetricView, Careful Q (x.toList ++ vs) (k x) s
  | vs, .op (.dirAbsPath d) k, s => ∀ x, Careful Q vs (k x) s
  | vs, .op (.snapshot i) k, s => ∀ x, Careful Q vs (k x) s
  | vs, .op (.getList i) k, s => ∀ x, Careful Q vs (k x) s
  | vs, .op (.readVar v) k, s => Guard vs s (.var v) ∧ ∀ x, Careful Q vs (k x) s
  | vs, .op (.callFn v) k, s => Guard vs s (.fn v) ∧ ∀ x, Careful Q vs (k x) s
  | vs, .op (.callFlagGet v) k, s => Guard vs s (.flagGet v) ∧ ∀ x, Careful Q vs (k x) s
  | vs, .op (.callFlagString v) k, s => Guard vs s (.flagString v) ∧ ∀ x, Careful Q vs (k x) s
  | vs, .op (.regionId v) k, s => ∀ x, Careful Q vs (k x) s
  | _, _, _ => False

theorem Guard.mono {vs vs' : List MetricView} (h : vs ⊆ vs') {s sc} (g : Guard vs s sc) : Guard vs' s sc := by
  obtain ⟨mv, h1, h2⟩ := g
  exact ⟨mv, h h1, h2⟩

theorem Careful_bind {Q : α → Session → Prop} {R : β → Session → Prop} {p : Prog α} {q : α → Prog β}
    {vs vs' : List MetricView} {s : Session} (hp : Careful Q vs p s) (hv : vs ⊆ vs')
    (hq : ∀ a s' vs'', vs' ⊆ vs'' → Q a s' → Careful R vs'' (q a) s') : Careful R vs' (p.bind q) s := by
  induction p generalizing s vs vs' with
  | ret a => exact hq a s _ (fun _ h => h) hp
  | op c k ih =>
    cases c with
    | rlock r =>
      obtain ⟨h1, ⟨mv, h2, h3⟩, h4⟩ := hp
      exact ⟨h1, ⟨mv, hv h2, h3⟩, fun t => ih t (h4 t) hv hq⟩
    | runlock r =>
      obtain ⟨t, s', h1, h2⟩ := hp
      exact ⟨t, s', h1, ih () h2 hv hq⟩
    | getEntry d n => exact fun x => ih x (hp x) hv hq
    | list d => exact fun x => ih x (hp x) hv hq
    | metric d =>
      intro x
      refine ih x (hp x) ?_ fun a s' vs'' h => hq a s' vs'' fun y hy => h (List.mem_append_right _ hy)
      intro y hy
      rcases List.mem_append.mp hy with h | h
      · exact List.mem_append_left _ h
      · exact List.mem_append_right _ (hv h)
    | dirAbsPath d => exact fun x => ih x (hp x) hv hq
    | snapshot d => exact fun x => ih x (hp x) hv hq
    | getList d => exact fun x => ih x (hp x) hv hq
    | readVar d => exact ⟨hp.1.mono hv, fun x => ih x (hp.2 x) hv hq⟩
    | callFn d => exact ⟨hp.1.mono hv, fun x => ih x (hp.2 x) hv hq⟩
    | callFlagGet d => exact ⟨hp.1.mono hv, fun x => ih x (hp.2 x) hv hq⟩
    | callFlagString d => exact ⟨hp.1.mono hv, fun x => ih x (hp.2 x) hv hq⟩
    | regionId d => exact fun x => ih x (hp x) hv hq
    | removeEntry => exact hp.elim
    | unregisterDir => exact hp.elim
    | createDir => exact hp.elim
    | storeMetric => exact hp.elim
    | setUnit => exact hp.elim
    | distCall => exact hp.elim
    | newDist => exact hp.elim
    | newList => exact hp.elim
    | changeList => exact hp.elim
    | newVar => exact hp.elim
    | writeVar => exact hp.elim
    | newSlice => exact hp.elim
    | writeSlice => exact hp.elim
    | newRegion => exact hp.elim
    | tick => exact hp.elim

/-- reads nothing, takes nothing -/
def Mild (p : Prog α) : Prop := ∀ vs s, Careful (fun _ s' => s' = s) vs p s

theorem mild_ret (a : α) : Mild (.ret a) := fun _ _ => rfl

theorem mild_bind {p : Prog α} {q : α → Prog β} (hp : Mild p) (hq : ∀ a, Mild (q a)) : Mild (p.bind q) :=
  fun vs s => Careful_bind (hp vs s) (fun _ h => h) fun a s' vs'' _ h => by subst h; exact hq a vs'' s'

theorem careful_mild {R : β → Session → Prop} {p : Prog α} {q : α → Prog β} {vs : List MetricView} {s : Session}
    (hp : Mild p) (hq : ∀ a vs', vs ⊆ vs' → Careful R vs' (q a) s) : Careful R vs (p.bind q) s :=
  Careful_bind (hp vs s) (fun _ h => h) fun a s' vs'' hv h => by subst h; exact hq a vs'' hv

theorem visit_careful {vs : List MetricView} (s : Session) {r : ℕ} (hk : ∃ mv ∈ vs, mv.value.region = some r) :
    Careful (fun x s' => x.1 = s' ∧ s'.lookup r ≠ none) vs (visit s r) s := by
  unfold visit
  cases h : s.lookup r with
  | some t => exact ⟨rfl, by rw [h]; simp⟩
  | none => exact ⟨h, hk, fun t => ⟨rfl, by simp⟩⟩

theorem close_careful (vs : List MetricView) (s : Session) : Careful (fun _ s' => s' = []) vs (close s) s := by
  induction s with
  | nil => rfl
  | cons x s ih => obtain ⟨r, t⟩ := x; exact ⟨t, s, rfl, ih⟩

theorem evalSrc_careful {vs : List MetricView} {s : Session} (o : Option Src) (hg : ∀ sc, o = some sc → Guard vs s sc) :
    Careful (fun h s' => s' = s ∧ ∀ v, h = .ok (.var v) → o = some (.var v)) vs (evalSrc o) s := by
  have key : ∀ (r : Option Dyn) v, called r ≠ .ok (.var v) := by intro r v; cases r <;> simp [called]
  unfold evalSrc
  split
  · exact ⟨rfl, fun v h => (nomatch h)⟩
  · refine ⟨rfl, fun v h => ?_⟩
    cases h; rfl
  all_goals exact ⟨hg _ rfl, fun x => ⟨rfl, fun v h => absurd h (key _ _)⟩⟩

/-- what `evaluate` with a session leaves -/
def Evald (mv : MetricView) (x : Session × Out Handle) (s' : Session) : Prop :=
  x.1 = s' ∧ (∀ r, mv.value.region = some r → s'.lookup r ≠ none) ∧
    ∀ v, x.2 = .ok (.var v) → mv.value.src = some (.var v)

theorem evalIn_careful {vs : List MetricView} {mv : MetricView} (hm : mv ∈ vs) (s : Session) :
    Careful (Evald mv) vs (evalIn mv.value s) s := by
  unfold evalIn
  split
  · rename_i hr
    refine Careful_bind (evalSrc_careful _ ?_) (fun _ h => h) ?_
    · intro sc hsc
      exact ⟨mv, hm, hsc, fun r h => by rw [hr] at h; cases h⟩
    · rintro o s' vs' _ ⟨rfl, h2⟩
      refine ⟨rfl, ?_, h2⟩
      intro r h
      rw [hr] at h
      cases h
  · rename_i r hr
    refine Careful_bind (visit_careful s ⟨mv, hm, hr⟩) (fun _ h => h) ?_
    rintro ⟨s1, t⟩ s' vs' hv ⟨rfl, h2⟩
    have h3 : ∀ r', mv.value.region = some r' → s1.lookup r' ≠ none := by
      intro r' h; rw [hr] at h; cases h; exact h2
    refine Careful_bind (evalSrc_careful _ ?_) (fun _ h => h) ?_
    · exact fun sc hsc => ⟨mv, hv hm, hsc, h3⟩
    · rintro o s' vs'' _ ⟨rfl, h4⟩
      exact ⟨rfl, h3, h4⟩

theorem readAs_careful {vs : List MetricView} {mv : MetricView} (hm : mv ∈ vs) (s : Session) (conv : Dyn → Option α) :
    Careful (fun r s' => held r.1 = s') vs (readAs mv.value (some s) conv) s := by
  unfold readAs
  refine Careful_bind (Q := fun r s' => held r.1 = s' ∧ Evald mv (held r.1, r.2) s') (vs := vs) ?_ (fun _ h => h) ?_
  · refine Careful_bind (evalIn_careful hm s) (fun _ h => h) ?_
    rintro ⟨s1, o⟩ s' vs' _ h
    exact ⟨h.1, h⟩
  · rintro ⟨s1, o⟩ s' vs' hv ⟨h1, h2⟩
    cases o with
    | panic => exact h1
    | ok h =>
      refine Careful_bind (Q := fun _ s'' => s'' = s') (vs := vs') ?_ (fun _ h => h) ?_
      · cases h with
        | val d => rfl
        | var v => exact ⟨⟨mv, hv hm, h2.2.2 v rfl, h2.2.1⟩, fun _ => rfl⟩
      · rintro d s'' vs'' _ rfl
        cases h : d.bind conv with
        | none => simp only [h]; exact h1
        | some a => simp only [h]; exact h1

theorem isInfNaN_careful {vs : List MetricView} {mv : MetricView} (hm : mv ∈ vs) (s : Session) :
    Careful (fun r s' => held r.1 = s') vs (isInfNaN mv.value (some s)) s := by
  unfold isInfNaN
  split
  · exact readAs_careful hm _ _
  · rfl

theorem asInterface_careful {vs : List MetricView} {mv : MetricView} (hm : mv ∈ vs) (s : Session) :
    Careful (fun r s' => held r.1 = s') vs (asInterface mv.value (some s)) s := by
  unfold asInterface
  split
  · rfl
  · exact readAs_careful hm _ _

theorem asTextString_careful (fm : Fmts) {vs : List MetricView} {mv : MetricView} (hm : mv ∈ vs) (s : Session) :
    Careful (fun r s' => held r.1 = s') vs (asTextString fm mv.value (some s)) s := by
  unfold asTextString
  split
  · rfl
  · exact readAs_careful hm _ _

theorem asHtmlString_careful (fm : Fmts) {vs : List MetricView} {mv : MetricView} (hm : mv ∈ vs) (s : Session) :
    Careful (fun r s' => held r.1 = s') vs (asHtmlString fm mv.value (some s)) s := by
  unfold asHtmlString
  split
  · rfl
  · exact readAs_careful hm _ _

theorem distMetric_mild (mv : MetricView) : Mild (distMetric mv) := by
  unfold distMetric
  split
  · exact mild_ret _
  · intro vs s r; cases r <;> rfl

theorem listMetric_mild (mv : MetricView) : Mild (listMetric mv) := by
  unfold listMetric
  split
  · exact mild_ret _
  · intro vs s r; cases r <;> rfl

/-- the session is the first component -/
abbrev Fst {B : Type} (x : Session × B) (s' : Session) : Prop := x.1 = s'

theorem scalarMetric_careful {vs : List MetricView} {mv : MetricView} (hm : mv ∈ vs) (s : Session) :
    Careful Fst vs (scalarMetric mv s) s := by
  unfold scalarMetric
  refine Careful_bind (asInterface_careful hm s) (fun _ h => h) ?_
  rintro ⟨s1, o⟩ s' vs' hv hs
  simp only at hs
  have hs' : s1.getD [] = s' := by rw [held_getD]; exact hs
  cases o with
  | panic => exact hs'
  | ok v =>
    cases hr : mv.value.region with
    | none => simp only [hr]; exact hs'
    | some r =>
      simp only [hr]
      intro g
      cases g with
      | none => exact hs'
      | some g =>
        simp only [hs']
        refine Careful_bind (visit_careful _ ⟨mv, hv hm, hr⟩) (fun _ h => h) ?_
        rintro ⟨s2, t⟩ s'' vs'' _ ⟨h1, _⟩
        exact h1

theorem initMetricIn_careful (json : Bool) {vs : List MetricView} {mv : MetricView} (hm : mv ∈ vs) (s : Session) :
    Careful Fst vs (initMetricIn json mv s) s := by
  unfold initMetricIn
  split
  · exact careful_mild (distMetric_mild _) fun _ _ _ => rfl
  · split
    · exact careful_mild (listMetric_mild _) fun _ _ _ => rfl
    · exact Careful_bind (scalarMetric_careful hm s) (fun _ h => h) fun _ _ _ _ h => h

theorem getDirectory_mild (d : ℕ) (p : List Str) : Mild (getDirectory d p) := by
  induction p generalizing d with
  | nil => exact mild_ret _
  | cons x p ih =>
    intro vs s r
    cases r with
    | none => rfl
    | some e =>
      obtain ⟨e, en⟩ := e
      cases hd : en.dir with
      | none => simp only [hd]; rfl
      | some d' => simp only [hd]; exact ih d' vs s

theorem lookupPath_mild (d : ℕ) (path : Str) : Mild (lookupPath d path) := by
  unfold lookupPath getDirectoryOrMetric
  split
  · refine mild_bind (getDirectory_mild _ _) fun r => ?_
    cases r with
    | none => exact mild_ret _
    | some d =>
      intro vs s r
      cases r <;> rfl
  · exact mild_ret _

def CollCareful (coll : Coll A) : Prop := ∀ vs m s a, Careful Fst vs (coll m s a) s

theorem mem_view (mv : MetricView) (vs : List MetricView) : mv ∈ (some mv).toList ++ vs := by simp

theorem collect_careful {coll : Coll A} (hc : CollCareful coll) : CollCareful (collect coll) := by
  intro vs m s a r
  cases r with
  | none => rfl
  | some mv =>
    refine Careful_bind (isInfNaN_careful (mem_view mv vs) s) (fun _ h => h) ?_
    rintro ⟨s1, o⟩ s' vs' _ hs
    simp only at hs
    have hs' : s1.getD [] = s' := by rw [held_getD]; exact hs
    cases o with
    | panic => exact hs'
    | ok b =>
      cases b with
      | true => exact hs'
      | false =>
        show Careful Fst vs' (coll m (s1.getD []) a) s'
        rw [hs']
        exact hc _ _ _ _

theorem forEntries_careful {sub : ℕ → Session → A → Prog (Session × A × Status)} {coll : Coll A}
    (hsub : CollCareful sub) (hc : CollCareful coll) (vs : List MetricView) (l : List (ℕ × Entry)) (s : Session)
    (a : A) : Careful Fst vs (forEntries sub coll l s a) s := by
  induction l generalizing s a vs with
  | nil => rfl
  | cons x l ih =>
    obtain ⟨e, en⟩ := x
    refine Careful_bind (Q := Fst) (vs := vs) ?_ (fun _ h => h) ?_
    · split
      · exact hsub _ _ _ _
      · exact collect_careful hc _ _ _ _
      · rfl
    · rintro ⟨s1, a', st⟩ s' vs' _ rfl
      cases st with
      | ok => exact ih _ _ _
      | err => rfl
      | panic => rfl
      | timeout => rfl

theorem traverse_careful {coll : Coll A} (hc : CollCareful coll) (fuel : ℕ) : CollCareful (traverse coll fuel) := by
  induction fuel with
  | zero => intro vs d s a; rfl
  | succ fuel ih => exact fun vs d s a l => forEntries_careful ih hc _ _ _ _

/-- a request -/
def Tidy (p : Prog α) : Prop := ∀ vs, Careful (fun _ s' => s' = []) vs p []

theorem withSession_tidy {body : Session → Prog (Session × A × Status)}
    (h : ∀ vs s, Careful Fst vs (body s) s) : Tidy (withSession body) := fun vs =>
  Careful_bind (h vs _) (fun _ h => h) fun x s' vs' _ hs => by
    simp only [Fst] at hs
    rw [← hs]
    exact Careful_bind (close_careful vs' _) (fun _ h => h) fun _ _ _ _ h => h

theorem getAllMetricsByPath_tidy {coll : Coll A} (hc : CollCareful coll) (fuel d : ℕ) (path : Str) (a : A) :
    Tidy (getAllMetricsByPath coll fuel d path a) := by
  intro vs
  refine careful_mild (lookupPath_mild _ _) ?_
  rintro ⟨x, y⟩ vs' _
  cases y with
  | some m => exact withSession_tidy (fun _ _ => collect_careful hc _ _ _ _) _
  | none =>
    cases x with
    | some d => exact withSession_tidy (fun _ _ => traverse_careful hc _ _ _ _ _) _
    | none => rfl

theorem msgColl_careful (json : Bool) : CollCareful (msgColl json) := by
  intro vs m s a r
  cases r with
  | none => rfl
  | some mv =>
    refine Careful_bind (initMetricIn_careful json (mem_view mv vs) s) (fun _ h => h) ?_
    rintro ⟨s1, o⟩ s' vs' _ rfl
    cases o <;> rfl

theorem listMetrics_tidy (json : Bool) (fuel : ℕ) (path : Str) : Tidy (listMetrics json fuel path) :=
  getAllMetricsByPath_tidy (msgColl_careful json) _ _ _ _

theorem getMetric_mild (d : ℕ) (path : Str) : Mild (getMetric d path) := by
  refine mild_bind (lookupPath_mild _ _) ?_
  rintro ⟨x, y⟩
  cases x <;> cases y <;> exact mild_ret _

theorem getMetricMsg_tidy (json : Bool) (path : Str) : Tidy (getMetricMsg json path) := by
  intro vs
  refine careful_mild (getMetric_mild _ _) fun r vs' _ => ?_
  cases r with
  | none => rfl
  | some m =>
    intro r
    cases r with
    | none => rfl
    | some mv =>
      refine Careful_bind (Q := fun _ s' => s' = []) ?_ (fun _ h => h) fun _ _ _ _ h => h
      exact Careful_bind (initMetricIn_careful json (mem_view mv vs') []) (fun _ h => h) fun x s' vs' _ hs => by
        simp only [Fst] at hs
        rw [← hs]
        exact Careful_bind (close_careful vs' _) (fun _ h => h) fun _ _ _ _ h => h

theorem textEmitMetric_careful (fm : Fmts) {W : Type} (wr : Writer W) {vs : List MetricView} {mv : MetricView}
    (hm : mv ∈ vs) (s : Session) (x : W) :
    Careful (fun r s' => held r.1 = s') vs (textEmitMetric fm wr mv (some s) x) s := by
  unfold textEmitMetric
  split
  · split
    · rfl
    · intro r; cases r <;> rfl
  · split
    · split
      · rfl
      · intro r
        cases r with
        | none => rfl
        | some v => dsimp only; split <;> rfl
    · refine Careful_bind (asTextString_careful fm hm s) (fun _ h => h) ?_
      rintro ⟨s1, o⟩ s' vs' _ h
      cases o <;> exact h

theorem textColl_careful (fm : Fmts) {W : Type} (wr : Writer W) : CollCareful (textColl fm wr) := by
  intro vs m s a r
  cases r with
  | none => rfl
  | some mv =>
    dsimp only
    split
    · rfl
    · refine Careful_bind (textEmitMetric_careful fm wr (mem_view mv vs) s _) (fun _ h => h) ?_
      rintro r s' vs' _ h
      exact (held_getD r.1).trans h

theorem getAllMetrics_tidy {coll : Coll A} (hc : CollCareful coll) (fuel d : ℕ) (a : A) :
    Tidy (getAllMetrics coll fuel d a) := withSession_tidy (fun _ _ => traverse_careful hc _ _ _ _ _)

theorem writing_careful {W : Type} (wr : Writer W) (vs : List MetricView) (x : W) (cs : List Str) (s : Session)
    {k : W → Prog (Session × W × Status)} (hk : ∀ y, Careful Fst vs (k y) s) :
    Careful Fst vs (writing wr x cs s k) s := by
  unfold writing
  split
  · exact hk _
  · rfl

theorem htmlEnd_careful {W : Type} (wr : Writer W) (r : Session × W × Status) (s : Session) (vs : List MetricView)
    (h : Fst r s) : Careful Fst vs (htmlEnd wr r) s := by
  obtain ⟨s, x, st⟩ := r
  cases st <;> exact h

theorem htmlMetric_careful (fm : Fmts) {W : Type} (wr : Writer W) {vs : List MetricView} {mv : MetricView}
    (hm : mv ∈ vs) (s : Session) (x : W) : Careful Fst vs (htmlMetric fm wr mv s x) s := by
  unfold htmlMetric
  split
  · refine writing_careful _ _ _ _ _ fun y => ?_
    split
    · rfl
    · intro r; cases r <;> rfl
  · split
    · split
      · rfl
      · intro r
        cases r with
        | none => rfl
        | some v =>
          refine writing_careful _ _ _ _ _ fun y r => ?_
          cases r with
          | none => rfl
          | some v => dsimp only; split <;> rfl
    · refine writing_careful _ _ _ _ _ fun y => Careful_bind (asHtmlString_careful fm hm s) (fun _ h => h) ?_
      rintro ⟨s1, o⟩ s' vs' _ h
      have h' : s1.getD [] = s' := by rw [held_getD]; exact h
      cases o <;> exact h'

theorem htmlEntries_careful (fm : Fmts) {W : Type} (wr : Writer W) (vs : List MetricView) (l : List (ℕ × Entry))
    (s : Session) (x : W) : Careful Fst vs (htmlEntries fm wr l s x) s := by
  induction l generalizing s x vs with
  | nil => rfl
  | cons e l ih =>
    obtain ⟨e, en⟩ := e
    refine Careful_bind (Q := Fst) (vs := vs) ?_ (fun _ h => h) ?_
    · unfold htmlEntry
      split
      · intro r; cases r <;> rfl
      · intro r
        cases r with
        | none => rfl
        | some mv => exact htmlMetric_careful fm wr (mem_view mv vs) _ _
      · rfl
    · rintro ⟨s1, a', st⟩ s' vs' _ rfl
      cases st with
      | ok => exact ih _ _ _
      | err => rfl
      | panic => rfl
      | timeout => rfl

theorem htmlEndpoint_tidy (fm : Fmts) {W : Type} (wr : Writer W) (path : Str) (x : W) :
    Tidy (htmlEndpoint fm wr path x) := by
  intro vs
  refine careful_mild (lookupPath_mild _ _) ?_
  rintro ⟨d, y⟩ vs' _
  cases y with
  | some m =>
    cases d <;>
    · refine withSession_tidy (fun vs s => ?_) _
      refine writing_careful _ _ _ _ _ fun y r => ?_
      cases r with
      | none => rfl
      | some mv =>
        refine Careful_bind (htmlMetric_careful fm wr (mem_view mv vs) _ _) (fun _ h => h) (fun a s' vs'' _ h => ?_)
        exact htmlEnd_careful _ _ _ _ h
  | none =>
    cases d with
    | some d =>
      refine withSession_tidy (fun vs s => ?_) _
      refine writing_careful _ _ _ _ _ fun y l => ?_
      refine Careful_bind (htmlEntries_careful _ _ _ _ _ _) (fun _ h => h) (fun a s' vs'' _ h => ?_)
      exact htmlEnd_careful _ _ _ _ h
    | none => rfl

/-! ### runs -/

theorem moves_append (r : ℕ) (a b : List Ev) : moves r (a ++ b) = moves r a ++ moves r b := by
  induction a with
  | nil => rfl
  | cons e a ih =>
    rw [List.cons_append, moves.eq_2, moves.eq_2]
    split
    · split <;> simp [ih]
    · split <;> simp [ih]
    · exact ih

/-- reads in `h`, which comes after `h0`, are guarded -/
def Kept (S : State → Prop) (h0 h : List Ev) : Prop :=
  ∀ before e after sc, h = before ++ e :: after → e.own = true → readsSource e.cmd = some sc →
    ∃ σ m mv, S σ ∧ metricView σ.tree m = some mv ∧ mv.value.src = some sc ∧
      ∀ r, mv.value.region = some r → Taken r (h0 ++ before)

theorem kept_cons {S : State → Prop} {h0 h1 : List Ev} {e0 : Ev} {vs : List MetricView} {s : Session}
    (hg : ∀ sc, e0.own = true → readsSource e0.cmd = some sc → Guard vs s sc)
    (hs : ∀ r, s.lookup r ≠ none → Taken r h0)
    (hv : ∀ mv ∈ vs, ∃ τ m, S τ ∧ metricView τ.tree m = some mv)
    (hrest : Kept S (h0 ++ [e0]) h1) : Kept S h0 (e0 :: h1) := by
  intro before e after sc he ho hsc
  cases before with
  | nil =>
    cases he
    obtain ⟨mv, g1, g2, g3⟩ := hg sc ho hsc
    obtain ⟨τ, m, g4, g5⟩ := hv mv g1
    refine ⟨τ, m, mv, g4, g5, g2, fun r hr => ?_⟩
    rw [List.append_nil]
    exact hs r (g3 r hr)
  | cons e1 before =>
    cases he
    obtain ⟨τ, m, mv, g1, g2, g3, g4⟩ := hrest before e after sc rfl ho hsc
    refine ⟨τ, m, mv, g1, g2, g3, fun r hr => ?_⟩
    have := g4 r hr
    rwa [List.append_assoc] at this

theorem taken_same {r : ℕ} {h0 : List Ev} {e : Ev} (he : moves r [e] = []) (h : Taken r h0) : Taken r (h0 ++ [e]) := by
  unfold Taken
  rw [moves_append, he, List.append_nil]
  exact h

theorem careful_run {S : State → Prop} {Q : α → Session → Prop} {vs : List MetricView} {p : Prog α} {s : Session}
    {σ σ' h a} (hr : RunI w p σ h σ' a) (hp : Careful Q vs p s) (hh : ∀ e ∈ h, S e.pre) (h0 : List Ev)
    (hn : (s.map Prod.fst).Nodup) (hs : ∀ r, s.lookup r ≠ none → Taken r h0)
    (hv : ∀ mv ∈ vs, ∃ τ m, S τ ∧ metricView τ.tree m = some mv) : Kept S h0 h := by
  induction hr generalizing s vs h0 with
  | ret a σ =>
    intro before e after sc he
    simp at he
  | @env p σ h σ' a c hc hr ih =>
    refine kept_cons (vs := vs) (s := s) (fun sc ho => by cases ho) hs hv ?_
    refine ih hp (fun e he => hh e (List.mem_cons_of_mem _ he)) _ hn (fun r h => taken_same ?_ (hs r h)) hv
    simp [moves]
  | @op c k σ h σ' a hr ih =>
    have hh' : ∀ e ∈ h, S e.pre := fun e he => hh e (List.mem_cons_of_mem _ he)
    have hσ : S σ := hh ⟨true, c, σ⟩ (by simp)
    cases c with
    | rlock r0 =>
      have h1' : r0 ∉ s.map Prod.fst := by
        intro hm
        obtain ⟨x, hx, rfl⟩ := List.mem_map.mp hm
        have h1 := hp.1
        rw [List.lookup_eq_none_iff] at h1
        simpa using h1 x hx
      refine kept_cons (vs := vs) (s := s) (fun sc _ h => by cases h) hs hv ?_
      refine ih (hp.2.2 _) hh' _ (List.nodup_cons.mpr ⟨h1', hn⟩) ?_ hv
      intro r hr
      by_cases hrr : r0 = r
      · unfold Taken
        rw [moves_append]
        simp [moves, hrr]
      · refine taken_same (by simp [moves, hrr]) (hs r ?_)
        have hrr' : ¬ r = r0 := fun h => hrr h.symm
        simpa [List.lookup_cons, hrr'] using hr
    | runlock r0 =>
      obtain ⟨t, s1, rfl, h2⟩ := hp
      rw [List.map_cons, List.nodup_cons] at hn
      refine kept_cons (vs := vs) (s := (r0, t) :: s1) (fun sc _ h => by cases h) hs hv ?_
      refine ih h2 hh' _ hn.2 ?_ hv
      intro r hr
      have hrr : ¬ r0 = r := by
        rintro rfl
        refine hr ?_
        rw [List.lookup_eq_none_iff]
        intro x hx
        have : ¬ x.1 = r0 := fun h => hn.1 (List.mem_map.mpr ⟨x, hx, h⟩)
        have this' : ¬ r0 = x.1 := fun h => this h.symm
        simpa using this'
      refine taken_same (by simp [moves, hrr]) (hs r ?_)
      have hrr' : (r == r0) = false := by
        rw [beq_eq_false_iff_ne]
        exact fun h => hrr h.symm
      rw [List.lookup_cons, hrr']
      exact hr
    | metric m =>
      refine kept_cons (vs := vs) (s := s) (fun sc _ h => by cases h) hs hv ?_
      refine ih (hp _) hh' _ hn (fun r h => taken_same (by simp [moves]) (hs r h)) ?_
      intro mv hmv
      rcases List.mem_append.mp hmv with h1 | h1
      · exact ⟨σ, m, hσ, Option.mem_toList.mp h1⟩
      · exact hv mv h1
    | readVar v =>
      refine kept_cons (vs := vs) (s := s) (fun sc _ h => by cases h; exact hp.1) hs hv ?_
      exact ih (hp.2 _) hh' _ hn (fun r h => taken_same (by simp [moves]) (hs r h)) hv
    | callFn v =>
      refine kept_cons (vs := vs) (s := s) (fun sc _ h => by cases h; exact hp.1) hs hv ?_
      exact ih (hp.2 _) hh' _ hn (fun r h => taken_same (by simp [moves]) (hs r h)) hv
    | callFlagGet v =>
      refine kept_cons (vs := vs) (s := s) (fun sc _ h => by cases h; exact hp.1) hs hv ?_
      exact ih (hp.2 _) hh' _ hn (fun r h => taken_same (by simp [moves]) (hs r h)) hv
    | callFlagString v =>
      refine kept_cons (vs := vs) (s := s) (fun sc _ h => by cases h; exact hp.1) hs hv ?_
      exact ih (hp.2 _) hh' _ hn (fun r h => taken_same (by simp [moves]) (hs r h)) hv
    | getEntry | list | dirAbsPath | snapshot | getList | regionId =>
      refine kept_cons (vs := vs) (s := s) (fun sc _ h => by cases h) hs hv ?_
      exact ih (hp _) hh' _ hn (fun r h => taken_same (by simp [moves]) (hs r h)) hv
    | removeEntry => exact hp.elim
    | unregisterDir => exact hp.elim
    | createDir => exact hp.elim
    | storeMetric => exact hp.elim
    | setUnit => exact hp.elim
    | distCall => exact hp.elim
    | newDist => exact hp.elim
    | newList => exact hp.elim
    | changeList => exact hp.elim
    | newVar => exact hp.elim
    | writeVar => exact hp.elim
    | newSlice => exact hp.elim
    | writeSlice => exact hp.elim
    | newRegion => exact hp.elim
    | tick => exact hp.elim

theorem tidy_reads {p : Prog α} (hp : Tidy p) {s s' : State} {h : List Ev} {a : α} (hr : RunI w p s h s' a) :
    ReadsHolding (fun τ => τ ∈ statesOf h s') h :=
  careful_run (S := fun τ => τ ∈ statesOf h s') hr (hp [])
    (fun e he => List.mem_append_left _ (List.mem_map.mpr ⟨e, he, rfl⟩)) [] (by simp) (fun r h => by simp at h)
    (fun mv h => by simp at h)

end Tricorder
