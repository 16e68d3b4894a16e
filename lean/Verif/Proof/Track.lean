import Verif.Proof.Reads
import Verif.Spec.Listing
/-!
# Which groups a request holds
-/

namespace Tricorder
open Go Spec Tree

variable {A α β : Type} {w : World}

/-- `p`, started while holding the groups of `s`, takes only groups it does not hold, releases only groups it
holds, and `f` of its result is what it holds in the end -/
def Track (f : α → Session) : Prog α → Session → Prop
  | .ret a, s => f a = s
  | .op (.rlock r) k, s => s.lookup r = none ∧ ∀ t, Track f (k t) ((r, t) :: s)
  | .op (.runlock r) k, s => ∃ t s', s = (r, t) :: s' ∧ Track f (k ()) s'
  | .op (.getEntry d n) k, s => ∀ x, Track f (k x) s
  | .op (.list d) k, s => ∀ x, Track f (k x) s
  | .op (.metric m) k, s => ∀ x, Track f (k x) s
  | .op (.dirAbsPath d) k, s => ∀ x, Track f (k x) s
  | .op (.snapshot i) k, s => ∀ x, Track f (k x) s
  | .op (.getList i) k, s => ∀ x, Track f (k x) s
  | .op (.readVar v) k, s => ∀ x, Track f (k x) s
  | .op (.callFn v) k, s => ∀ x, Track f (k x) s
  | .op (.callFlagGet v) k, s => ∀ x, Track f (k x) s
  | .op (.callFlagString v) k, s => ∀ x, Track f (k x) s
  | .op (.regionId v) k, s => ∀ x, Track f (k x) s
  | _, _ => False

theorem Track_bind {f : α → Session} {g : β → Session} {p : Prog α} {q : α → Prog β} {s : Session}
    (hp : Track f p s) (hq : ∀ a, Track g (q a) (f a)) : Track g (p.bind q) s := by
  induction p generalizing s with
  | ret a =>
    have h : f a = s := hp
    rw [← h]; exact hq a
  | op c k ih =>
    cases c with
    | rlock r => exact ⟨hp.1, fun t => ih t (hp.2 t)⟩
    | runlock r =>
      obtain ⟨t, s', h1, h2⟩ := hp
      exact ⟨t, s', h1, ih () h2⟩
    | getEntry d n => exact fun x => ih x (hp x)
    | list d => exact fun x => ih x (hp x)
    | metric d => exact fun x => ih x (hp x)
    | dirAbsPath d => exact fun x => ih x (hp x)
    | snapshot d => exact fun x => ih x (hp x)
    | getList d => exact fun x => ih x (hp x)
    | readVar d => exact fun x => ih x (hp x)
    | callFn d => exact fun x => ih x (hp x)
    | callFlagGet d => exact fun x => ih x (hp x)
    | callFlagString d => exact fun x => ih x (hp x)
    | regionId d => exact fun x => ih x (hp x)
    | removeEntry => exact hp.elim
    | unregisterDir => exact hp.elim
    | createDir => exact hp.elim
    | storeMetric => exact hp.elim
    | setUnit => exact hp.elim
    | distCall => exact hp.elim
    | newDist => exact hp.elim
    | newList => exact hp.elim
    | changeList => exact hp.elim
    | newVar => exact hp.elim
    | writeVar => exact hp.elim
    | newSlice => exact hp.elim
    | writeSlice => exact hp.elim
    | newRegion => exact hp.elim
    | tick => exact hp.elim

/-- a program that takes and releases nothing -/
def Quiet (p : Prog α) : Prop := ∀ s, Track (fun _ => s) p s

theorem quiet_ret (a : α) : Quiet (.ret a) := fun _ => rfl

theorem quiet_bind {p : Prog α} {q : α → Prog β} (hp : Quiet p) (hq : ∀ a, Quiet (q a)) : Quiet (p.bind q) :=
  fun s => Track_bind (hp s) fun a => hq a s

theorem track_quiet {f : β → Session} {p : Prog α} {q : α → Prog β} {s : Session} (hp : Quiet p)
    (hq : ∀ a, Track f (q a) s) : Track f (p.bind q) s := Track_bind (hp s) hq

theorem visit_track (s : Session) (r : ℕ) : Track Prod.fst (visit s r) s := by
  unfold visit
  cases h : s.lookup r with
  | some t => rfl
  | none => exact ⟨h, fun t => rfl⟩

theorem close_track (s : Session) : Track (fun _ => []) (close s) s := by
  induction s with
  | nil => rfl
  | cons x s ih => obtain ⟨r, t⟩ := x; exact ⟨t, s, rfl, ih⟩

theorem evalSrc_quiet (s : Option Src) : Quiet (evalSrc s) := by
  unfold evalSrc
  split
  · exact quiet_ret _
  · exact quiet_ret _
  all_goals exact fun _ _ => rfl

theorem evalIn_track (v : MValue) (s : Session) : Track Prod.fst (evalIn v s) s := by
  unfold evalIn
  split
  · exact track_quiet (evalSrc_quiet _) fun _ => rfl
  · exact Track_bind (visit_track _ _) fun st => track_quiet (evalSrc_quiet _) fun _ => rfl

/-- the groups of an optional session, with `s0` for none -/
def held : Option Session → Session
  | some s => s
  | none => []

theorem evaluate_track (v : MValue) (s : Option Session) :
    Track (fun r => held r.1) (evaluate v s) (held s) := by
  unfold evaluate
  split
  · exact Track_bind (evalIn_track _ _) fun _ => rfl
  · refine Track_bind (f := fun _ => []) ?_ fun _ => rfl
    exact Track_bind (evalIn_track _ _) fun sh => Track_bind (close_track _) fun _ => rfl

theorem deref_quiet (h : Handle) : Quiet (deref h) := by
  unfold deref
  split
  · exact quiet_ret _
  · exact fun _ _ => rfl

theorem readAs_track (v : MValue) (s : Option Session) (conv : Dyn → Option α) :
    Track (fun r => held r.1) (readAs v s conv) (held s) := by
  unfold readAs
  refine Track_bind (evaluate_track _ _) ?_
  rintro ⟨s', o⟩
  cases o with
  | panic => rfl
  | ok h =>
    refine track_quiet (deref_quiet _) fun d => ?_
    cases h : d.bind conv with
    | none => simp only [h]; rfl
    | some a => simp only [h]; rfl

theorem isInfNaN_track (v : MValue) (s : Option Session) :
    Track (fun r => held r.1) (isInfNaN v s) (held s) := by
  unfold isInfNaN
  split
  · exact readAs_track _ _ _
  · rfl

theorem asInterface_track (v : MValue) (s : Option Session) :
    Track (fun r => held r.1) (asInterface v s) (held s) := by
  unfold asInterface
  split
  · rfl
  · exact readAs_track _ _ _

theorem asTextString_track (fm : Fmts) (v : MValue) (s : Option Session) :
    Track (fun r => held r.1) (asTextString fm v s) (held s) := by
  unfold asTextString
  split
  · rfl
  · exact readAs_track _ _ _

theorem asHtmlString_track (fm : Fmts) (v : MValue) (s : Option Session) :
    Track (fun r => held r.1) (asHtmlString fm v s) (held s) := by
  unfold asHtmlString
  split
  · rfl
  · exact readAs_track _ _ _

theorem distMetric_quiet (mv : MetricView) : Quiet (distMetric mv) := by
  unfold distMetric
  split
  · exact quiet_ret _
  · intro s r; cases r <;> rfl

theorem listMetric_quiet (mv : MetricView) : Quiet (listMetric mv) := by
  unfold listMetric
  split
  · exact quiet_ret _
  · intro s r; cases r <;> rfl

theorem held_getD (s : Option Session) : s.getD [] = held s := by cases s <;> rfl

theorem scalarMetric_track (mv : MetricView) (s : Session) : Track Prod.fst (scalarMetric mv s) s := by
  unfold scalarMetric
  refine Track_bind (asInterface_track mv.value (some s)) ?_
  rintro ⟨s', o⟩
  cases o with
  | panic => exact held_getD s'
  | ok v =>
    cases hr : mv.value.region with
    | none => simp only [hr]; exact held_getD s'
    | some r =>
      simp only [hr]
      intro g
      cases g with
      | none => exact held_getD s'
      | some g =>
        rw [held_getD]
        exact Track_bind (visit_track _ _) fun _ => rfl

theorem initMetricIn_track (json : Bool) (mv : MetricView) (s : Session) :
    Track Prod.fst (initMetricIn json mv s) s := by
  unfold initMetricIn
  split
  · exact track_quiet (distMetric_quiet _) fun _ => rfl
  · split
    · exact track_quiet (listMetric_quiet _) fun _ => rfl
    · exact Track_bind (scalarMetric_track _ _) fun _ => rfl

theorem initMetricAlone_quiet (json : Bool) (mv : MetricView) :
    Track (fun _ => []) (initMetricAlone json mv) [] :=
  Track_bind (initMetricIn_track _ _ _) fun _ => Track_bind (close_track _) fun _ => rfl

theorem getDirectory_quiet (d : ℕ) (p : List Str) : Quiet (getDirectory d p) := by
  induction p generalizing d with
  | nil => exact quiet_ret _
  | cons x p ih =>
    intro s r
    cases r with
    | none => rfl
    | some e =>
      obtain ⟨e, en⟩ := e
      cases hd : en.dir with
      | none => simp only [hd]; rfl
      | some d' => simp only [hd]; exact ih d' s

theorem lookupPath_quiet (d : ℕ) (path : Str) : Quiet (lookupPath d path) := by
  unfold lookupPath getDirectoryOrMetric
  split
  · refine quiet_bind (getDirectory_quiet _ _) fun r => ?_
    cases r with
    | none => exact quiet_ret _
    | some d =>
      intro s r
      cases r <;> rfl
  · exact quiet_ret _

/-- a collector that keeps track of its groups -/
def CollTrack (coll : Coll A) : Prop := ∀ m s a, Track Prod.fst (coll m s a) s

theorem collect_track {coll : Coll A} (hc : CollTrack coll) (m : ℕ) (s : Session) (a : A) :
    Track Prod.fst (collect coll m s a) s := by
  intro r
  cases r with
  | none => rfl
  | some mv =>
    refine Track_bind (isInfNaN_track mv.value (some s)) ?_
    rintro ⟨s', o⟩
    cases o with
    | panic => exact held_getD s'
    | ok b =>
      cases b with
      | true => exact held_getD s'
      | false =>
        show Track Prod.fst (coll m (s'.getD []) a) (held s')
        rw [held_getD]
        exact hc _ _ _

theorem forEntries_track {sub : ℕ → Session → A → Prog (Session × A × Status)} {coll : Coll A}
    (hsub : ∀ d s a, Track Prod.fst (sub d s a) s) (hc : CollTrack coll) (l : List (ℕ × Entry)) (s : Session)
    (a : A) : Track Prod.fst (forEntries sub coll l s a) s := by
  induction l generalizing s a with
  | nil => rfl
  | cons x l ih =>
    obtain ⟨e, en⟩ := x
    refine Track_bind (f := Prod.fst) ?_ ?_
    · split
      · exact hsub _ _ _
      · exact collect_track hc _ _ _
      · rfl
    · rintro ⟨s', a', st⟩
      cases st with
      | ok => exact ih _ _
      | err => rfl
      | panic => rfl
      | timeout => rfl

theorem traverse_track {coll : Coll A} (hc : CollTrack coll) (fuel d : ℕ) (s : Session) (a : A) :
    Track Prod.fst (traverse coll fuel d s a) s := by
  induction fuel generalizing d s a with
  | zero => rfl
  | succ fuel ih => exact fun l => forEntries_track ih hc _ _ _

/-- a request: holds nothing before and after -/
def Balanced (p : Prog α) : Prop := Track (fun _ => []) p []

theorem withSession_balanced {body : Session → Prog (Session × A × Status)}
    (h : ∀ s, Track Prod.fst (body s) s) : Balanced (withSession body) :=
  Track_bind (h _) fun _ => Track_bind (close_track _) fun _ => rfl

theorem getAllMetrics_balanced {coll : Coll A} (hc : CollTrack coll) (fuel d : ℕ) (a : A) :
    Balanced (getAllMetrics coll fuel d a) :=
  withSession_balanced fun _ => traverse_track hc _ _ _ _

theorem getAllMetricsByPath_balanced {coll : Coll A} (hc : CollTrack coll) (fuel d : ℕ) (path : Str) (a : A) :
    Balanced (getAllMetricsByPath coll fuel d path a) := by
  refine track_quiet (lookupPath_quiet _ _) ?_
  rintro ⟨x, y⟩
  cases y with
  | some m => exact withSession_balanced fun _ => collect_track hc _ _ _
  | none =>
    cases x with
    | some d => exact getAllMetrics_balanced hc _ _ _
    | none => rfl

theorem msgColl_track (json : Bool) : CollTrack (msgColl json) := by
  intro m s a r
  cases r with
  | none => rfl
  | some mv =>
    refine Track_bind (initMetricIn_track _ _ _) ?_
    rintro ⟨s', o⟩
    cases o <;> rfl

theorem listMetrics_balanced (json : Bool) (fuel : ℕ) (path : Str) : Balanced (listMetrics json fuel path) :=
  getAllMetricsByPath_balanced (msgColl_track json) _ _ _ _

theorem getMetric_quiet (d : ℕ) (path : Str) : Quiet (getMetric d path) := by
  refine quiet_bind (lookupPath_quiet _ _) ?_
  rintro ⟨x, y⟩
  cases x <;> cases y <;> exact quiet_ret _

theorem getMetricMsg_balanced (json : Bool) (path : Str) : Balanced (getMetricMsg json path) := by
  refine track_quiet (getMetric_quiet _ _) fun r => ?_
  cases r with
  | none => rfl
  | some m =>
    intro r
    cases r with
    | none => rfl
    | some mv => exact Track_bind (initMetricAlone_quiet _ _) fun _ => rfl

theorem textEmitMetric_track (fm : Fmts) {W : Type} (wr : Writer W) (mv : MetricView) (s : Option Session)
    (x : W) : Track (fun r => held r.1) (textEmitMetric fm wr mv s x) (held s) := by
  unfold textEmitMetric
  split
  · split
    · rfl
    · intro r; cases r <;> rfl
  · split
    · split
      · rfl
      · intro r
        cases r with
        | none => rfl
        | some v => dsimp only; split <;> rfl
    · refine Track_bind (asTextString_track _ _ _) ?_
      rintro ⟨s', o⟩
      cases o <;> rfl

theorem readAs_alone (v : MValue) (conv : Dyn → Option α) : Balanced (readAs v none conv) := by
  unfold readAs
  refine Track_bind (f := fun _ => []) ?_ ?_
  · refine Track_bind (f := fun _ => []) ?_ fun _ => rfl
    exact Track_bind (evalIn_track _ _) fun sh => Track_bind (close_track _) fun _ => rfl
  · rintro ⟨s', o⟩
    cases o with
    | panic => rfl
    | ok h =>
      refine track_quiet (deref_quiet _) fun d => ?_
      cases h : d.bind conv with
      | none => simp only [h]; rfl
      | some a => simp only [h]; rfl

theorem textEmitMetric_alone (fm : Fmts) {W : Type} (wr : Writer W) (mv : MetricView) (x : W) :
    Balanced (textEmitMetric fm wr mv none x) := by
  unfold textEmitMetric
  split
  · split
    · rfl
    · intro r; cases r <;> rfl
  · split
    · split
      · rfl
      · intro r
        cases r with
        | none => rfl
        | some v => dsimp only; split <;> rfl
    · refine Track_bind (f := fun _ => []) ?_ ?_
      · unfold asTextString
        split
        · rfl
        · exact readAs_alone _ _
      · rintro ⟨s', o⟩
        cases o <;> rfl

theorem textColl_track (fm : Fmts) {W : Type} (wr : Writer W) : CollTrack (textColl fm wr) := by
  intro m s a r
  cases r with
  | none => rfl
  | some mv =>
    dsimp only
    split
    · rfl
    · exact Track_bind (textEmitMetric_track _ _ _ (some s) _) fun r => held_getD r.1

theorem textEndpoint_balanced (fm : Fmts) {W : Type} (wr : Writer W) (fuel : ℕ) (path : Str) (x : W) :
    Balanced (textEndpoint fm wr fuel path x) := by
  refine track_quiet (lookupPath_quiet _ _) ?_
  rintro ⟨d, y⟩
  cases y with
  | some m =>
    cases d <;>
    · intro r
      cases r with
      | none => rfl
      | some mv =>
        refine Track_bind (f := fun _ => []) ?_ fun _ => rfl
        exact textEmitMetric_alone fm wr mv x
  | none =>
    cases d with
    | some d => exact getAllMetrics_balanced (textColl_track _ _) _ _ _
    | none => rfl

theorem writing_track {W : Type} (wr : Writer W) (x : W) (cs : List Str) (s : Session)
    {k : W → Prog (Session × W × Status)} (hk : ∀ y, Track Prod.fst (k y) s) :
    Track Prod.fst (writing wr x cs s k) s := by
  unfold writing
  split
  · exact hk _
  · rfl

theorem htmlEnd_track {W : Type} (wr : Writer W) (r : Session × W × Status) :
    Track Prod.fst (htmlEnd wr r) r.1 := by
  obtain ⟨s, x, st⟩ := r
  cases st <;> rfl

theorem htmlMetric_track (fm : Fmts) {W : Type} (wr : Writer W) (mv : MetricView) (s : Session)
    (x : W) : Track Prod.fst (htmlMetric fm wr mv s x) s := by
  unfold htmlMetric
  split
  · refine writing_track _ _ _ _ fun y => ?_
    split
    · rfl
    · intro r; cases r <;> rfl
  · split
    · split
      · rfl
      · intro r
        cases r with
        | none => rfl
        | some v =>
          refine writing_track _ _ _ _ fun y r => ?_
          cases r with
          | none => rfl
          | some v => dsimp only; split <;> rfl
    · refine writing_track _ _ _ _ fun y => Track_bind (asHtmlString_track _ _ (some s)) ?_
      rintro ⟨s', o⟩
      cases o <;> exact held_getD s'

theorem htmlEntries_track (fm : Fmts) {W : Type} (wr : Writer W) (l : List (ℕ × Entry)) (s : Session) (x : W) :
    Track Prod.fst (htmlEntries fm wr l s x) s := by
  induction l generalizing s x with
  | nil => rfl
  | cons e l ih =>
    obtain ⟨e, en⟩ := e
    refine Track_bind (f := Prod.fst) ?_ ?_
    · unfold htmlEntry
      split
      · intro r; cases r <;> rfl
      · intro r
        cases r with
        | none => rfl
        | some mv => exact htmlMetric_track _ _ _ _ _
      · rfl
    · rintro ⟨s', a', st⟩
      cases st with
      | ok => exact ih _ _
      | err => rfl
      | panic => rfl
      | timeout => rfl

theorem htmlEndpoint_balanced (fm : Fmts) {W : Type} (wr : Writer W) (path : Str) (x : W) :
    Balanced (htmlEndpoint fm wr path x) := by
  refine track_quiet (lookupPath_quiet _ _) ?_
  rintro ⟨d, y⟩
  cases y with
  | some m =>
    cases d <;>
    · refine withSession_balanced fun s => writing_track _ _ _ _ fun y r => ?_
      cases r with
      | none => rfl
      | some mv => exact Track_bind (htmlMetric_track _ _ _ _ _) (htmlEnd_track _)
  | none =>
    cases d with
    | some d => exact withSession_balanced fun _ => writing_track _ _ _ _ fun _ l =>
        Track_bind (htmlEntries_track _ _ _ _ _) (htmlEnd_track _)
    | none => rfl

/-! ### what the history of a tracked program looks like -/

/-- the groups held after a history, with the times they answered -/
def replay (w : World) : List Ev → Session → Session
  | [], s => s
  | ⟨true, .rlock r, σ⟩ :: h, s => replay w h ((r, w.lockTime σ r) :: s)
  | ⟨true, .runlock _, _⟩ :: h, s => replay w h s.tail
  | _ :: h, s => replay w h s

/-- groups are taken only when not held and released only when held -/
def Orderly (w : World) : List Ev → Session → Prop
  | [], _ => True
  | ⟨true, .rlock r, σ⟩ :: h, s => s.lookup r = none ∧ Orderly w h ((r, w.lockTime σ r) :: s)
  | ⟨true, .runlock r, _⟩ :: h, s => (∃ t s', s = (r, t) :: s') ∧ Orderly w h s.tail
  | _ :: h, s => Orderly w h s

theorem track_run {f : α → Session} {p : Prog α} {s : Session} (hp : Track f p s) {σ σ' h a}
    (hr : RunI w p σ h σ' a) : f a = replay w h s ∧ Orderly w h s := by
  induction hr generalizing s with
  | ret => exact ⟨hp, trivial⟩
  | env c _ _ ih =>
    have := ih hp
    cases c <;> exact this
  | @op c k s0 h s' a hr ih =>
    cases c with
    | rlock r =>
      obtain ⟨a1, a2⟩ := ih (hp.2 _)
      exact ⟨a1, hp.1, a2⟩
    | runlock r =>
      obtain ⟨t, s', rfl, h2⟩ := hp
      obtain ⟨a1, a2⟩ := ih h2
      exact ⟨a1, ⟨t, s', rfl⟩, a2⟩
    | getEntry d n => exact ih (hp _)
    | list d => exact ih (hp _)
    | metric d => exact ih (hp _)
    | dirAbsPath d => exact ih (hp _)
    | snapshot d => exact ih (hp _)
    | getList d => exact ih (hp _)
    | readVar d => exact ih (hp _)
    | callFn d => exact ih (hp _)
    | callFlagGet d => exact ih (hp _)
    | callFlagString d => exact ih (hp _)
    | regionId d => exact ih (hp _)
    | removeEntry => exact hp.elim
    | unregisterDir => exact hp.elim
    | createDir => exact hp.elim
    | storeMetric => exact hp.elim
    | setUnit => exact hp.elim
    | distCall => exact hp.elim
    | newDist => exact hp.elim
    | newList => exact hp.elim
    | changeList => exact hp.elim
    | newVar => exact hp.elim
    | writeVar => exact hp.elim
    | newSlice => exact hp.elim
    | writeSlice => exact hp.elim
    | newRegion => exact hp.elim
    | tick => exact hp.elim

/-- every time in the session is an answer of the group during the history -/
theorem replay_from {h : List Ev} {s : Session} {r : ℕ} {t : Time} (hm : (r, t) ∈ replay w h s) :
    (r, t) ∈ s ∨ ∃ e ∈ h, e.own = true ∧ e.cmd = .rlock r ∧ t = w.lockTime e.pre r := by
  induction h generalizing s with
  | nil => exact Or.inl hm
  | cons e h ih =>
    have lift : (r, t) ∈ s ∨ (∃ e ∈ h, e.own = true ∧ e.cmd = .rlock r ∧ t = w.lockTime e.pre r) →
        (r, t) ∈ s ∨ ∃ e' ∈ e :: h, e'.own = true ∧ e'.cmd = .rlock r ∧ t = w.lockTime e'.pre r := by
      rintro (h1 | ⟨e', h1, h2⟩)
      · exact Or.inl h1
      · exact Or.inr ⟨e', List.mem_cons_of_mem _ h1, h2⟩
    obtain ⟨own, c, σ⟩ := e
    cases own with
    | false => exact lift (ih (s := s) (by cases c <;> exact hm))
    | true =>
      cases c with
      | rlock r' =>
        rcases ih (s := (r', w.lockTime σ r') :: s) hm with h1 | ⟨e', h1, h2⟩
        · rcases List.mem_cons.mp h1 with h1 | h1
          · cases h1
            exact Or.inr ⟨⟨true, .rlock r, σ⟩, by simp, rfl, rfl, rfl⟩
          · exact Or.inl h1
        · exact Or.inr ⟨e', List.mem_cons_of_mem _ h1, h2⟩
      | runlock r' =>
        rcases ih (s := s.tail) hm with h1 | ⟨e', h1, h2⟩
        · exact Or.inl (List.mem_of_mem_tail h1)
        · exact Or.inr ⟨e', List.mem_cons_of_mem _ h1, h2⟩
      | _ => exact lift (ih (s := s) hm)

theorem lookup_mem {s : Session} {r : ℕ} {t : Time} (h : s.lookup r = some t) : (r, t) ∈ s := by
  induction s with
  | nil => cases h
  | cons x s ih =>
    obtain ⟨r', t'⟩ := x
    rw [List.lookup_cons] at h
    split at h
    · rename_i hr
      cases h
      rw [beq_iff_eq.mp hr]; simp
    · exact List.mem_cons_of_mem _ (ih h)

/-- the session after a sequence of calls contains only answers given during these calls -/
theorem calls_from {coll : Coll A} (hc : CollTrack coll) {H ms s a s' a' st}
    (h : Calls w coll H ms s a s' a' st) {r t} (hm : (r, t) ∈ s') :
    (r, t) ∈ s ∨ ∃ e ∈ H, e.own = true ∧ e.cmd = .rlock r ∧ t = w.lockTime e.pre r := by
  induction h with
  | done => exact Or.inl hm
  | timeout => exact Or.inl hm
  | more _ hr _ ih =>
    rcases ih hm with h1 | ⟨e, h1, h2⟩
    · have : _ = _ := (track_run (collect_track hc _ _ _) hr).1
      dsimp only at this
      rw [this] at h1
      rcases replay_from h1 with h2 | ⟨e, h2, h3⟩
      · exact Or.inl h2
      · exact Or.inr ⟨e, by simp [h2], h3⟩
    · exact Or.inr ⟨e, by simp [h1], h2⟩
  | stop _ hr _ _ =>
    have : _ = _ := (track_run (collect_track hc _ _ _) hr).1
    dsimp only at this
    rw [this] at hm
    rcases replay_from hm with h2 | ⟨e, h2, h3⟩
    · exact Or.inl h2
    · exact Or.inr ⟨e, by simp [h2], h3⟩

end Tricorder
