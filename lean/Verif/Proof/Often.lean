import Verif.Spec.Often
import Verif.Proof.ListRun2
import Verif.Model.Html
/-!
# What a request asks of the application
-/

namespace Tricorder
open Go Spec

variable {w : World} {α β A : Type} {V : ℕ → Option MetricView}

theorem consults_append (a b : List Ev) : consults (a ++ b) = consults a ++ consults b := by
  simp [consults, List.filterMap_append]

/-- the description of a metric never changes -/
def Fits (V : ℕ → Option MetricView) : (c : Cmd) → c.Resp → Prop
  | .metric m, r => ∀ mv, r = some mv → V m = some mv
  | _, _ => True

/-- whatever the answers to its steps are, the program asks for a list of sources and ends with a result that satisfy `Q` -/
def Asks (V : ℕ → Option MetricView) : Prog α → (List Src → α → Prop) → Prop
  | .ret a, Q => Q [] a
  | .op c k, Q => ∀ r, Fits V c r → Asks V (k r) fun l a => Q ((readsSource c).toList ++ l) a

theorem Asks.mono {p : Prog α} {Q R : List Src → α → Prop} (h : Asks V p Q) (hq : ∀ l a, Q l a → R l a) : Asks V p R := by
  induction p generalizing Q R with
  | ret a => exact hq _ _ h
  | op c k ih => exact fun r hr => ih r (h r hr) fun l a => hq _ _

theorem Asks.bind {p : Prog α} {f : α → Prog β} {Q : List Src → β → Prop}
    (h : Asks V p fun l a => Asks V (f a) fun l' b => Q (l ++ l') b) : Asks V (p.bind f) Q := by
  induction p generalizing Q with
  | ret a => exact h
  | op c k ih =>
    refine fun r hr => ih r ?_
    refine (h r hr).mono fun l a h' => ?_
    simpa only [List.append_assoc] using h'

theorem asks_run {p : Prog α} {Q : List Src → α → Prop} {σ σ' : State} {h : List Ev} {a : α} (hr : RunI w p σ h σ' a)
    (hV : ∀ e ∈ h, ∀ m mv, metricView e.pre.tree m = some mv → V m = some mv) (hp : Asks V p Q) : Q (consults h) a := by
  induction hr generalizing Q with
  | ret => exact hp
  | env c hc _ ih => exact ih (fun e he => hV e (List.mem_cons_of_mem _ he)) hp
  | @op c k s h s' a hr ih =>
    have hf : Fits V c (exec w c s).2 := by
      cases c with
      | metric m => exact fun mv h => hV _ List.mem_cons_self m mv h
      | _ => trivial
    have := ih (fun e he => hV e (List.mem_cons_of_mem _ he)) (hp _ hf)
    have e : consults (⟨true, c, s⟩ :: h) = (readsSource c).toList ++ consults h := by
      unfold consults
      rw [List.filterMap_cons]
      cases readsSource c <;> rfl
    rw [e]
    exact this

theorem between_consults {h : List Ev} (hb : Between h) : consults h = [] := by
  unfold consults
  rw [List.filterMap_eq_nil_iff]
  intro e he
  split
  · rename_i ho
    rcases hb e he ho with ⟨_, _, h⟩ | ⟨_, h⟩ | ⟨_, h⟩ <;> rw [h] <;> rfl
  · rfl

/-! ### one value -/

theorem visit_asks (s : Session) (r : ℕ) : Asks V (visit s r) fun l _ => l = [] := by
  unfold visit
  split
  · rfl
  · exact fun _ _ => rfl

theorem close_asks (s : Session) : Asks V (close s) fun l _ => l = [] := by
  induction s with
  | nil => rfl
  | cons x s ih => exact fun _ _ => ih

/-- what evaluating leaves to be read -/
def restOf : Out Handle → List Src
  | .ok (.var v) => [.var v]
  | _ => []

theorem evalSrc_asks (o : Option Src) : Asks V (evalSrc o) fun l r => l ++ restOf r = o.toList := by
  rcases o with _ | sc
  · rfl
  · cases sc with
    | var v => rfl
    | fn f => intro r _; rcases r with _ | r <;> rfl
    | flagGet g => intro r _; rcases r with _ | r <;> rfl
    | flagString g => intro r _; rcases r with _ | r <;> rfl

theorem evalIn_asks (v : MValue) (s : Session) : Asks V (evalIn v s) fun l r => l ++ restOf r.2 = v.src.toList := by
  unfold evalIn
  split
  · exact Asks.bind ((evalSrc_asks v.src).mono fun l r h => by simpa [Asks] using h)
  · refine Asks.bind ((visit_asks _ _).mono fun l st h => ?_)
    subst h
    exact Asks.bind ((evalSrc_asks v.src).mono fun l r h => by simpa [Asks] using h)

theorem evaluate_asks (v : MValue) (s : Option Session) : Asks V (evaluate v s) fun l r => l ++ restOf r.2 = v.src.toList := by
  cases s with
  | some s => exact Asks.bind ((evalIn_asks v s).mono fun l r h => by simpa [Asks] using h)
  | none =>
    unfold evaluate evalAlone
    refine Asks.bind (Asks.bind ((evalIn_asks v []).mono fun l r h => ?_))
    refine Asks.bind ((close_asks _).mono fun l' _ h' => ?_)
    subst h'
    simpa [Asks] using h

theorem readAs_asks (v : MValue) (s : Option Session) (conv : Dyn → Option α) :
    Asks V (readAs v s conv) fun l _ => l = v.src.toList := by
  unfold readAs
  refine Asks.bind ((evaluate_asks v s).mono fun l r h => ?_)
  obtain ⟨s', o⟩ := r
  cases o with
  | panic => exact h
  | ok hd =>
    cases hd with
    | var x =>
      intro d _
      have hl : l ++ [Src.var x] = v.src.toList := h
      dsimp only [Prog.bind]
      cases Option.bind d conv <;> exact hl
    | val d =>
      dsimp only [deref, Prog.bind]
      have hl : l ++ [] = v.src.toList := h
      cases Option.bind (some d) conv <;> exact hl

theorem isInfNaN_asks (v : MValue) (s : Option Session) : Asks V (isInfNaN v s) fun l r =>
    if v.valType.isFloat then l = v.src.toList else l = [] ∧ r.2 = .ok false := by
  unfold isInfNaN
  split
  · exact readAs_asks _ _ _
  · exact ⟨rfl, rfl⟩

theorem asInterface_asks (v : MValue) (s : Option Session) : Asks V (asInterface v s) fun l _ => l = v.src.toList := by
  unfold asInterface
  split
  · rename_i h; rw [h]; rfl
  · exact readAs_asks _ _ _

theorem asTextString_asks (fm : Fmts) (v : MValue) (s : Option Session) :
    Asks V (asTextString fm v s) fun l _ => l = v.src.toList := by
  unfold asTextString
  split
  · rename_i h; rw [h]; rfl
  · exact readAs_asks _ _ _

theorem asHtmlString_asks (fm : Fmts) (v : MValue) (s : Option Session) :
    Asks V (asHtmlString fm v s) fun l _ => l = v.src.toList := by
  unfold asHtmlString
  split
  · rename_i h; rw [h]; rfl
  · exact readAs_asks _ _ _

/-! ### one metric -/

theorem once_scalar {mv : MetricView} (h1 : mv.value.valType ≠ .dist) (h2 : mv.value.valType ≠ .list) :
    once mv = mv.value.src.toList := by
  unfold once
  rw [if_neg (by simp [h1, h2])]

theorem once_float {mv : MetricView} (h : mv.value.valType.isFloat = true) : once mv = mv.value.src.toList := by
  refine once_scalar ?_ ?_ <;> intro e <;> rw [e] at h <;> cases h

theorem scalarMetric_asks (mv : MetricView) (s : Session) : Asks V (scalarMetric mv s) fun l _ => l = mv.value.src.toList := by
  unfold scalarMetric
  refine Asks.bind ((asInterface_asks _ _).mono fun l r h => ?_)
  subst h
  obtain ⟨s', o⟩ := r
  cases o with
  | panic => exact List.append_nil _
  | ok x =>
    dsimp only
    split
    · exact List.append_nil _
    · intro r _
      rcases r with _ | g
      · exact List.append_nil _
      · refine Asks.bind ((visit_asks _ _).mono fun l _ h => ?_)
        subst h
        exact List.append_nil _

theorem initMetricIn_asks (json : Bool) (mv : MetricView) (s : Session) : Asks V (initMetricIn json mv s) fun l _ => l = once mv := by
  unfold initMetricIn
  split
  · rename_i h1
    have h : once mv = [] := by unfold once; rw [if_pos (.inl h1)]
    unfold distMetric
    split
    · exact h.symm
    · intro r _
      rcases r with _ | r <;> exact h.symm
  · split
    · rename_i h1
      have h : once mv = [] := by unfold once; rw [if_pos (.inr h1)]
      unfold listMetric
      split
      · exact h.symm
      · intro r _
        rcases r with _ | r <;> exact h.symm
    · rename_i h1 h2
      rw [once_scalar h1 h2]
      exact Asks.bind ((scalarMetric_asks _ _).mono fun l _ h => by subst h; exact List.append_nil _)

theorem initMetricAlone_asks (json : Bool) (mv : MetricView) : Asks V (initMetricAlone json mv) fun l _ => l = once mv := by
  unfold initMetricAlone
  refine Asks.bind ((initMetricIn_asks json mv []).mono fun l r h => ?_)
  subst h
  exact Asks.bind ((close_asks _).mono fun l _ h => by subst h; exact List.append_nil _)

theorem textEmitMetric_asks (fm : Fmts) {W : Type} (wr : Writer W) (mv : MetricView) (s : Option Session) (x : W) :
    Asks V (textEmitMetric fm wr mv s x) fun l _ => l = once mv := by
  unfold textEmitMetric
  split
  · rename_i h1
    have h : once mv = [] := by unfold once; rw [if_pos (.inl h1)]
    split
    · exact h.symm
    · intro r _
      rcases r with _ | r <;> exact h.symm
  · split
    · rename_i h1
      have h : once mv = [] := by unfold once; rw [if_pos (.inr h1)]
      split
      · exact h.symm
      · intro r _
        rcases r with _ | r
        · exact h.symm
        · dsimp only
          split <;> exact h.symm
    · rename_i h1 h2
      rw [once_scalar h1 h2]
      refine Asks.bind ((asTextString_asks _ _ _).mono fun l r h => ?_)
      subst h
      obtain ⟨s', o⟩ := r
      cases o <;> exact List.append_nil _

theorem htmlMetric_asks (fm : Fmts) {W : Type} (wr : Writer W) (mv : MetricView) (s : Session) (x : W) :
    Asks V (htmlMetric fm wr mv s x) fun l r => l <+: once mv ∧ (r.2.2 = .ok → l = once mv) := by
  have nil {r : Session × W × Status} (h : once mv = []) :
      ([] : List Src) <+: once mv ∧ (r.2.2 = .ok → [] = once mv) := ⟨List.nil_prefix, fun _ => h.symm⟩
  have wri {x : W} {cs : List Str} {k : W → Prog (Session × W × Status)} {Q : List Src → Session × W × Status → Prop}
      (h1 : ∀ x' st, st ≠ .ok → Q [] (s, x', st)) (h2 : ∀ x', Asks V (k x') Q) : Asks V (writing wr x cs s k) Q := by
    unfold writing
    split
    · exact h2 _
    · rename_i hne heq
      exact h1 _ _ fun e => hne e
  have bad {x' : W} {st : Status} (h : st ≠ .ok) : ([] : List Src) <+: once mv ∧ (st = .ok → [] = once mv) :=
    ⟨List.nil_prefix, fun e => absurd e h⟩
  unfold htmlMetric
  split
  · rename_i h1
    have h : once mv = [] := by unfold once; rw [if_pos (.inl h1)]
    refine wri (fun x' st e => bad (x' := x') e) fun x' => ?_
    split
    · exact nil (r := (s, x', .panic)) h
    · intro r _
      rcases r with _ | r
      · exact nil (r := (s, x', .panic)) h
      · exact nil (r := (s, _)) h
  · split
    · rename_i h1
      have h : once mv = [] := by unfold once; rw [if_pos (.inr h1)]
      split
      · exact nil (r := (s, _)) h
      · intro r _
        rcases r with _ | r
        · exact nil (r := (s, x, .panic)) h
        · refine wri (fun x' st e => bad (x' := x') e) fun x' => ?_
          intro r _
          rcases r with _ | r
          · exact nil (r := (s, x', .panic)) h
          · dsimp only
            split
            · exact nil (r := (s, x', .panic)) h
            · exact nil (r := (s, _)) h
    · rename_i h1 h2
      refine wri (fun x' st e => bad (x' := x') e) fun x' => ?_
      refine Asks.bind ((asHtmlString_asks _ _ _).mono fun l r h => ?_)
      rw [← once_scalar h1 h2] at h
      subst h
      obtain ⟨s', o⟩ := r
      cases o <;> exact ⟨by simp, fun _ => by simp⟩

theorem Asks.and {p : Prog α} {Q R : List Src → α → Prop} (h : Asks V p Q) (h' : Asks V p R) :
    Asks V p fun l a => Q l a ∧ R l a := by
  induction p generalizing Q R with
  | ret a => exact ⟨h, h'⟩
  | op c k ih => exact fun r hr => ih r (h r hr) (h' r hr)

/-- any program, if nothing is said of what it asks for -/
theorem asks_any (p : Prog α) : Asks V p fun _ _ => True := by
  induction p with
  | ret a => trivial
  | op c k ih => exact fun r _ => ih r

theorem initMetricIn_path (json : Bool) (mv : MetricView) (s : Session) :
    Asks V (initMetricIn json mv s) fun _ r => ∀ x, r.2 = .ok x → x.path = mv.path := by
  have enc : ∀ o : Out Metric, (∀ y, o = .ok y → y.path = mv.path) → ∀ x, encodeOut json o = .ok x → x.path = mv.path := by
    intro o ho x hx
    cases o with
    | panic => cases hx
    | ok y => exact (encode_keeps hx).1.trans (ho y rfl)
  unfold initMetricIn
  split
  · refine Asks.bind ?_
    unfold distMetric
    split
    · exact enc .panic fun _ h => nomatch h
    · intro r _
      rcases r with _ | r
      · exact enc .panic fun _ h => nomatch h
      · exact enc (.ok _) fun _ h => by cases h; rfl
  · split
    · refine Asks.bind ?_
      unfold listMetric
      split
      · exact enc .panic fun _ h => nomatch h
      · intro r _
        rcases r with _ | r
        · exact enc .panic fun _ h => nomatch h
        · exact enc (.ok _) fun _ h => by cases h; rfl
    · refine Asks.bind ?_
      unfold scalarMetric
      refine Asks.bind ((asks_any _).mono fun l r _ => ?_)
      obtain ⟨s', o⟩ := r
      cases o with
      | panic => exact enc .panic fun _ h => nomatch h
      | ok x =>
        dsimp only
        split
        · exact enc .panic fun _ h => nomatch h
        · intro r _
          rcases r with _ | g
          · exact enc .panic fun _ h => nomatch h
          · exact Asks.bind ((asks_any _).mono fun l st _ => enc (.ok _) fun _ h => by cases h; rfl)

/-! ### traversals -/

/-- a collector that asks for the value once; what it does with its state if it succeeds, and if not -/
def CollOnce (Good : MetricView → A → A → Prop) (Bad : A → A → Prop) (coll : Coll A) : Prop :=
  ∀ V m s a, Asks V (coll m s a) fun l r => (l = [] ∨ ∃ mv, V m = some mv ∧ l = once mv) ∧
    (r.2.2 = .ok → ∃ mv, V m = some mv ∧ l = once mv ∧ Good mv a r.2.1) ∧ (r.2.2 ≠ .ok → Bad a r.2.1)

theorem msgColl_once (json : Bool) :
    CollOnce (fun mv a a' => ∃ x : Metric, a' = a ++ [x] ∧ x.path = mv.path) (fun a a' => a' = a) (msgColl json) := by
  intro V m s a r hf
  rcases r with _ | mv
  · exact ⟨.inl rfl, (fun h => nomatch h), fun _ => rfl⟩
  · have hm := hf mv rfl
    refine Asks.bind (((initMetricIn_asks json mv s).and (initMetricIn_path json mv s)).mono fun l r h => ?_)
    obtain ⟨rfl, h⟩ := h
    obtain ⟨s', o⟩ := r
    cases o with
    | panic => exact ⟨.inr ⟨mv, hm, by simp [readsSource]⟩, (fun h => nomatch h), fun _ => rfl⟩
    | ok x =>
      exact ⟨.inr ⟨mv, hm, by simp [readsSource]⟩, fun _ => ⟨mv, hm, by simp [readsSource], x, rfl, h x rfl⟩, fun h => absurd rfl h⟩

theorem textColl_once (fm : Fmts) {W : Type} (wr : Writer W) : CollOnce (fun _ _ _ => True) (fun _ _ => True) (textColl fm wr) := by
  intro V m s a r hf
  rcases r with _ | mv
  · exact ⟨.inl rfl, (fun h => nomatch h), fun _ => trivial⟩
  · have hm := hf mv rfl
    dsimp only
    split
    · exact ⟨.inl rfl, (fun h => nomatch h), fun _ => trivial⟩
    · refine Asks.bind ((textEmitMetric_asks fm wr mv _ _).mono fun l r h => ?_)
      subst h
      exact ⟨.inr ⟨mv, hm, by simp [readsSource]⟩, fun _ => ⟨mv, hm, by simp [readsSource], trivial⟩, fun _ => trivial⟩

/-- one visit -/
inductive AskStep (Good : MetricView → A → A → Prop) (Bad : A → A → Prop) (mv : MetricView) (a a' : A) : Option Bool → List Src → Prop where
  | shown : Good mv a a' → AskStep Good Bad mv a a' (some true) (shown mv)
  | leftOut : mv.value.valType.isFloat = true → a' = a → AskStep Good Bad mv a a' (some false) (once mv)
  | failed {l} : l <+: Spec.shown mv → Bad a a' → AskStep Good Bad mv a a' none l

theorem collect_asks {Good : MetricView → A → A → Prop} {Bad : A → A → Prop} {coll : Coll A} (hc : CollOnce Good Bad coll)
    (hb : ∀ a, Bad a a) (m : ℕ) (s : Session) (a : A) {mv : MetricView} (hm : V m = some mv) :
    Asks V (collect coll m s a) fun l r => ∃ k, AskStep Good Bad mv a r.2.1 k l ∧ (r.2.2 = .ok → k ≠ none) ∧ (k ≠ none → r.2.2 = .ok) := by
  have fail {l a'} {st : Status} (hst : st ≠ .ok) (h1 : l <+: shown mv) (h2 : Bad a a') :
      ∃ k, AskStep Good Bad mv a a' k l ∧ (st = .ok → k ≠ none) ∧ (k ≠ none → st = .ok) :=
    ⟨none, .failed h1 h2, fun h => absurd h hst, fun h => absurd rfl h⟩
  have rest {pre : List Src} {s' : Session} (h : shown mv = pre ++ once mv) : Asks V (coll m s' a) fun l r =>
      ∃ k, AskStep Good Bad mv a r.2.1 k (pre ++ l) ∧ (r.2.2 = .ok → k ≠ none) ∧ (k ≠ none → r.2.2 = .ok) := by
    refine (hc V m _ a).mono fun l r h' => ?_
    obtain ⟨h1, h2, h3⟩ := h'
    by_cases hok : r.2.2 = .ok
    · obtain ⟨mv2, h4, rfl, h5⟩ := h2 hok
      rw [hm] at h4
      cases h4
      rw [← h]
      exact ⟨some true, .shown h5, fun _ => by simp, fun _ => hok⟩
    · refine fail hok ?_ (h3 hok)
      rw [h]
      rcases h1 with rfl | ⟨mv2, h4, rfl⟩
      · simp
      · rw [hm] at h4
        cases h4
        exact List.prefix_refl _
  intro r hf
  rcases r with _ | mv'
  · exact fail (by simp) List.nil_prefix (hb a)
  · have e : mv' = mv := by
      have := hf mv' rfl
      rw [hm] at this
      exact (Option.some.inj this).symm
    subst e
    refine Asks.bind ((isInfNaN_asks _ _).mono fun l r h => ?_)
    obtain ⟨s', o⟩ := r
    by_cases hfl : mv'.value.valType.isFloat = true
    · rw [if_pos hfl, ← once_float hfl] at h
      subst h
      have hs : shown mv' = once mv' ++ once mv' := by unfold shown; rw [if_pos hfl]
      cases o with
      | panic => exact fail (by simp) (by rw [hs]; simp [readsSource]) (hb a)
      | ok b =>
        cases b with
        | true => exact ⟨some false, by simpa [readsSource] using AskStep.leftOut (a' := a) hfl rfl, fun _ => by simp, fun _ => rfl⟩
        | false => exact (rest hs).mono fun l r h => by simpa [readsSource] using h
    · rw [if_neg hfl] at h
      obtain ⟨rfl, ho⟩ := h
      dsimp only at ho
      subst ho
      have hs : shown mv' = [] ++ once mv' := by unfold shown; rw [if_neg hfl]; rfl
      exact (rest hs).mono fun l r h => by simpa [readsSource] using h

/-- the visits one after the other; only the last one can fail -/
inductive AskWalk (V : ℕ → Option MetricView) (Good : MetricView → A → A → Prop) (Bad : A → A → Prop) :
    List ℕ → List (Option Bool × List Src) → A → A → Prop where
  | nil {a} : AskWalk V Good Bad [] [] a a
  | cons {m ms mv k l R a a' a''} : V m = some mv → AskStep Good Bad mv a a' k l → (k = none → R = []) →
      AskWalk V Good Bad ms R a' a'' → AskWalk V Good Bad (m :: ms) ((k, l) :: R) a a''

theorem calls_walk {Good : MetricView → A → A → Prop} {Bad : A → A → Prop} {coll : Coll A} (hc : CollOnce Good Bad coll)
    (hb : ∀ a, Bad a a) {H ms s a s' a' st} (hcalls : Calls w coll H ms s a s' a' st)
    (hV : ∀ e ∈ H, ∀ m mv, metricView e.pre.tree m = some mv → V m = some mv) (hms : ∀ m ∈ ms, ∃ mv, V m = some mv) :
    ∃ R, AskWalk V Good Bad ms R a a' ∧ consults H = R.flatMap Prod.snd ∧ (st = .ok → ∀ x ∈ R, x.1 ≠ none) := by
  induction hcalls with
  | done he => exact ⟨[], .nil, between_consults he, by simp⟩
  | timeout he => exact ⟨[], .nil, between_consults he, by simp⟩
  | @more b h H m ms s a s' a' s'' a'' st σ σ' hbt hr _ ih =>
    obtain ⟨R, h1, h2, h3⟩ := ih (fun e he => hV e (by simp [he])) fun m hm => hms m (by simp [hm])
    obtain ⟨mv, hm⟩ := hms m (by simp)
    obtain ⟨k, h4, h5, -⟩ := asks_run hr (fun e he => hV e (by simp [he])) (collect_asks hc hb m s a hm)
    have hk := h5 rfl
    refine ⟨(k, consults h) :: R, .cons hm h4 (fun e => absurd e hk) h1, ?_, fun hst x hx => ?_⟩
    · rw [consults_append, consults_append, between_consults hbt, h2]; rfl
    · rcases List.mem_cons.mp hx with rfl | hx
      · exact hk
      · exact h3 hst x hx
  | @stop b h e m s a s' a' st σ σ' hbt hr he hn =>
    obtain ⟨mv, hm⟩ := hms m (by simp)
    obtain ⟨k, h4, h5, h6⟩ := asks_run hr (fun e he => hV e (by simp [he])) (collect_asks hc hb m s a hm)
    refine ⟨[(k, consults h)], .cons hm h4 (fun _ => rfl) .nil, ?_, fun hst => absurd hst hn⟩
    rw [consults_append, consults_append, between_consults hbt, between_consults he]
    simp

/-! ### the HTML page -/

/-- what the page asks for at an entry -/
def entryAsk (V : ℕ → Option MetricView) (en : Entry) : List Src :=
  match en.dir, en.metric with
  | none, some m => ((V m).map once).getD []
  | _, _ => []

theorem htmlEntry_asks (fm : Fmts) {W : Type} (wr : Writer W) (en : Entry) (s : Session) (x : W) :
    Asks V (htmlEntry fm wr en s x) fun l r => l <+: entryAsk V en ∧ (r.2.2 = .ok → l = entryAsk V en) := by
  obtain ⟨n, m, d, p⟩ := en
  rcases d with _ | d
  · rcases m with _ | m
    · exact ⟨List.nil_prefix, fun h => nomatch h⟩
    · intro r hf
      rcases r with _ | mv
      · exact ⟨List.nil_prefix, fun h => nomatch h⟩
      · have e : entryAsk V ⟨n, some m, none, p⟩ = once mv := by
          change ((V m).map once).getD [] = once mv
          rw [hf mv rfl]
          rfl
        rw [e]
        exact htmlMetric_asks fm wr mv s x
  · intro r _
    rcases r with _ | p <;> exact ⟨List.nil_prefix, fun _ => rfl⟩

theorem htmlEntries_asks (fm : Fmts) {W : Type} (wr : Writer W) (es : List (ℕ × Entry)) (s : Session) (x : W) :
    Asks V (htmlEntries fm wr es s x) fun l r => l <+: es.flatMap (fun e => entryAsk V e.2) ∧
      (r.2.2 = .ok → l = es.flatMap fun e => entryAsk V e.2) := by
  induction es generalizing s x with
  | nil => exact ⟨List.nil_prefix, fun _ => rfl⟩
  | cons e es ih =>
    obtain ⟨i, en⟩ := e
    refine Asks.bind ((htmlEntry_asks fm wr en s x).mono fun l r h => ?_)
    obtain ⟨s', x', st⟩ := r
    obtain ⟨h1, h2⟩ := h
    rw [List.flatMap_cons]
    have stop : l ++ [] <+: entryAsk V en ++ es.flatMap fun e => entryAsk V e.2 := by
      rw [List.append_nil]
      exact h1.trans (List.prefix_append _ _)
    cases st with
    | ok =>
      have := h2 rfl
      subst this
      exact (ih s' x').mono fun l r h => ⟨(List.prefix_append_right_inj _).mpr h.1, fun hok => by rw [h.2 hok]⟩
    | err e => exact ⟨stop, fun h => nomatch h⟩
    | panic => exact ⟨stop, fun h => nomatch h⟩
    | timeout => exact ⟨stop, fun h => nomatch h⟩

/-- the end of the page asks for nothing -/
theorem htmlEnd_asks {W : Type} (wr : Writer W) {B : List Src} {p : Prog (Session × W × Status)}
    (hp : Asks V p fun l r => l <+: B ∧ (r.2.2 = .ok → l = B)) :
    Asks V (p.bind (htmlEnd wr)) fun l r => l <+: B ∧ (r.2.2 = .ok → l = B) := by
  refine Asks.bind (hp.mono fun l r h => ?_)
  obtain ⟨s, x, st⟩ := r
  cases st with
  | ok => exact ⟨by simpa using h.1, fun _ => by simpa using h.2 rfl⟩
  | err e => exact ⟨by simpa using h.1, fun h => nomatch h⟩
  | panic => exact ⟨by simpa using h.1, fun h => nomatch h⟩
  | timeout => exact ⟨by simpa using h.1, fun h => nomatch h⟩

theorem RunI_bind_intro {p : Prog α} {f : α → Prog β} {s s1 s2 : State} {h1 h2 : List Ev} {a : α} {b : β}
    (r1 : RunI w p s h1 s1 a) (r2 : RunI w (f a) s1 h2 s2 b) : RunI w (p.bind f) s (h1 ++ h2) s2 b := by
  induction r1 with
  | ret => exact r2
  | env c hc _ ih => exact .env c hc (ih r2)
  | op _ ih => exact .op (ih r2)

end Tricorder
