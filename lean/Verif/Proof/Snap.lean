import Verif.Proof.Careful
import Verif.Proof.ListRun
/-!
# What a request has read, and under which locks
-/

namespace Tricorder
open Go Spec Tree

variable {A α β : Type}

/-- what a request has seen so far: metrics, the groups it holds, the groups it ever took (newest first), the sources
it read with the groups held then, and the ids of groups -/
structure Gh where
  views : List (ℕ × MetricView)
  sess : Session
  locks : List ℕ
  reads : List (Src × Option Dyn × Session)
  ids : List (ℕ × ℕ)

def Gh.read (g : Gh) (sc : Src) (d : Option Dyn) : Gh := { g with reads := (sc, d, g.sess) :: g.reads }

def Gh.lock (g : Gh) (r : ℕ) (t : Time) : Gh := { g with sess := (r, t) :: g.sess, locks := r :: g.locks }

def Gh.view (g : Gh) (m : ℕ) (x : Option MetricView) : Gh := { g with views := x.toList.map (m, ·) ++ g.views }

def Gh.ident (g : Gh) (r : ℕ) (x : Option ℕ) : Gh := { g with ids := x.toList.map (r, ·) ++ g.ids }

def Gh.none : Gh := ⟨[], [], [], [], []⟩

/-- `p` only reads, takes only groups it does not hold, releases the one it took last, and ends with `Q` -/
def WP (Q : α → Gh → Prop) : Prog α → Gh → Prop
  | .ret a, g => Q a g
  | .op (.rlock r) k, g => g.sess.lookup r = none ∧ ∀ t, WP Q (k t) (g.lock r t)
  | .op (.runlock r) k, g => ∃ t s', g.sess = (r, t) :: s' ∧ WP Q (k ()) { g with sess := s' }
  | .op (.getEntry d n) k, g => ∀ x, WP Q (k x) g
  | .op (.list d) k, g => ∀ x, WP Q (k x) g
  | .op (.metric m) k, g => ∀ x : Option MetricView, WP Q (k x) (g.view m x)
  | .op (.dirAbsPath d) k, g => ∀ x, WP Q (k x) g
  | .op (.snapshot i) k, g => ∀ x, WP Q (k x) g
  | .op (.getList i) k, g => ∀ x, WP Q (k x) g
  | .op (.readVar v) k, g => ∀ x, WP Q (k x) (g.read (.var v) x)
  | .op (.callFn f) k, g => ∀ x, WP Q (k x) (g.read (.fn f) x)
  | .op (.callFlagGet f) k, g => ∀ x, WP Q (k x) (g.read (.flagGet f) x)
  | .op (.callFlagString f) k, g => ∀ x : Option Str,
      WP Q (k x) (g.read (.flagString f) (x.map fun s => .scalar none (.string s)))
  | .op (.regionId r) k, g => ∀ x : Option ℕ, WP Q (k x) (g.ident r x)
  | _, _ => False

theorem WP_bind {Q : α → Gh → Prop} {R : β → Gh → Prop} {p : Prog α} {q : α → Prog β} {g : Gh}
    (hp : WP Q p g) (hq : ∀ a g', Q a g' → WP R (q a) g') : WP R (p.bind q) g := by
  induction p generalizing g with
  | ret a => exact hq a g hp
  | op c k ih =>
    cases c with
    | rlock r => exact ⟨hp.1, fun t => ih t (hp.2 t)⟩
    | runlock r =>
      obtain ⟨t, s', h1, h2⟩ := hp
      exact ⟨t, s', h1, ih () h2⟩
    | getEntry d n => exact fun x => ih x (hp x)
    | list d => exact fun x => ih x (hp x)
    | metric d => exact fun x => ih x (hp x)
    | dirAbsPath d => exact fun x => ih x (hp x)
    | snapshot d => exact fun x => ih x (hp x)
    | getList d => exact fun x => ih x (hp x)
    | readVar d => exact fun x => ih x (hp x)
    | callFn d => exact fun x => ih x (hp x)
    | callFlagGet d => exact fun x => ih x (hp x)
    | callFlagString d => exact fun x => ih x (hp x)
    | regionId d => exact fun x => ih x (hp x)
    | removeEntry => exact hp.elim
    | unregisterDir => exact hp.elim
    | createDir => exact hp.elim
    | storeMetric => exact hp.elim
    | setUnit => exact hp.elim
    | distCall => exact hp.elim
    | newDist => exact hp.elim
    | newList => exact hp.elim
    | changeList => exact hp.elim
    | newVar => exact hp.elim
    | writeVar => exact hp.elim
    | newSlice => exact hp.elim
    | writeSlice => exact hp.elim
    | newRegion => exact hp.elim
    | tick => exact hp.elim

theorem WP_mono {Q R : α → Gh → Prop} {p : Prog α} {g : Gh} (hp : WP Q p g) (h : ∀ a g', Q a g' → R a g') :
    WP R p g := by
  have : p.bind .ret = p := by
    clear hp
    induction p with
    | ret a => rfl
    | op c k ih => show Prog.op c _ = _; congr 1; funext x; exact ih x
  rw [← this]
  exact WP_bind hp h

/-- every group was taken once and is still held; the groups held at a read are still held -/
structure Fine (g : Gh) : Prop where
  locks : g.locks = g.sess.map Prod.fst
  nodup : g.locks.Nodup
  reads : ∀ x ∈ g.reads, SessExt x.2.2 g.sess

/-- `g'` is later than `g` -/
structure Adv (g g' : Gh) : Prop where
  views : g.views ⊆ g'.views
  reads : g.reads ⊆ g'.reads
  ids : g.ids ⊆ g'.ids

theorem Adv.refl (g : Gh) : Adv g g := ⟨fun _ h => h, fun _ h => h, fun _ h => h⟩
theorem Adv.trans {g g' g'' : Gh} (h : Adv g g') (h' : Adv g' g'') : Adv g g'' :=
  ⟨fun _ x => h'.views (h.views x), fun _ x => h'.reads (h.reads x), fun _ x => h'.ids (h.ids x)⟩

theorem Adv.read (g : Gh) (sc d) : Adv g (g.read sc d) := ⟨fun _ h => h, fun _ h => List.mem_cons_of_mem _ h, fun _ h => h⟩
theorem Adv.lock (g : Gh) (r t) : Adv g (g.lock r t) := ⟨fun _ h => h, fun _ h => h, fun _ h => h⟩
theorem Adv.ident (g : Gh) (r x) : Adv g (g.ident r x) := ⟨fun _ h => h, fun _ h => h, fun _ h => List.mem_append_right _ h⟩

theorem Fine.read {g : Gh} (h : Fine g) (sc d) : Fine (g.read sc d) := by
  refine ⟨h.locks, h.nodup, fun x hx => ?_⟩
  rcases List.mem_cons.mp hx with rfl | hx
  · exact SessExt.refl _
  · exact h.reads x hx

theorem sessExt_cons {s : Session} {r : ℕ} (t : Time) (h : s.lookup r = none) : SessExt s ((r, t) :: s) := by
  intro r' t' h'
  by_cases hr : r' = r
  · subst hr; rw [h] at h'; cases h'
  · simp only [List.lookup_cons, beq_false_of_ne hr]
    exact h'

theorem Fine.lock {g : Gh} (h : Fine g) {r t} (hr : g.sess.lookup r = none) : Fine (g.lock r t) := by
  refine ⟨by simp [Gh.lock, h.locks], ?_, fun x hx => (h.reads x hx).trans (sessExt_cons t hr)⟩
  refine List.nodup_cons.mpr ⟨?_, h.nodup⟩
  rw [h.locks]
  intro hm
  obtain ⟨p, hp, rfl⟩ := List.mem_map.mp hm
  have := List.lookup_eq_none_iff.mp hr p hp
  simp at this

theorem Fine.view {g : Gh} (h : Fine g) (m x) : Fine (g.view m x) := ⟨h.locks, h.nodup, h.reads⟩
theorem Fine.ident {g : Gh} (h : Fine g) (r x) : Fine (g.ident r x) := ⟨h.locks, h.nodup, h.reads⟩

/-- reads and takes nothing -/
def Calm (p : Prog α) : Prop := ∀ g, WP (fun _ g' => g' = g) p g

theorem calm_ret (a : α) : Calm (.ret a) := fun _ => rfl

theorem calm_bind {p : Prog α} {q : α → Prog β} (hp : Calm p) (hq : ∀ a, Calm (q a)) : Calm (p.bind q) :=
  fun g => WP_bind (hp g) fun a g' h => by subst h; exact hq a g'

theorem wp_calm {R : β → Gh → Prop} {p : Prog α} {q : α → Prog β} {g : Gh} (hp : Calm p)
    (hq : ∀ a, WP R (q a) g) : WP R (p.bind q) g :=
  WP_bind (hp g) fun a g' h => by subst h; exact hq a

theorem visit_wp {g : Gh} (hg : Fine g) (r : ℕ) :
    WP (fun x g' => Fine g' ∧ Adv g g' ∧ g'.sess = x.1 ∧ x.1.lookup r = some x.2) (visit g.sess r) g := by
  unfold visit
  cases h : g.sess.lookup r with
  | some t => exact ⟨hg, Adv.refl _, rfl, h⟩
  | none => exact ⟨h, fun t => ⟨hg.lock h, Adv.lock _ _ _, rfl, List.lookup_cons_self⟩⟩

theorem close_wp {g : Gh} {s : Session} (hs : g.sess = s) :
    WP (fun _ g' => g' = { g with sess := [] }) (close s) g := by
  induction s generalizing g with
  | nil => show g = _; cases g; simp_all
  | cons x s ih =>
    obtain ⟨r, t⟩ := x
    exact ⟨t, s, hs, ih (g := { g with sess := s }) rfl⟩

/-- the handle is the variable, or the value that was read from the source -/
def Got (o : Option Src) (g : Gh) (h : Out Handle) : Prop :=
  ∀ hd, h = .ok hd → (∃ v, hd = .var v ∧ o = some (.var v)) ∨
    ∃ d sc, o = some sc ∧ hd = .val d ∧ (sc, some d, g.sess) ∈ g.reads

theorem evalSrc_wp {g : Gh} (hg : Fine g) (o : Option Src) :
    WP (fun h g' => Fine g' ∧ Adv g g' ∧ g'.sess = g.sess ∧ Got o g' h) (evalSrc o) g := by
  unfold evalSrc
  split
  · exact ⟨hg, Adv.refl _, rfl, fun _ h => nomatch h⟩
  · exact ⟨hg, Adv.refl _, rfl, fun _ h => by cases h; exact .inl ⟨_, rfl, rfl⟩⟩
  · refine fun x => ⟨hg.read _ _, Adv.read _ _ _, rfl, fun hd h => ?_⟩
    cases x with
    | none => exact nomatch h
    | some d => cases h; exact .inr ⟨_, _, rfl, rfl, List.mem_cons_self ..⟩
  · refine fun x => ⟨hg.read _ _, Adv.read _ _ _, rfl, fun hd h => ?_⟩
    cases x with
    | none => exact nomatch h
    | some d => cases h; exact .inr ⟨_, _, rfl, rfl, List.mem_cons_self ..⟩
  · refine fun x => ⟨hg.read _ _, Adv.read _ _ _, rfl, fun hd h => ?_⟩
    cases x with
    | none => exact nomatch h
    | some d => cases h; exact .inr ⟨_, _, rfl, rfl, List.mem_cons_self ..⟩

theorem evalIn_wp {g : Gh} (hg : Fine g) (v : MValue) :
    WP (fun x g' => Fine g' ∧ Adv g g' ∧ g'.sess = x.1 ∧ Got v.src g' x.2 ∧
      ∀ r, v.region = some r → ∃ t, x.1.lookup r = some t) (evalIn v g.sess) g := by
  unfold evalIn
  split
  · rename_i hr
    refine WP_bind (evalSrc_wp hg _) ?_
    rintro o g' ⟨h1, h2, h3, h4⟩
    exact ⟨h1, h2, h3, h4, fun r h => by rw [hr] at h; cases h⟩
  · rename_i r hr
    refine WP_bind (visit_wp hg r) ?_
    rintro ⟨s1, t⟩ g1 ⟨h1, h2, h3, h4⟩
    refine WP_bind (evalSrc_wp h1 _) ?_
    rintro o g' ⟨k1, k2, k3, k4⟩
    refine ⟨k1, h2.trans k2, k3.trans h3, k4, fun r' h => ?_⟩
    rw [hr] at h; cases h
    exact ⟨t, h4⟩

/-- the value `a` comes from the source of `v`, read while the group of `v` was held -/
def Took {α : Type} (v : MValue) (g : Gh) (conv : Dyn → Option α) (a : α) : Prop :=
  ∃ sc d ss, v.src = some sc ∧ (sc, some d, ss) ∈ g.reads ∧ conv d = some a ∧
    ∀ r, v.region = some r → ∃ t, ss.lookup r = some t

theorem Took.mono {v : MValue} {g g' : Gh} (h : Adv g g') {conv : Dyn → Option α} {a : α} (ht : Took v g conv a) :
    Took v g' conv a := by
  obtain ⟨sc, d, ss, h1, h2, h3⟩ := ht
  exact ⟨sc, d, ss, h1, h.reads h2, h3⟩

theorem readAs_wp {g : Gh} (hg : Fine g) (v : MValue) (conv : Dyn → Option α) :
    WP (fun x g' => Fine g' ∧ Adv g g' ∧ x.1 = some g'.sess ∧ ∀ a, x.2 = .ok a → Took v g' conv a)
      (readAs v (some g.sess) conv) g := by
  unfold readAs
  refine WP_bind (Q := fun x g' => Fine g' ∧ Adv g g' ∧ x.1 = some g'.sess ∧ Got v.src g' x.2 ∧
      ∀ r, v.region = some r → ∃ t, g'.sess.lookup r = some t) ?_ ?_
  · refine WP_bind (evalIn_wp hg v) ?_
    rintro ⟨s1, o⟩ g' ⟨h1, h2, h3, h4, h5⟩
    refine ⟨h1, h2, by rw [h3], h4, ?_⟩
    rw [h3]; exact h5
  · rintro ⟨s1, o⟩ g1 ⟨h1, h2, h3, h4, h5⟩
    cases o with
    | panic => exact ⟨h1, h2, h3, fun a h => nomatch h⟩
    | ok hd =>
      refine WP_bind (Q := fun d g' => Fine g' ∧ Adv g g' ∧ s1 = some g'.sess ∧ ∀ d', d = some d' →
        ∃ sc ss, v.src = some sc ∧ (sc, some d', ss) ∈ g'.reads ∧ ∀ r, v.region = some r → ∃ t, ss.lookup r = some t) ?_ ?_
      · rcases h4 hd rfl with ⟨v, rfl, hv⟩ | ⟨d, sc, hv, rfl, hr⟩
        · intro x
          refine ⟨h1.read _ _, h2.trans (Adv.read _ _ _), h3, fun d' hd => ⟨_, _, hv, ?_, h5⟩⟩
          rw [← hd]; exact List.mem_cons_self ..
        · exact ⟨h1, h2, h3, fun d' hd => by cases hd; exact ⟨_, _, hv, hr, h5⟩⟩
      · rintro d g' ⟨k1, k2, k3, k4⟩
        cases h : d.bind conv with
        | none => simp only [h]; exact ⟨k1, k2, k3, fun a h => nomatch h⟩
        | some a =>
          simp only [h]
          refine ⟨k1, k2, k3, fun a' ha => ?_⟩
          cases ha
          cases d with
          | none => cases h
          | some d =>
            obtain ⟨sc, ss, e1, e2, e3⟩ := k4 d rfl
            exact ⟨sc, d, ss, e1, e2, h, e3⟩

/-- a number that is not NaN or infinite came from the source of `v`, read while the group of `v` was held -/
def Tested (g : Gh) (v : MValue) : Prop :=
  v.valType.isFloat = true → Took v g (fun d => d.float.map fun x => x.isNaN || x.isInf) false

theorem Tested.mono {g g' : Gh} (h : Adv g g') {v : MValue} (ht : Tested g v) : Tested g' v := fun hf => (ht hf).mono h

theorem isInfNaN_wp {g : Gh} (hg : Fine g) (v : MValue) :
    WP (fun x g' => Fine g' ∧ Adv g g' ∧ x.1 = some g'.sess ∧ (x.2 = .ok false → Tested g' v)) (isInfNaN v (some g.sess)) g := by
  unfold isInfNaN
  split
  · exact WP_mono (readAs_wp hg _ _) fun _ _ h => ⟨h.1, h.2.1, h.2.2.1, fun e _ => h.2.2.2 _ e⟩
  · rename_i hf
    exact ⟨hg, Adv.refl _, rfl, fun _ h => absurd h hf⟩

theorem asInterface_wp {g : Gh} (hg : Fine g) (v : MValue) :
    WP (fun x g' => Fine g' ∧ Adv g g' ∧ x.1 = some g'.sess ∧ ∀ a, x.2 = .ok a →
      Took v g' (fun d => valueToInterface d v.valType v.isPtr) a) (asInterface v (some g.sess)) g := by
  unfold asInterface
  split
  · exact ⟨hg, Adv.refl _, rfl, fun a h => nomatch h⟩
  · exact readAs_wp hg _ _

/-- a scalar is reported with a value that was read while its group was held, and with the time for which it was held -/
def TellsG (g : Gh) (mv : MetricView) (y : Metric) : Prop :=
  mv.value.valType ≠ .dist → mv.value.valType ≠ .list → ∃ sc d ss r t, mv.value.src = some sc ∧ (sc, some d, ss) ∈ g.reads ∧
    valueToInterface d mv.value.valType mv.value.isPtr = some y.value ∧ mv.value.region = some r ∧
    ss.lookup r = some t ∧ y.timeStamp = .time t ∧ (r, y.groupId) ∈ g.ids

theorem TellsG.mono {g g' : Gh} (h : Adv g g') {mv y} (ht : TellsG g mv y) : TellsG g' mv y := by
  intro h1 h2
  obtain ⟨sc, d, ss, r, t, a, b, c1, c2, c3, c4, c5⟩ := ht h1 h2
  exact ⟨sc, d, ss, r, t, a, h.reads b, c1, c2, c3, c4, h.ids c5⟩

theorem scalarMetric_wp {g : Gh} (hg : Fine g) (mv : MetricView) :
    WP (fun x g' => Fine g' ∧ Adv g g' ∧ x.1 = g'.sess ∧ ∀ y, x.2 = .ok y → Describes y mv ∧ TellsG g' mv y)
      (scalarMetric mv g.sess) g := by
  unfold scalarMetric
  refine WP_bind (asInterface_wp hg _) ?_
  rintro ⟨s1, o⟩ g1 ⟨h1, h2, h3, h4⟩
  simp only at h3
  subst h3
  cases o with
  | panic => exact ⟨h1, h2, rfl, fun y h => nomatch h⟩
  | ok val =>
    cases hr : mv.value.region with
    | none => simp only [hr]; exact ⟨h1, h2, rfl, fun y h => nomatch h⟩
    | some r =>
      simp only [hr]
      intro gid
      cases gid with
      | none => exact ⟨h1.ident _ _, h2.trans (.ident _ _ _), rfl, fun y h => nomatch h⟩
      | some gid =>
        refine WP_bind (visit_wp (h1.ident r (some gid)) r) ?_
        rintro ⟨s2, t⟩ g2 ⟨k1, k2, k3, k4⟩
        refine ⟨k1, (h2.trans (.ident _ _ _)).trans k2, k3.symm, fun y hy => ?_⟩
        cases hy
        refine ⟨blank_describes mv _ _ _ _ (fun _ => rfl), fun _ _ => ?_⟩
        obtain ⟨sc, d, ss, e1, e2, e3, e4⟩ := (h4 val rfl).mono ((Adv.ident _ _ _).trans k2)
        obtain ⟨t', ht'⟩ := e4 r hr
        have := k1.reads _ e2 r t' ht'
        simp only at k3 k4
        rw [k3, k4] at this
        cases this
        exact ⟨sc, d, ss, r, t, e1, e2, e3, hr, ht', rfl, k2.ids (List.mem_cons_self ..)⟩

theorem distMetric_calm (mv : MetricView) :
    ∀ g, WP (fun x g' => g' = g ∧ ∀ y, x = .ok y → Describes y mv) (distMetric mv) g := by
  intro g
  unfold distMetric
  split
  · exact ⟨rfl, fun _ h => nomatch h⟩
  · intro r
    cases r with
    | none => exact ⟨rfl, fun _ h => nomatch h⟩
    | some x => exact ⟨rfl, fun y h => by cases h; exact blank_describes mv _ _ _ _ (fun _ => rfl)⟩

theorem listMetric_calm (mv : MetricView) (hv : mv.value.valType = .list) :
    ∀ g, WP (fun x g' => g' = g ∧ ∀ y, x = .ok y → Describes y mv) (listMetric mv) g := by
  intro g
  unfold listMetric
  split
  · exact ⟨rfl, fun _ h => nomatch h⟩
  · intro r
    cases r with
    | none => exact ⟨rfl, fun _ h => nomatch h⟩
    | some x => exact ⟨rfl, fun y h => by cases h; exact blank_describes mv _ _ _ _ (fun h => absurd hv h)⟩

/-- what is known about a reported metric -/
def Known (json : Bool) (g : Gh) (m : ℕ) (v : MetricView × Metric) (x : Metric) : Prop :=
  encodeMetric json v.2 = .ok x ∧ Describes v.2 v.1 ∧ (m, v.1) ∈ g.views ∧ TellsG g v.1 v.2

theorem Known.mono {json : Bool} {g g' : Gh} (h : Adv g g') {m v x} (hk : Known json g m v x) : Known json g' m v x :=
  ⟨hk.1, hk.2.1, h.views hk.2.2.1, hk.2.2.2.mono h⟩

/-- metric `m` was tested -/
def TestedM (g : Gh) (m : ℕ) : Prop := ∃ mv, (m, mv) ∈ g.views ∧ Tested g mv.value

theorem TestedM.mono {g g' : Gh} (h : Adv g g') {m : ℕ} (ht : TestedM g m) : TestedM g' m := by
  obtain ⟨mv, h1, h2⟩ := ht
  exact ⟨mv, h.views h1, h2.mono h⟩

theorem initMetricIn_wp {g : Gh} (hg : Fine g) (json : Bool) {m : ℕ} {mv : MetricView} (hm : (m, mv) ∈ g.views) :
    WP (fun x g' => Fine g' ∧ Adv g g' ∧ x.1 = g'.sess ∧ ∀ z, x.2 = .ok z → ∃ y, Known json g' m (mv, y) z)
      (initMetricIn json mv g.sess) g := by
  have enc : ∀ {o z}, encodeOut json o = .ok z → ∃ y, o = .ok y ∧ encodeMetric json y = .ok z := by
    intro o z h
    cases o with
    | panic => cases h
    | ok y => exact ⟨y, rfl, h⟩
  unfold initMetricIn
  split
  · rename_i hv
    refine WP_bind (distMetric_calm mv g) ?_
    rintro o g' ⟨rfl, h⟩
    refine ⟨hg, Adv.refl _, rfl, fun z hz => ?_⟩
    obtain ⟨y, rfl, hy⟩ := enc hz
    exact ⟨y, hy, h y rfl, hm, fun h => absurd hv h⟩
  · split
    · rename_i hv
      refine WP_bind (listMetric_calm mv hv g) ?_
      rintro o g' ⟨rfl, h⟩
      refine ⟨hg, Adv.refl _, rfl, fun z hz => ?_⟩
      obtain ⟨y, rfl, hy⟩ := enc hz
      exact ⟨y, hy, h y rfl, hm, fun _ h => absurd hv h⟩
    · refine WP_bind (scalarMetric_wp hg mv) ?_
      rintro ⟨s', o⟩ g' ⟨h1, h2, h3, h4⟩
      refine ⟨h1, h2, h3, fun z hz => ?_⟩
      obtain ⟨y, rfl, hy⟩ := enc hz
      obtain ⟨k1, k2⟩ := h4 y rfl
      exact ⟨y, hy, k1, h2.views hm, k2⟩

/-- a collector whose state satisfies `I` -/
def CollWP (I : Gh → A → Prop) (coll : Coll A) : Prop :=
  ∀ m a g, Fine g → I g a → WP (fun x g' => Fine g' ∧ Adv g g' ∧ x.1 = g'.sess ∧ I g' x.2.1) (coll m g.sess a) g

/-- the same, for metrics that were tested -/
def CollT (I : Gh → A → Prop) (coll : Coll A) : Prop :=
  ∀ m a g, Fine g → I g a → TestedM g m →
    WP (fun x g' => Fine g' ∧ Adv g g' ∧ x.1 = g'.sess ∧ I g' x.2.1) (coll m g.sess a) g

variable {I : Gh → A → Prop} (hI : ∀ g g' a, Adv g g' → I g a → I g' a)

theorem adv_view (g : Gh) (m : ℕ) (x : Option MetricView) : Adv g (g.view m x) :=
  ⟨fun _ h => List.mem_append_right _ h, fun _ h => h, fun _ h => h⟩

include hI in
theorem collect_wp {coll : Coll A} (hc : CollT I coll) : CollWP I (collect coll) := by
  intro m a g hg ha r
  cases r with
  | none => exact ⟨hg.view _ _, adv_view _ _ _, rfl, hI _ _ _ (adv_view _ _ _) ha⟩
  | some mv =>
    refine WP_bind (isInfNaN_wp (hg.view m (some mv)) mv.value) ?_
    rintro ⟨s1, o⟩ g' ⟨h1, h2, h3, h4⟩
    simp only at h3
    subst h3
    have h0 : (m, mv) ∈ g'.views := h2.views (by simp [Gh.view])
    have h2 := (adv_view g m (some mv)).trans h2
    cases o with
    | panic => exact ⟨h1, h2, rfl, hI _ _ _ h2 ha⟩
    | ok b =>
      cases b with
      | true => exact ⟨h1, h2, rfl, hI _ _ _ h2 ha⟩
      | false =>
        exact WP_mono (hc m a g' h1 (hI _ _ _ h2 ha) ⟨mv, h0, h4 rfl⟩) fun _ _ h => ⟨h.1, h2.trans h.2.1, h.2.2⟩

include hI in
theorem forEntries_wp {sub coll : Coll A} (hsub : CollWP I sub) (hc : CollT I coll) (l : List (ℕ × Entry)) (a : A)
    {g : Gh} (hg : Fine g) (ha : I g a) :
    WP (fun x g' => Fine g' ∧ Adv g g' ∧ x.1 = g'.sess ∧ I g' x.2.1) (forEntries sub coll l g.sess a) g := by
  induction l generalizing a g with
  | nil => exact ⟨hg, Adv.refl _, rfl, ha⟩
  | cons x l ih =>
    obtain ⟨e, en⟩ := x
    refine WP_bind (Q := fun x g' => Fine g' ∧ Adv g g' ∧ x.1 = g'.sess ∧ I g' x.2.1) ?_ ?_
    · split
      · exact hsub _ _ _ hg ha
      · exact collect_wp hI hc _ _ _ hg ha
      · exact ⟨hg, Adv.refl _, rfl, ha⟩
    · rintro ⟨s1, a', st⟩ g1 ⟨h1, h2, h3, h4⟩
      simp only at h3
      subst h3
      cases st with
      | ok => exact WP_mono (ih a' h1 h4) fun _ _ h => ⟨h.1, h2.trans h.2.1, h.2.2⟩
      | err => exact ⟨h1, h2, rfl, h4⟩
      | panic => exact ⟨h1, h2, rfl, h4⟩
      | timeout => exact ⟨h1, h2, rfl, h4⟩

include hI in
theorem traverse_wp {coll : Coll A} (hc : CollT I coll) (fuel : ℕ) : CollWP I (traverse coll fuel) := by
  induction fuel with
  | zero => exact fun d a g hg ha => ⟨hg, Adv.refl _, rfl, ha⟩
  | succ fuel ih => exact fun d a g hg ha l => forEntries_wp hI ih hc _ _ hg ha

/-- every group was taken at most once -/
theorem withSession_wp {body : Session → Prog (Session × A × Status)} {g : Gh} (hg : Fine g) (hs : g.sess = [])
    (h : WP (fun x g' => Fine g' ∧ Adv g g' ∧ x.1 = g'.sess ∧ I g' x.2.1) (body g.sess) g)
    (hI' : ∀ g a, I g a → I { g with sess := [] } a) :
    WP (fun x g' => g'.locks.Nodup ∧ I g' x.1) (withSession body) g := by
  unfold withSession
  rw [← hs]
  refine WP_bind h ?_
  rintro ⟨s1, a, st⟩ g1 ⟨h1, -, h3, h4⟩
  refine WP_bind (close_wp h3.symm) ?_
  rintro _ g2 rfl
  exact ⟨h1.nodup, hI' _ _ h4⟩

theorem getDirectory_calm (d : ℕ) (p : List Str) : Calm (getDirectory d p) := by
  induction p generalizing d with
  | nil => exact calm_ret _
  | cons x p ih =>
    intro g r
    cases r with
    | none => rfl
    | some e =>
      obtain ⟨e, en⟩ := e
      cases hd : en.dir with
      | none => simp only [hd]; rfl
      | some d' => simp only [hd]; exact ih d' g

theorem lookupPath_calm (d : ℕ) (path : Str) : Calm (lookupPath d path) := by
  unfold lookupPath getDirectoryOrMetric
  split
  · refine calm_bind (getDirectory_calm _ _) fun r => ?_
    cases r with
    | none => exact calm_ret _
    | some d =>
      intro g r
      cases r <;> rfl
  · exact calm_ret _

theorem fine_none : Fine Gh.none := ⟨rfl, List.nodup_nil, fun _ h => nomatch h⟩

include hI in
theorem byPath_wp {coll : Coll A} (hc : CollT I coll) (hI' : ∀ g a, I g a → I { g with sess := [] } a)
    (fuel d : ℕ) (path : Str) (a : A) (ha : I Gh.none a) :
    WP (fun x g' => g'.locks.Nodup ∧ I g' x.1) (getAllMetricsByPath coll fuel d path a) Gh.none := by
  refine wp_calm (lookupPath_calm _ _) ?_
  rintro ⟨x, y⟩
  cases y with
  | some m => exact withSession_wp fine_none rfl (collect_wp hI hc _ _ _ fine_none ha) hI'
  | none =>
    cases x with
    | some d => exact withSession_wp fine_none rfl (traverse_wp hI hc _ _ _ _ fine_none ha) hI'
    | none => exact ⟨List.nodup_nil, ha⟩

/-- the metrics collected so far -/
def Acc (json : Bool) (g : Gh) (ms : List Metric) : Prop := ∃ V, List.Forall₂ (fun v x => ∃ m, Known json g m v x ∧ TestedM g m) V ms

theorem Acc.mono {json : Bool} {g g' : Gh} {ms} (h : Adv g g') (ha : Acc json g ms) : Acc json g' ms := by
  obtain ⟨V, hV⟩ := ha
  exact ⟨V, hV.imp fun _ _ ⟨m, h1, h2⟩ => ⟨m, h1.mono h, h2.mono h⟩⟩

theorem msgColl_wp (json : Bool) : CollT (Acc json) (msgColl json) := by
  intro m a g hg ha ht r
  cases r with
  | none => exact ⟨hg.view _ _, adv_view _ _ _, rfl, ha.mono (adv_view _ _ _)⟩
  | some mv =>
    refine WP_bind (initMetricIn_wp (hg.view m (some mv)) json (m := m) (mv := mv) (by simp [Gh.view])) ?_
    rintro ⟨s', o⟩ g' ⟨h1, h2, h3, h4⟩
    have h2 := (adv_view g m (some mv)).trans h2
    cases o with
    | panic => exact ⟨h1, h2, h3, ha.mono h2⟩
    | ok z =>
      obtain ⟨y, hy⟩ := h4 z rfl
      obtain ⟨V, hV⟩ := ha.mono h2
      exact ⟨h1, h2, h3, V ++ [(mv, y)], List.rel_append hV (.cons ⟨m, hy, ht.mono h2⟩ .nil)⟩

theorem listMetrics_wp (json : Bool) (fuel : ℕ) (path : Str) :
    WP (fun x g' => g'.locks.Nodup ∧ Acc json g' x.1) (listMetrics json fuel path) Gh.none :=
  byPath_wp (I := Acc json) (fun _ _ _ => Acc.mono) (msgColl_wp json) (fun _ _ h => h) _ _ _ _ ⟨[], .nil⟩

theorem getMetric_calm (d : ℕ) (path : Str) : Calm (getMetric d path) := by
  refine calm_bind (lookupPath_calm _ _) ?_
  rintro ⟨x, y⟩
  cases x <;> cases y <;> exact calm_ret _

theorem getMetricMsg_wp (json : Bool) (path : Str) :
    WP (fun x g' => g'.locks.Nodup ∧ ∀ z, x = some (.ok z) → ∃ m v, Known json g' m v z) (getMetricMsg json path) Gh.none := by
  refine wp_calm (getMetric_calm _ _) fun r => ?_
  cases r with
  | none => exact ⟨List.nodup_nil, fun _ h => nomatch h⟩
  | some m =>
    intro r
    cases r with
    | none => exact ⟨List.nodup_nil, fun _ h => by cases h⟩
    | some mv =>
      refine WP_bind (Q := fun x g' => g'.locks.Nodup ∧ ∀ z, x = .ok z → ∃ m v, Known json g' m v z) ?_ ?_
      · refine WP_bind (initMetricIn_wp (g := Gh.none.view m (some mv)) (fine_none.view _ _) json (m := m) (mv := mv) (by simp [Gh.view])) ?_
        rintro ⟨s', o⟩ g' ⟨h1, h2, h3, h4⟩
        refine WP_bind (close_wp h3.symm) ?_
        rintro _ g2 rfl
        refine ⟨h1.nodup, fun z hz => ?_⟩
        obtain ⟨y, hy⟩ := h4 z hz
        exact ⟨_, _, hy⟩
      · rintro o g' ⟨h1, h2⟩
        exact ⟨h1, fun z hz => h2 z (by cases hz; rfl)⟩

end Tricorder
