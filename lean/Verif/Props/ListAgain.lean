import Verif.Proof.ListAgain
import Verif.Props.Poll
import Verif.Props.Lists
/-!
# C101: asking again for a list
-/

namespace Tricorder.Whole
open Go _root_.Spec

variable {w : World} {json : Bool} {a b c d : List (Item Answer)} {x y : Item Answer} {m n : Metric}

theorem Run.from {tr : List (Item Answer)} {s : St Answer} (hr : Run w tr s) : From w State.init tr :=
  fun _ _ _ hC => hr.after_pre hC

theorem noSet_of {σ : State} {l : List (Item Answer)} (hok : IdsOk σ) (hl : From w σ l) {i g : ℕ}
    (hg : ListHasId (after w (l.filterMap memStep) σ) i g) {l' : List (Item Answer)} (hsub : ∀ e ∈ l', e ∈ l)
    (h : ∀ e ∈ l', ∀ cell m ts, ¬ ItSets i e cell m ts) : NoSet w g l' :=
  fun e he cell m ts hs => h e he cell m ts ((itSets_iff hok hl hg (hsub e he)).mp hs)

/-- the first answer, with what is needed for the second one -/
theorem list_first {tr : List (Item Answer)} (hl : From w State.init tr) {i : ℕ} {lv : ListView}
    (hv : listView (after w (tr.filterMap memStep) State.init) i = some lv) (hc : Copied w lv.groupId tr) :
    Safe (after w (tr.filterMap memStep) State.init) i lv ∧ ∃ cell, LastSet w lv.groupId tr cell lv.timeStamp ∧
      Tricorder.Spec.Shows lv.val cell ∧ Tricorder.Spec.elemType cell.elem = some lv.subType := by
  have hg := view_id hv
  have hok := init_idsOk w
  rcases stands_steps (w := w) (o := none) (show State.init.lists[i]? = none from rfl) tr hl
    (fun it hit cell m ts hs => hc it hit cell m ts ((itSets_iff hok hl hg hit).mpr hs)) with
    ⟨-, h2⟩ | ⟨P, u, Q, cell, m, ts, lv', h1, h2, h3, h4, h5, h6, h7⟩
  · unfold listView at hv
    rw [show _ = none from h2] at hv; cases hv
  · have hv' := h4.view
    rw [hv] at hv'
    cases hv'
    refine ⟨h4, cell, ⟨P, u, Q, m, h1, ?_, ?_⟩, h5, h7⟩
    · rw [h6]; exact (itSets_iff hok hl hg (by rw [h1]; simp)).mpr h2
    · exact noSet_of hok hl hg (fun e he => by rw [h1]; simp [he]) h3

/-- **C101 (an answer shows the last Change)** A list in the answer of a listing or of a request for one metric: there is a moment
during the request, such that the answer shows the values and the time stamp that the last step before that moment that set the
list gave it (`NewList` or `Change` of the library, called by anyone). -/
theorem C101_moment {s : St Answer} (hr : Run w (a ++ x :: b) s) (h : Answered json x s m) (hk : m.kind = .list)
    (hc : Copied w m.groupId (a ++ x :: b)) :
    ∃ p q cell ts, b = p ++ q ∧ LastSet w m.groupId (a ++ x :: p) cell ts ∧ ReportsList json m cell ts := by
  obtain ⟨p, q, i, y, lv, rfl, h1, h2, h3, h4, h5, h6, h7⟩ := answered_list hr h hk
  have hfrom : From w State.init (a ++ x :: p) := From.left (l' := q) (by simpa using hr.from)
  rw [h6] at hc
  obtain ⟨-, cell, e1, e2, e3⟩ := list_first hfrom h1 (fun it hit => hc it (by simp at hit ⊢; tauto))
  exact ⟨p, q, cell, lv.timeStamp, rfl, h6 ▸ e1, y, h2, h3, h4 ▸ e2, h7 ▸ e3, h5⟩

/-- `m` is the message for list `i` as it is after the steps `tr` -/
def ShowsList (w : World) (json : Bool) (tr : List (Item Answer)) (i : ℕ) (y : Metric) (lv : ListView) (m : Metric) : Prop :=
  listView (after w (tr.filterMap memStep) State.init) i = some lv ∧ encodeMetric json y = .ok m ∧ y.kind = .list ∧
    y.value = lv.val ∧ y.timeStamp = .time lv.timeStamp ∧ m.groupId = lv.groupId ∧ y.subType = lv.subType

/-- the list after the steps `tr` and after the further steps `l` -/
theorem list_again {tr l q : List (Item Answer)} {s : St Answer} (hr : Run w (tr ++ l ++ q) s) {i j : ℕ} {y1 y2 : Metric}
    {lv lv' : ListView} (h1 : ShowsList w json tr i y1 lv m) (h2' : ShowsList w json (tr ++ l) j y2 lv' n) (hk1 : m.kind = .list)
    (hk2 : n.kind = .list) (hsame : n.groupId = m.groupId) (hcop : Copied w m.groupId (tr ++ l)) :
    (∃ cell ts, LastSet w m.groupId tr cell ts ∧ ReportsList json m cell ts) ∧
      ((NoSet w m.groupId l ∧ n.timeStamp = m.timeStamp ∧ n.subType = m.subType ∧ (n.unit = m.unit → n.value = m.value)) ∨
        ∃ cell ts, LastSet w m.groupId l cell ts ∧ ReportsList json n cell ts) := by
  obtain ⟨h1, h2, h3, h4, h5, h6, h7⟩ := h1
  obtain ⟨g1, g2, g3, g4, g5, g6, g7⟩ := h2'
  have hfrom : From w State.init (tr ++ l) := hr.from.left
  have hok := init_idsOk w
  obtain ⟨ok1, -⟩ := after_ids (w := w) (tr.filterMap memStep) hok
  obtain ⟨ok2, ext⟩ := after_ids (w := w) (l.filterMap memStep) ok1
  obtain ⟨hsafe, cell, e1, e2, e3⟩ := list_first hfrom.left h1 (fun it hit => h6 ▸ hcop it (by simp [hit]))
  rw [List.filterMap_append, after_append] at g1
  have hgj := view_id g1
  have hgi : ListHasId (after w (l.filterMap memStep) (after w (tr.filterMap memStep) State.init)) i
      lv'.groupId := by
    rw [← g6, hsame, h6]
    exact list_id.mpr (prefix_index ext.lists (list_id.mp (view_id h1)))
  obtain rfl := same_list ok2 hgi hgj
  have hid : lv'.groupId = m.groupId := by rw [← g6, hsame]
  rw [hid] at hgi
  refine ⟨⟨cell, lv.timeStamp, h6 ▸ e1, y1, h2, h3, h4 ▸ e2, h7 ▸ e3, h5⟩, ?_⟩
  rcases stands_steps (w := w) (o := some lv) hsafe _ hfrom.right
    (fun it hit cell m' ts hs => hcop it (by simp [hit]) cell m' ts
      ((itSets_iff ok1 hfrom.right hgi hit).mpr hs)) with
    ⟨k1, k2⟩ | ⟨P, u, Q, cell', m', ts, lv2, k1, k2, k3, k4, k5, k6, k7⟩
  · have hlv : lv' = lv := by
      have := Safe.view k2
      rw [g1] at this
      exact Option.some.inj this
    subst hlv
    left
    have hu := encode_same h2 g2 (g4.trans h4.symm) (g3.trans h3.symm) (g7.trans h7.symm)
    exact ⟨noSet_of ok1 hfrom.right hgi (fun _ he => he) k1,
      ((encode_list g2 hk2).2.2.2 _ g5).trans ((encode_list h2 hk1).2.2.2 _ h5).symm, hu.2, hu.1⟩
  · have hlv : lv' = lv2 := by
      have := Safe.view k4
      rw [g1] at this
      exact Option.some.inj this
    subst hlv
    right
    refine ⟨cell', ts, ⟨P, u, Q, m', k1, (itSets_iff ok1 hfrom.right hgi (by rw [k1]; simp)).mpr k2, ?_⟩, y2, g2, g3, ?_, ?_, ?_⟩
    · exact noSet_of ok1 hfrom.right hgi (fun e he => by rw [k1]; simp [he]) k3
    · rw [g4]; exact k5
    · rw [g7]; exact k7
    · rw [g5, k6]

/-- **C101 (asking again)** Two requests, the second one made after the first one was answered.  Between a moment of the first
one and a moment of the second one, either nothing set the list, and both answers say the same: time stamp, element type, and (if
shown with the same unit) values.  Or else the second answer shows what the last step in between that set the list gave it. -/
theorem C101_again (h : AskedList w json a x b c y d m n) :
    ∃ p q p' q', b = p ++ q ∧ d = p' ++ q' ∧ (∃ cell ts, LastSet w m.groupId (a ++ x :: p) cell ts ∧ ReportsList json m cell ts) ∧
      ((NoSet w m.groupId (q ++ c ++ y :: p') ∧ n.timeStamp = m.timeStamp ∧ n.subType = m.subType ∧
          (n.unit = m.unit → n.value = m.value)) ∨
        ∃ cell ts, LastSet w m.groupId (q ++ c ++ y :: p') cell ts ∧ ReportsList json n cell ts) := by
  obtain ⟨s1, r1, a1⟩ := h.first
  obtain ⟨s2, r2, a2⟩ := h.second
  obtain ⟨p, q, i, y1, lv, rfl, h1⟩ := answered_list r1 a1 h.kinds.1
  obtain ⟨p', q', j, y2, lv', rfl, g1⟩ := answered_list r2 a2 h.kinds.2
  have hsplit : a ++ x :: (p ++ q) ++ c ++ y :: p' = (a ++ x :: p) ++ (q ++ c ++ y :: p') := by simp
  rw [hsplit] at g1
  exact ⟨p, q, p', q', rfl, rfl, list_again (q := q') (by simpa using r2) h1 g1 h.kinds.1 h.kinds.2 h.same fun it hit => h.copied it (by
    simp only [List.mem_append, List.mem_cons] at hit ⊢; tauto)⟩

theorem ReportsList.stamp {cell : Cell} {ts : Time} (h : ReportsList json m cell ts) (hk : m.kind = .list) :
    m.timeStamp = Whole.stamp json ts := by
  obtain ⟨y, h1, -, -, -, h2⟩ := h
  exact (encode_list h1 hk).2.2.2 _ h2

/-- **C101 (never back)** If the list never gets an earlier time stamp than before, the second answer does not have an earlier one
than the first. -/
theorem C101_never_back (h : AskedList w json a x b c y d m n) (ho : SetInOrder w m.groupId (a ++ x :: b ++ c ++ y :: d)) :
    ∃ t t', m.timeStamp = stamp json t ∧ n.timeStamp = stamp json t' ∧ NotAfter t t' := by
  obtain ⟨p, q, p', q', rfl, rfl, ⟨cell, ts, ⟨P, u, Q, mu, h1, h2, h3⟩, h4⟩, h5⟩ := C101_again h
  have e1 := h4.stamp h.kinds.1
  rcases h5 with ⟨-, g1, -⟩ | ⟨cell', ts', ⟨P', u', Q', mu', g1, g2, g3⟩, g4⟩
  · exact ⟨ts, ts, e1, g1.trans e1, .inr ⟨rfl, le_rfl⟩⟩
  · refine ⟨ts, ts', e1, g4.stamp h.kinds.2, ho P u (Q ++ P') u' (Q' ++ q') cell cell' mu mu' ts ts' ?_ h2 g2⟩
    have : a ++ x :: (p ++ q) ++ c ++ y :: (p' ++ q') = (a ++ x :: p) ++ (q ++ c ++ y :: p') ++ q' := by simp
    rw [this, h1, g1]; simp

/-- **C101 (same time, same values)** If the list is always set with a new time stamp, two answers with the same time stamp have
the same element type and (if shown with the same unit) the same values. -/
theorem C101_same_time (h : AskedList w json a x b c y d m n) (hn : NewStamps w json m.groupId (a ++ x :: b ++ c ++ y :: d))
    (ht : n.timeStamp = m.timeStamp) : n.subType = m.subType ∧ (n.unit = m.unit → n.value = m.value) := by
  obtain ⟨p, q, p', q', rfl, rfl, ⟨cell, ts, ⟨P, u, Q, mu, h1, h2, h3⟩, h4⟩, h5⟩ := C101_again h
  have e1 := h4.stamp h.kinds.1
  rcases h5 with ⟨-, -, g1⟩ | ⟨cell', ts', ⟨P', u', Q', mu', g1, g2, g3⟩, g4⟩
  · exact g1
  · refine absurd ?_ (hn P u (Q ++ P') u' (Q' ++ q') cell cell' mu mu' ts ts' ?_ h2 g2)
    · rw [← e1, ← g4.stamp h.kinds.2, ht]
    · have : a ++ x :: (p ++ q) ++ c ++ y :: (p' ++ q') = (a ++ x :: p) ++ (q ++ c ++ y :: p') ++ q' := by simp
      rw [this, h1, g1]; simp

/-- **C101 (fresh)** If `Change` returned before the request was made, the answer shows what it set, or what a later step set. -/
theorem C101_fresh {s : St Answer} (hr : Run w (a ++ x :: b) s) (h : Answered json x s m) (hk : m.kind = .list)
    (hc : Copied w m.groupId (a ++ x :: b)) {P Q : List (Item Answer)} {u : Item Answer} {cell : Cell} {mu : Bool} {ts : Time}
    (hP : a = P ++ u :: Q) (hu : SetsList w m.groupId u cell mu ts) :
    ∃ R u' R' cell' mu' ts', u :: (Q ++ x :: b) = R ++ u' :: R' ∧ SetsList w m.groupId u' cell' mu' ts' ∧
      ReportsList json m cell' ts' := by
  obtain ⟨p, q, cell', ts', rfl, ⟨P', u', Q', mu', h1, h2, h3⟩, h4⟩ := C101_moment hr h hk hc
  subst hP
  rw [List.append_assoc] at h1
  rcases List.append_eq_append_iff.mp h1 with ⟨as, e1, e2⟩ | ⟨as, e1, e2⟩
  · refine ⟨as, u', Q' ++ q, cell', mu', ts', ?_, h2, h4⟩
    have := congrArg (· ++ q) e2
    simpa using this
  · cases as with
    | nil =>
      refine ⟨[], u', Q' ++ q, cell', mu', ts', ?_, h2, h4⟩
      have := congrArg (· ++ q) e2
      simpa using this.symm
    | cons z as =>
      simp only [List.cons_append, List.cons.injEq] at e2
      obtain ⟨rfl, e2⟩ := e2
      exact absurd hu (h3 u (by rw [e2]; simp) cell mu ts)

/-! ### an example -/

def exRelistSetup (mu : Bool) : Prog Answer :=
  .op (.newSlice exSlice) fun _ => .op (.newList (.slice 0) mu ⟨7, 0⟩) fun _ =>
    (apiRegisterMetric exW.fnTy 0 (lit "/l") (.list (some 0)) (some 0) .none []).bind fun _ => .ret .other

/-- the list is made and asked for -/
def exRelist1 (mu : Bool) : List (Move Answer) :=
  (.spawn (exRelistSetup mu) :: gos 0 3) ++ .spawn (listCall true 3 (lit "/")) :: gos 1 4

/-- the application overwrites the first element of its slice, and perhaps calls `Change`; the list is asked for again -/
def exRelist2 (mu change : Bool) : List (Move Answer) :=
  (.spawn (.op (.writeSlice 0 0 (.float64 (.fin 2))) fun _ =>
    if change then .op (.changeList 0 (.slice 0) mu ⟨8, 0⟩) fun _ => .ret .other else .ret .other) :: gos 2 (if change then 2 else 1)) ++
  .spawn (listCall true 3 (lit "/")) :: gos 3 4

instance exSetsEq : DecidableEq (List (Option Cell × Bool × Time)) := inferInstance

/-- the slices and the time stamps with which the steps set lists -/
def exSets (tr : List (Item Answer)) : List (Option Cell × Bool × Time) :=
  tr.filterMap fun it => match memStep it with
    | some (.newList (.slice c) m ts) => some (it.pre.mem[c]?, m, ts)
    | some (.changeList _ (.slice c) m ts) => some (it.pre.mem[c]?, m, ts)
    | _ => none

theorem exSets_spec {w : World} {g : ℕ} {it : Item Answer} {cell : Cell} {m : Bool} {ts : Time} (h : SetsList w g it cell m ts) :
    exSets [it] = [(some cell, m, ts)] := by
  obtain ⟨cmd, i, h1, ⟨c, h2, ⟨h3, -⟩ | ⟨h3, -⟩⟩, -⟩ := h
  all_goals
    simp only at h2 h3
    subst h3
    simp [exSets, h1, h2]

theorem exSets_append (l l' : List (Item Answer)) : exSets (l ++ l') = exSets l ++ exSets l' := List.filterMap_append

theorem exSets_cons (it : Item Answer) (l : List (Item Answer)) : exSets (it :: l) = exSets [it] ++ exSets l :=
  exSets_append [it] l

def exRelist (mu change : Bool) : Option (List Metric × List Metric × List (Option Cell × Bool × Time)) :=
  (playW exW (exRelist1 mu) [] (start Answer)).bind fun x =>
    (playW exW (exRelist2 mu change) x.1 x.2).map fun z => (exListed x.2.procs[1]?, exListed z.2.procs[3]?, exSets z.1)

theorem exRelist_asked {mu change : Bool} {m n : Metric} {k : List (Option Cell × Bool × Time)}
    (h : exRelist mu change = some ([m], [n], k)) :
    ∃ a x b c y d, (∃ s, Run exW (a ++ x :: b) s ∧ Answered true x s m) ∧
      (∃ s, Run exW (a ++ x :: b ++ c ++ y :: d) s ∧ Answered true y s n) ∧ exSets (a ++ x :: b ++ c ++ y :: d) = k := by
  unfold exRelist at h
  obtain ⟨⟨tr1, s1⟩, h1, h2⟩ := Option.bind_eq_some_iff.mp h
  obtain ⟨⟨tr2, s2⟩, h3, h4⟩ := Option.map_eq_some_iff.mp h2
  simp only [Prod.mk.injEq] at h4
  obtain ⟨e1, e2, e3⟩ := h4
  have r1 := playW_run .nil h1
  have r2 := playW_run r1 h3
  have hl := playW_length h1
  obtain ⟨a, x, b, rfl, hx⟩ := playW_asked (ms := .spawn (exRelistSetup mu) :: gos 0 3) h1
  obtain ⟨c, y, d, rfl, hy⟩ := playW_asked (ms := .spawn _ :: gos 2 (if change then 2 else 1)) h3
  obtain ⟨st1, held1, p1⟩ := exListed_spec e1
  obtain ⟨st2, held2, p2⟩ := exListed_spec e2
  rw [show s1.procs.length = 2 from hl] at hy
  have hy' : y.lab = .spawn 3 (listCall true 3 (lit "/")) := by
    rw [hy]; cases change <;> rfl
  exact ⟨a, x, b, c, y, d, ⟨s1, r1, .listing hx p1 (by simp)⟩, ⟨s2, r2, .listing hy' p2 (by simp)⟩, by simpa using e3⟩

def exRelistMsg (v : Fl) (t : Str) : Metric :=
  { path := lit "/l", description := [], unit := .none, kind := .list, subType := .float64, bits := 64,
    value := .slice none ⟨none, .float64⟩ (some [.float64 v, .float64 (.fin 2)]), timeStamp := .str t, groupId := 1 }

/-- the slice after the write -/
def exSlice2 : Cell := ⟨none, .scalar ⟨none, .float64⟩, some [.float64 (.fin 2), .float64 (.fin 2)], false⟩

/-- The hypotheses of C101 are met: `Change` is called between the two requests; the answers show the values before and after it. -/
example : ∃ a x b c y d m n, AskedList exW true a x b c y d m n ∧ SetInOrder exW m.groupId (a ++ x :: b ++ c ++ y :: d) ∧
    NewStamps exW true m.groupId (a ++ x :: b ++ c ++ y :: d) ∧ m = exRelistMsg (.fin 1) (lit "7.000000000") ∧
    n = exRelistMsg (.fin 2) (lit "8.000000000") := by
  have h : exRelist true true = some ([exRelistMsg (.fin 1) (lit "7.000000000")], [exRelistMsg (.fin 2) (lit "8.000000000")],
      [(some exSlice, true, ⟨7, 0⟩), (some exSlice2, true, ⟨8, 0⟩)]) := by
    decide +kernel
  obtain ⟨a, x, b, c, y, d, h1, h2, h3⟩ := exRelist_asked h
  have ord : ∀ {p q z : List (Item Answer)} {u u' : Item Answer} {cell cell' : Cell} {m m' : Bool} {t t' : Time} {g : ℕ},
      a ++ x :: b ++ c ++ y :: d = p ++ u :: q ++ u' :: z → SetsList exW g u cell m t → SetsList exW g u' cell' m' t' →
      t = ⟨7, 0⟩ ∧ t' = ⟨8, 0⟩ := by
    intro p q z u u' cell cell' m m' t t' g e s1 s2
    rw [e, exSets_append, exSets_append, exSets_cons u, exSets_cons u', exSets_spec s1, exSets_spec s2] at h3
    match hp : exSets p, hq : exSets q, hz : exSets z with
    | [], [], [] => rw [hp, hq, hz] at h3; simp at h3; exact ⟨h3.1.2.2, h3.2.2.2⟩
    | _ :: _, _, _ => have := congrArg List.length h3; simp [hp] at this; omega
    | [], _ :: _, _ => have := congrArg List.length h3; simp [hp, hq] at this
    | [], [], _ :: _ => have := congrArg List.length h3; simp [hp, hq, hz] at this
  refine ⟨a, x, b, c, y, d, _, _, ⟨h1, h2, ⟨rfl, rfl⟩, rfl, ?_⟩, ?_, ?_, rfl, rfl⟩
  · intro it hit cell m ts hs
    obtain ⟨p, q, hpq⟩ := List.append_of_mem hit
    have hin : (some cell, m, ts) ∈ exSets (a ++ x :: b ++ c ++ y :: d) := by
      rw [hpq, exSets_append, exSets_cons, exSets_spec hs]; simp
    rw [h3] at hin
    have hok : ∀ v : Fl, Fl.Rep b64 v → Tricorder.Spec.CellOk ⟨none, .scalar ⟨none, .float64⟩, some [.float64 v, .float64 (.fin 2)], false⟩ := by
      refine fun v hv => ⟨⟨none, .float64⟩, rfl, ?_⟩
      intro xs h b hb
      cases h
      simp only [List.mem_cons, List.not_mem_nil, or_false] at hb
      rcases hb with rfl | rfl
      · exact ⟨rfl, hv⟩
      · exact ⟨rfl, by show Fl.Rep b64 (.fin 2); decide +kernel⟩
    simp only [List.mem_cons, Prod.mk.injEq, Option.some.injEq, List.not_mem_nil, or_false] at hin
    rcases hin with ⟨rfl, rfl, -⟩ | ⟨rfl, rfl, -⟩
    · exact ⟨hok (.fin 1) (by decide +kernel), .inl rfl⟩
    · exact ⟨hok (.fin 2) (by decide +kernel), .inl rfl⟩
  · intro p u q u' z cell cell' m m' t t' e s1 s2
    obtain ⟨rfl, rfl⟩ := ord e s1 s2
    exact .inl (by norm_num)
  · intro p u q u' z cell cell' m m' t t' e s1 s2
    obtain ⟨rfl, rfl⟩ := ord e s1 s2
    decide +kernel

/-- **C101, without copies**: the same for a slice of floating point numbers that was declared immutable.  The list is never
changed, the application writes to its slice: the time stamps are the same, the values are not. -/
theorem C101_shared : ∃ a x b c y d m n, (∃ s, Run exW (a ++ x :: b) s ∧ Answered true x s m) ∧
    (∃ s, Run exW (a ++ x :: b ++ c ++ y :: d) s ∧ Answered true y s n) ∧ m.kind = .list ∧ n.kind = .list ∧ n.groupId = m.groupId ∧
    NewStamps exW true m.groupId (a ++ x :: b ++ c ++ y :: d) ∧ n.timeStamp = m.timeStamp ∧ n.unit = m.unit ∧ n.value ≠ m.value := by
  have h : exRelist false false = some ([exRelistMsg (.fin 1) (lit "7.000000000")], [exRelistMsg (.fin 2) (lit "7.000000000")],
      [(some exSlice, false, ⟨7, 0⟩)]) := by
    decide +kernel
  obtain ⟨a, x, b, c, y, d, h1, h2, h3⟩ := exRelist_asked h
  refine ⟨a, x, b, c, y, d, _, _, h1, h2, rfl, rfl, rfl, ?_, rfl, rfl, by decide +kernel⟩
  intro p u q u' z cell cell' m m' t t' e s1 s2
  rw [e, exSets_append, exSets_append, exSets_cons u, exSets_cons u', exSets_spec s1, exSets_spec s2] at h3
  have := congrArg List.length h3
  simp at this
  omega

end Tricorder.Whole
