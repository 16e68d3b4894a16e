import Verif.Proof.Whole3
import Verif.Proof.PlayW
import Verif.Model.Setup
import Verif.Props.Ex
/-!
# Properties of the whole library
-/

namespace Tricorder.Whole
open Go Spec

variable {A : Type} {w : World}

/-! ### C70: the metrics of a group in one answer come from one update -/

theorem listCall_wp (json : Bool) (fuel : ℕ) (path : Str) :
    WP (fun x g => ∀ ms st, x = .listing ms st → g.locks.Nodup ∧ Acc json g ms) (listCall json fuel path) Gh.none :=
  WP_bind (listMetrics_wp json fuel path) fun a g h => by
    intro ms st e
    cases e
    exact h

theorem getCall_wp (json : Bool) (path : Str) :
    WP (fun x g => ∀ z, x = .single (some (.ok z)) → g.locks.Nodup ∧ ∃ m v, Known json g m v z) (getCall json path) Gh.none :=
  WP_bind (getMetricMsg_wp json path) fun a g h => by
    intro z e
    cases e
    exact ⟨h.1, h.2 z rfl⟩

theorem Past.reports {c : ℕ} {tr : List (Item A)} {g : Gh} (hp : Past w c tr g) {json : Bool} {m v x} (h : Known json g m v x) :
    Reports c tr json v x := by
  obtain ⟨it, h1, h2, h3⟩ := hp.views _ h.2.2.1
  refine ⟨h.1, h.2.1, ⟨it, h1, m, h2, h3⟩, fun hs => ?_⟩
  obtain ⟨-, -, -, r, -, -, -, -, k1, -, -, k2⟩ := h.2.2.2 hs.1 hs.2
  obtain ⟨it', e1, -, e2⟩ := hp.ids _ k2
  exact ⟨r, k1, it', e1, e2⟩

theorem forall₂_mem_left {α β : Type} {R : α → β → Prop} {l : List α} {l' : List β} (h : List.Forall₂ R l l') :
    ∀ x ∈ l, ∃ y, R x y := fun x hx => by
  obtain ⟨y, -, hr⟩ := forall₂_left h x hx
  exact ⟨y, hr⟩

/-- C70, listing: whatever the other goroutines and the update functions do, each metric in the answer of a finished listing
describes a registered metric as it was during the call, and for each group all its scalars come from one update. -/
theorem C70_listing {tr : List (Item Answer)} {s : St Answer} (hr : Run w tr s) {c fuel : ℕ} {json : Bool} {path : Str}
    (hc : ∃ it ∈ tr, it.lab = .spawn c (listCall json fuel path)) {ms : List Metric} {st : Status} {held : List (ℕ × ℕ)}
    (hd : s.procs[c]? = some ⟨.run (.ret (.listing ms st)), held⟩) :
    ∃ V, List.Forall₂ (Reports c tr json) V ms ∧
      ∀ r, (∃ v ∈ V, Scalar v.1 ∧ v.1.value.region = some r) → OneUpdate w c tr r V := by
  obtain ⟨p, g, h1, h2, h3⟩ := hr.follows (listCall_wp json fuel path) hc
  rw [hd] at h1
  cases h1
  cases h2 with
  | run hw hl =>
    obtain ⟨hn, V, hV⟩ := hw ms st rfl
    refine ⟨V, hV.imp fun v x ⟨_, h, _⟩ => h3.reports h, fun r hv => h3.oneUpdate hr hn (fun v hv => ?_) hv⟩
    obtain ⟨x, m, hx, -⟩ := forall₂_mem_left hV v hv
    exact hx.2.2.2

/-- C70, single metric: likewise. -/
theorem C70_single {tr : List (Item Answer)} {s : St Answer} (hr : Run w tr s) {c : ℕ} {json : Bool} {path : Str}
    (hc : ∃ it ∈ tr, it.lab = .spawn c (getCall json path)) {x : Metric} {held : List (ℕ × ℕ)}
    (hd : s.procs[c]? = some ⟨.run (.ret (.single (some (.ok x)))), held⟩) :
    ∃ v, Reports c tr json v x ∧ ∀ r, Scalar v.1 → v.1.value.region = some r → OneUpdate w c tr r [v] := by
  obtain ⟨p, g, h1, h2, h3⟩ := hr.follows (getCall_wp json path) hc
  rw [hd] at h1
  cases h1
  cases h2 with
  | run hw hl =>
    obtain ⟨hn, m, v, hv⟩ := hw x rfl
    refine ⟨v, h3.reports hv, fun r hs hreg => h3.oneUpdate hr hn (fun v' hv' => ?_) ⟨v, by simp, hs, hreg⟩⟩
    obtain rfl : v' = v := by simpa using hv'
    exact hv.2.2.2

/-- C70, corollary: two scalars of one group in one answer have the same time stamp. -/
theorem C70_same_time {tr : List (Item Answer)} {s : St Answer} (hr : Run w tr s) {c fuel : ℕ} {json : Bool} {path : Str}
    (hc : ∃ it ∈ tr, it.lab = .spawn c (listCall json fuel path)) {ms : List Metric} {st : Status} {held : List (ℕ × ℕ)}
    (hd : s.procs[c]? = some ⟨.run (.ret (.listing ms st)), held⟩) :
    ∃ V, List.Forall₂ (Reports c tr json) V ms ∧ ∀ v ∈ V, ∀ v' ∈ V, Scalar v.1 → Scalar v'.1 →
      v.1.value.region = v'.1.value.region → v.2.timeStamp = v'.2.timeStamp := by
  obtain ⟨p, g, h1, h2, h3⟩ := hr.follows (listCall_wp json fuel path) hc
  rw [hd] at h1
  cases h1
  cases h2 with
  | run hw hl =>
    obtain ⟨hn, V, hV⟩ := hw ms st rfl
    refine ⟨V, hV.imp fun v x ⟨_, h, _⟩ => h3.reports h, fun v hv v' hv' hs hs' e => ?_⟩
    have hT : ∀ v ∈ V, TellsG g v.1 v.2 := fun v hv => by
      obtain ⟨x, m, hx, -⟩ := forall₂_mem_left hV v hv
      exact hx.2.2.2
    obtain ⟨-, -, -, r, -, -, -, -, hreg, -⟩ := hT v hv hs.1 hs.2
    obtain ⟨a, u, b, t, -, -, h⟩ := h3.oneUpdate hr hn hT ⟨v, hv, hs, hreg⟩
    rw [(h v hv hs hreg).1, (h v' hv' hs' (e ▸ hreg)).1]

/-- C70: a call takes each group at most once. -/
theorem C70_taken_once {tr : List (Item Answer)} {s : St Answer} (hr : Run w tr s) {c fuel : ℕ} {json : Bool} {path : Str}
    (hc : ∃ it ∈ tr, it.lab = .spawn c (listCall json fuel path)) {ms : List Metric} {st : Status} {held : List (ℕ × ℕ)}
    (hd : s.procs[c]? = some ⟨.run (.ret (.listing ms st)), held⟩) {a b d : List (Item Answer)} {x y : Item Answer}
    {r cl cl' : ℕ} {t t' : Time} (htr : tr = a ++ x :: b ++ y :: d) (hx : x.lab = .took c r cl t) : y.lab ≠ .took c r cl' t' := by
  intro hy
  obtain ⟨p, g, h1, h2, h3⟩ := hr.follows (listCall_wp json fuel path) hc
  rw [hd] at h1
  cases h1
  cases h2 with
  | run hw hl =>
    obtain ⟨hn, -⟩ := hw ms st rfl
    have hnd : (tooks c tr).Nodup := by rw [h3.locks]; exact List.nodup_reverse.mpr hn
    rw [htr] at hnd
    simp [tooks, hx, hy, List.nodup_append] at hnd

/-- C70: the groups of a run of the whole library run as in `Model/Group`, so that C16 to C22 hold of them. -/
theorem C70_groups {tr : List (Item A)} {s : St A} (hr : Run w tr s) :
    Group.Run (Group.init Time) (.newGroup 0 0 0 :: (tr.map Item.evs).flatten) s.grp := hr.group

/-- C70: while a call holds a group it is not updated, and whoever takes it gets the time of the same update. -/
theorem C70_shared {a b d : List (Item A)} {x y : Item A} {s : St A} (hr : Run w (a ++ x :: b ++ y :: d) s)
    {c c' r cl cl' : ℕ} {t t' : Time} (hx : x.lab = .took c r cl t) (hy : y.lab = .took c' r cl' t')
    (hno : ∀ z ∈ b, z.lab ≠ .gives c r cl) : t' = t ∧ Quiet r b := by
  rw [List.append_cons] at hr
  obtain ⟨s0, h0, -⟩ := hr.split
  exact h0.shared hx hy hno

/-- C70: a call that takes a group which nobody held at some earlier time, gets the last of the updates, of which at least one
was made since that time. -/
theorem C70_fresh {a b d : List (Item A)} {y : Item A} {s : St A} (hr : Run w (a ++ b ++ y :: d) s) {c r cl : ℕ} {t : Time}
    (hfree : Unheld r a) (hy : y.lab = .took c r cl t) : ∃ b1 u b2, b = b1 ++ u :: b2 ∧ Updated r t u ∧ Quiet r b2 := by
  rw [List.append_cons] at hr
  obtain ⟨s0, h0, -⟩ := hr.split
  refine h0.fresh (fun cl' => ?_) hy
  have := hfree cl'
  simpa [evsOf, Group.holds] using this

/-! ### Example: two requests share an update

Two variables of the default group are registered.  The first request takes the group; the update function changes both
variables and returns time 100.  After the first variable has been read, the second request takes the group as well, and
both finish. -/

def exSetup : Prog Answer :=
  (newVars [.scalar none (.int .int64 5), .scalar none (.int .int64 7)]).bind fun _ =>
    (registerList exW.fnTy [⟨lit "/a", .ptr 0, 0, .none, []⟩, ⟨lit "/b", .ptr 1, 0, .none, []⟩]).bind fun _ => .ret .other

def exBefore : List (Move Answer) := .spawn exSetup :: gos 0 6
def exAfter : List (Move Answer) :=
  gos 1 3 ++ taking 1 0 0 [.writeVar 0 (.scalar none (.int .int64 6)), .writeVar 1 (.scalar none (.int .int64 8))] ⟨100, 0⟩ ++
  gos 1 1 ++ [.spawn (listCall true 3 (lit "/"))] ++ gos 2 3 ++ sharing 2 0 1 ++ gos 1 5 ++ releasing 1 0 0 ++
  gos 2 6 ++ releasing 2 0 1

def exLast : List (Move Answer) :=
  gos 3 2 ++ taking 3 0 2 [.writeVar 1 (.scalar none (.int .int64 9))] ⟨200, 0⟩ ++ gos 3 2 ++ releasing 3 0 2

def exPlay : Option (List (Item Answer) × St Answer) :=
  playW exW (exBefore ++ .spawn (listCall true 3 (lit "/")) :: exAfter ++ .spawn (getCall true (lit "/b")) :: exLast) []
    (start Answer)

def exBase : Val → Option Base
  | .scalar none b => some b
  | _ => none

def exTime : TS → Option Str
  | .str s => some s
  | _ => none

structure ExRow where
  path : Str
  value : Option Base
  time : Option Str
deriving DecidableEq

structure ExAnswer where
  listing : Bool
  rows : List ExRow
deriving DecidableEq

/-- is it a listing; path, value and time of each metric of an answer -/
def exSummary : Option (Proc Answer) → Option ExAnswer
  | some ⟨.run (.ret (.listing ms .ok)), []⟩ => some ⟨true, ms.map fun m => ⟨m.path, exBase m.value, exTime m.timeStamp⟩⟩
  | some ⟨.run (.ret (.single (some (.ok m)))), []⟩ => some ⟨false, [⟨m.path, exBase m.value, exTime m.timeStamp⟩]⟩
  | _ => none

theorem exPlay_answers :
    exPlay.map (fun x => [exSummary x.2.procs[1]?, exSummary x.2.procs[2]?, exSummary x.2.procs[3]?]) =
    some [some ⟨true, [⟨lit "/a", some (.int .int64 6), some (lit "100.000000000")⟩,
        ⟨lit "/b", some (.int .int64 8), some (lit "100.000000000")⟩]⟩,
      some ⟨true, [⟨lit "/a", some (.int .int64 6), some (lit "100.000000000")⟩,
        ⟨lit "/b", some (.int .int64 8), some (lit "100.000000000")⟩]⟩,
      some ⟨false, [⟨lit "/b", some (.int .int64 9), some (lit "200.000000000")⟩]⟩] := by
  decide +kernel

/-- the hypotheses of C70 hold of it -/
theorem exPlay_finished : ∃ tr s, Run exW tr s ∧
    (∃ it ∈ tr, it.lab = .spawn 1 (listCall true 3 (lit "/"))) ∧
    (∃ ms, s.procs[1]? = some ⟨.run (.ret (.listing ms .ok)), []⟩ ∧ ms.length = 2) ∧
    (∃ it ∈ tr, it.lab = .spawn 3 (getCall true (lit "/b"))) ∧
    ∃ m, s.procs[3]? = some ⟨.run (.ret (.single (some (.ok m)))), []⟩ ∧ exBase m.value = some (.int .int64 9) := by
  have h := exPlay_answers
  obtain ⟨⟨tr, s⟩, he⟩ : ∃ x, exPlay = some x := by
    cases hp : exPlay with
    | none => rw [hp] at h; cases h
    | some x => exact ⟨x, rfl⟩
  rw [he] at h
  simp only [Option.map_some, Option.some.injEq, List.cons.injEq, and_true] at h
  obtain ⟨h1, -, h3⟩ := h
  have hrun : Run exW tr s := playW_run .nil he
  refine ⟨tr, s, hrun, ?_, ?_, ?_, ?_⟩
  · unfold exPlay at he
    rw [List.append_assoc] at he
    exact playW_spawn he (by decide +kernel)
  · revert h1
    generalize s.procs[1]? = p
    intro h1
    unfold exSummary at h1
    split at h1
    · exact ⟨_, rfl, by simpa using congrArg (fun o : Option ExAnswer => o.map fun x => x.rows.length) h1⟩
    · simp at h1
    · cases h1
  · unfold exPlay at he
    exact playW_spawn he (by decide +kernel)
  · revert h3
    generalize s.procs[3]? = p
    intro h3
    unfold exSummary at h3
    split at h3
    · simp at h3
    · simp only [Option.some.injEq, List.cons.injEq, ExAnswer.mk.injEq, ExRow.mk.injEq, and_true, true_and] at h3
      exact ⟨_, rfl, h3.2.1⟩
    · cases h3

example : ∃ (tr : List (Item Answer)) (s : St Answer) (ms : List Metric) (V : List (MetricView × Metric)), Run exW tr s ∧
    ms.length = 2 ∧ List.Forall₂ (Reports 1 tr true) V ms ∧
      ∀ r, (∃ v ∈ V, Scalar v.1 ∧ v.1.value.region = some r) → OneUpdate exW 1 tr r V := by
  obtain ⟨tr, s, h1, h2, ⟨ms, h3, h4⟩, -⟩ := exPlay_finished
  obtain ⟨V, hV⟩ := C70_listing h1 h2 h3
  exact ⟨tr, s, ms, V, h1, h4, hV⟩

example : ∃ (tr : List (Item Answer)) (s : St Answer) (m : Metric) (v : MetricView × Metric), Run exW tr s ∧
    exBase m.value = some (.int .int64 9) ∧ Reports 3 tr true v m ∧
      ∀ r, Scalar v.1 → v.1.value.region = some r → OneUpdate exW 3 tr r [v] := by
  obtain ⟨tr, s, h1, -, -, h2, m, h3, h4⟩ := exPlay_finished
  obtain ⟨v, hv⟩ := C70_single h1 h2 h3
  exact ⟨tr, s, m, v, h1, h4, hv⟩

inductive ExKind where
  | took (c r cl : ℕ)
  | gives (c r cl : ℕ)
  | other
deriving DecidableEq

def exKind (it : Item Answer) : ExKind :=
  match it.lab with
  | .took c r cl _ => .took c r cl
  | .gives c r cl => .gives c r cl
  | _ => .other

theorem exKind_took {it : Item Answer} {c r cl : ℕ} (h : exKind it = .took c r cl) : ∃ t, it.lab = .took c r cl t := by
  unfold exKind at h
  split at h <;> cases h
  exact ⟨_, ‹_›⟩

theorem cut {α : Type} {l : List α} {i : ℕ} {x : α} (h : l[i]? = some x) : l = l.take i ++ x :: l.drop (i + 1) := by
  obtain ⟨hi, rfl⟩ := List.getElem?_eq_some_iff.mp h
  rw [← List.drop_eq_getElem_cons hi, List.take_append_drop]

def exChecks (tr : List (Item Answer)) : Bool :=
  tr[19]?.map exKind = some (.took 1 0 0) ∧ tr[30]?.map exKind = some (.took 2 0 1) ∧ tr[66]?.map exKind = some (.took 3 0 2) ∧
    (((tr.take 30).drop 20).all fun it => exKind it ≠ .gives 1 0 0) ∧
    (((tr.take 56).map Item.evs).flatten.all fun e => match e with | .accept cl _ _ => cl < 2 | _ => true) ∧
    Group.holds 0 0 ((tr.take 56).map Item.evs).flatten = 0 ∧ Group.holds 1 0 ((tr.take 56).map Item.evs).flatten = 0

theorem exPlay_checks : exPlay.map (fun x => exChecks x.1) = some true := by
  decide +kernel

theorem holds_zero {l : List (Group.Ev Time)} {n r : ℕ}
    (h : (l.all fun e => match e with | .accept cl _ _ => decide (cl < n) | _ => true) = true) {cl : ℕ} (hcl : n ≤ cl) :
    Group.holds cl r l = 0 := by
  refine List.sum_eq_zero fun x hx => ?_
  obtain ⟨e, he, rfl⟩ := List.mem_map.mp hx
  have := List.all_eq_true.mp h e he
  cases e <;> try rfl
  simp only [decide_eq_true_eq] at this
  simp only [ite_eq_right_iff, and_imp]
  omega

/-- the hypotheses of `C70_shared` and `C70_fresh` hold of it -/
theorem exPlay_splits : ∃ (tr : List (Item Answer)) (s : St Answer), Run exW tr s ∧
    (∃ a x b y d t t', tr = a ++ x :: b ++ y :: d ∧ x.lab = .took 1 0 0 t ∧ y.lab = .took 2 0 1 t' ∧
      ∀ z ∈ b, z.lab ≠ .gives 1 0 0) ∧
    ∃ a b y d t, tr = a ++ b ++ y :: d ∧ a.length = 56 ∧ Unheld 0 a ∧ y.lab = .took 3 0 2 t := by
  have h := exPlay_checks
  obtain ⟨⟨tr, s⟩, he⟩ : ∃ x, exPlay = some x := by
    cases hp : exPlay with
    | none => rw [hp] at h; cases h
    | some x => exact ⟨x, rfl⟩
  rw [he] at h
  simp only [Option.map_some, Option.some.injEq, exChecks, decide_eq_true_eq] at h
  obtain ⟨h1, h2, h3, h4, h5, h6, h7⟩ := h
  obtain ⟨x, hx, kx⟩ := Option.map_eq_some_iff.mp h1
  obtain ⟨y, hy, ky⟩ := Option.map_eq_some_iff.mp h2
  obtain ⟨z, hz, kz⟩ := Option.map_eq_some_iff.mp h3
  obtain ⟨t, lx⟩ := exKind_took kx
  obtain ⟨t', ly⟩ := exKind_took ky
  obtain ⟨t'', lz⟩ := exKind_took kz
  refine ⟨tr, s, playW_run .nil he, ⟨(tr.take 30).take 19, x, (tr.take 30).drop 20, y, tr.drop 31, t, t', ?_, lx, ly, ?_⟩,
    ⟨tr.take 56, (tr.take 66).drop 56, z, tr.drop 67, t'', ?_, ?_, fun cl => ?_, lz⟩⟩
  · rw [← cut (l := tr.take 30) (i := 19) (x := x) (by rw [List.getElem?_take]; simpa using hx)]
    exact cut hy
  · intro z hz e
    have := List.all_eq_true.mp h4 z hz
    simp [exKind, e] at this
  · have : tr.take 56 = (tr.take 66).take 56 := by simp [List.take_take]
    rw [this, List.take_append_drop]
    exact cut hz
  · have := (List.getElem?_eq_some_iff.mp hz).1
    simp; omega
  · match cl with
    | 0 => exact h6
    | 1 => exact h7
    | n + 2 => exact holds_zero h5 (by omega)

example : ∃ (tr : List (Item Answer)) (s : St Answer) (a x b y d : _) (t t' : Time), Run exW tr s ∧ tr = a ++ x :: b ++ y :: d ∧
    x.lab = .took 1 0 0 t ∧ y.lab = .took 2 0 1 t' ∧ t' = t ∧ Quiet 0 b := by
  obtain ⟨tr, s, hr, ⟨a, x, b, y, d, t, t', rfl, hx, hy, hno⟩, -⟩ := exPlay_splits
  exact ⟨_, s, a, x, b, y, d, t, t', hr, rfl, hx, hy, C70_shared hr hx hy hno⟩

example : ∃ (a b d : List (Item Answer)) (y : Item Answer) (t : Time), a.length = 56 ∧ y.lab = .took 3 0 2 t ∧
    ∃ b1 u b2, b = b1 ++ u :: b2 ∧ Updated 0 t u ∧ Quiet 0 b2 := by
  obtain ⟨tr, s, hr, -, a, b, y, d, t, rfl, hl, hfree, hy⟩ := exPlay_splits
  exact ⟨a, b, d, y, t, hl, hy, C70_fresh hr hfree hy⟩

end Tricorder.Whole
