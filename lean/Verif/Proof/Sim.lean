import Verif.Proof.Kinds
import Verif.Proof.ListRun2
import Verif.Spec.Json
/-!
# Two programs that take the same steps
-/

namespace Tricorder
open Go Spec

variable {w : World} {α β γ δ : Type}

/-- every result of the program satisfies `P` -/
inductive Rets (P : α → Prop) : Prog α → Prop where
  | ret {a} : P a → Rets P (.ret a)
  | op {c k} : (∀ r, Rets P (k r)) → Rets P (.op c k)

theorem Rets.mono {P Q : α → Prop} {p : Prog α} (h : Rets P p) (hi : ∀ a, P a → Q a) : Rets Q p := by
  induction h with
  | ret h => exact .ret (hi _ h)
  | op _ ih => exact .op ih

theorem Rets.bind {P : α → Prop} {Q : β → Prop} {p : Prog α} {f : α → Prog β} (h : Rets P p)
    (hf : ∀ a, P a → Rets Q (f a)) : Rets Q (p.bind f) := by
  induction h with
  | ret h => exact hf _ h
  | op _ ih => exact .op ih

theorem Rets.any (p : Prog α) : Rets (fun _ => True) p := by
  induction p with
  | ret a => exact .ret trivial
  | op c k ih => exact .op ih

theorem Rets.runI {P : α → Prop} {p : Prog α} (h : Rets P p) {s s' : State} {e : List Ev} {a : α}
    (hr : RunI w p s e s' a) : P a := by
  induction hr with
  | ret a s => cases h with | ret h => exact h
  | env c _ _ ih => exact ih h
  | op _ ih => cases h with | op h => exact ih (h _)

/-- `p` and `q` take the same steps and their results are related by `R`, until they part: then the results of `p`
satisfy `B` and those of `q` satisfy `C`. -/
inductive Sim (R : α → β → Prop) (B : α → Prop) (C : β → Prop) : Prog α → Prog β → Prop where
  | ret {a b} : R a b → Sim R B C (.ret a) (.ret b)
  | op {c k k'} : (∀ r, Sim R B C (k r) (k' r)) → Sim R B C (.op c k) (.op c k')
  | part {p q} : Rets B p → Rets C q → Sim R B C p q

theorem Sim.refl {R : α → α → Prop} {B C : α → Prop} (hR : ∀ a, R a a) (p : Prog α) : Sim R B C p p := by
  induction p with
  | ret a => exact .ret (hR a)
  | op c k ih => exact .op ih

theorem Sim.bind {R : α → β → Prop} {B : α → Prop} {C : β → Prop} {R' : γ → δ → Prop} {B' : γ → Prop} {C' : δ → Prop}
    {p : Prog α} {q : Prog β} {f : α → Prog γ} {g : β → Prog δ} (h : Sim R B C p q)
    (hR : ∀ a b, R a b → Sim R' B' C' (f a) (g b)) (hB : ∀ a, B a → Rets B' (f a)) (hC : ∀ b, C b → Rets C' (g b)) :
    Sim R' B' C' (p.bind f) (q.bind g) := by
  induction h with
  | ret h => exact hR _ _ h
  | op _ ih => exact .op ih
  | part h1 h2 => exact .part (h1.bind hB) (h2.bind hC)

/-- both programs begin with `p` -/
theorem Sim.after {R' : γ → δ → Prop} {B' : γ → Prop} {C' : δ → Prop} (p : Prog α) {f : α → Prog γ} {g : α → Prog δ}
    (h : ∀ a, Sim R' B' C' (f a) (g a)) : Sim R' B' C' (p.bind f) (p.bind g) := by
  induction p with
  | ret a => exact h a
  | op c k ih => exact .op ih

theorem Sim.left {R : α → β → Prop} {B : α → Prop} {C : β → Prop} {p : Prog α} {q : Prog β} (h : Sim R B C p q)
    {s s' : State} {e : List Ev} {a : α} (hr : RunI w p s e s' a) : B a ∨ ∃ b, R a b ∧ RunI w q s e s' b := by
  induction hr generalizing q with
  | ret a s =>
    cases h with
    | ret h => exact Or.inr ⟨_, h, .ret _ _⟩
    | part h1 h2 => exact Or.inl (h1.runI (w := w) (.ret a s))
  | env c hc _ ih =>
    rcases ih h with h | ⟨b, h1, h2⟩
    · exact Or.inl h
    · exact Or.inr ⟨b, h1, .env c hc h2⟩
  | op hk ih =>
    cases h with
    | op h =>
      rcases ih (h _) with h | ⟨b, h1, h2⟩
      · exact Or.inl h
      · exact Or.inr ⟨b, h1, .op h2⟩
    | part h1 h2 => exact Or.inl (h1.runI (.op hk))

theorem Sim.right {R : α → β → Prop} {B : α → Prop} {C : β → Prop} {p : Prog α} {q : Prog β} (h : Sim R B C p q)
    {s s' : State} {e : List Ev} {b : β} (hr : RunI w q s e s' b) : C b ∨ ∃ a, R a b ∧ RunI w p s e s' a := by
  induction hr generalizing p with
  | ret a s =>
    cases h with
    | ret h => exact Or.inr ⟨_, h, .ret _ _⟩
    | part h1 h2 => exact Or.inl (h2.runI (w := w) (.ret a s))
  | env c hc _ ih =>
    rcases ih h with h | ⟨b, h1, h2⟩
    · exact Or.inl h
    · exact Or.inr ⟨b, h1, .env c hc h2⟩
  | op hk ih =>
    cases h with
    | op h =>
      rcases ih (h _) with h | ⟨b, h1, h2⟩
      · exact Or.inl h
      · exact Or.inr ⟨b, h1, .op h2⟩
    | part h1 h2 => exact Or.inl (h2.runI (.op hk))

/-! ### listings in JSON and in RPC form -/

/-- some metric cannot be converted -/
def Stuck (ms0 : List Metric) : Prop := ∃ x ∈ ms0, x.convertToJson = none

/-- the results of the JSON and of the RPC listing -/
def SameRes (a b : Session × List Metric × Status) : Prop := a.1 = b.1 ∧ Converted₂ a.2.1 b.2.1 ∧ a.2.2 = b.2.2

def Broke (a : Session × List Metric × Status) : Prop := a.2.2 = .panic

def StuckRes (b : Session × List Metric × Status) : Prop := Stuck b.2.1

theorem initMetricIn_sim (mv : MetricView) (s : Session) :
    Sim (fun (a b : Session × Out Metric) => a.1 = b.1 ∧ a.2 = encodeOut true b.2) (fun _ => False) (fun _ => False)
      (initMetricIn true mv s) (initMetricIn false mv s) := by
  have key : ∀ o : Out Metric, encodeOut false o = o := by
    rintro (m | _) <;> rfl
  unfold initMetricIn
  split
  · exact .after _ fun a => .ret ⟨rfl, by rw [key]⟩
  · split
    · exact .after _ fun a => .ret ⟨rfl, by rw [key]⟩
    · exact .after _ fun a => .ret ⟨rfl, by rw [key]⟩

theorem msgColl_sim (m : ℕ) (s : Session) {a b : List Metric} (h : Converted₂ a b) :
    Sim SameRes Broke StuckRes (msgColl true m s a) (msgColl false m s b) := by
  refine .op fun r => ?_
  cases r with
  | none => exact .ret ⟨rfl, h, rfl⟩
  | some mv =>
    refine (initMetricIn_sim mv s).bind ?_ (fun _ h => h.elim) (fun _ h => h.elim)
    rintro ⟨s1, o1⟩ ⟨s2, o2⟩ ⟨h1, h2⟩
    dsimp only at h1 h2
    subst h1 h2
    cases o2 with
    | panic => exact .ret ⟨rfl, h, rfl⟩
    | ok x =>
      cases hx : x.convertToJson with
      | none =>
        rw [show encodeOut true (.ok x) = .panic by simp [encodeOut, encodeMetric, hx]]
        exact .part (.ret rfl) (.ret ⟨x, by simp, hx⟩)
      | some y =>
        rw [show encodeOut true (.ok x) = .ok y by simp [encodeOut, encodeMetric, hx]]
        exact .ret ⟨rfl, List.rel_append (R := fun j r : Metric => r.convertToJson = some j) h (.cons hx .nil), rfl⟩

theorem msgColl_stuck (json : Bool) (m : ℕ) (s : Session) {b : List Metric} (h : Stuck b) :
    Rets StuckRes (msgColl json m s b) := by
  refine .op fun r => ?_
  cases r with
  | none => exact .ret h
  | some mv =>
    refine (Rets.any _).bind ?_
    rintro ⟨s1, o1⟩ -
    obtain ⟨x, h1, h2⟩ := h
    cases o1 with
    | panic => exact .ret ⟨x, h1, h2⟩
    | ok y => exact .ret ⟨x, by simp [h1], h2⟩

theorem collect_sim (m : ℕ) (s : Session) {a b : List Metric} (h : Converted₂ a b) :
    Sim SameRes Broke StuckRes (collect (msgColl true) m s a) (collect (msgColl false) m s b) := by
  refine .op fun r => ?_
  cases r with
  | none => exact .ret ⟨rfl, h, rfl⟩
  | some mv =>
    refine .after _ ?_
    rintro ⟨s1, (_ | _) | _⟩
    · exact msgColl_sim m _ h
    · exact .ret ⟨rfl, h, rfl⟩
    · exact .ret ⟨rfl, h, rfl⟩

theorem collect_stuck (json : Bool) (m : ℕ) (s : Session) {b : List Metric} (h : Stuck b) :
    Rets StuckRes (collect (msgColl json) m s b) := by
  refine .op fun r => ?_
  cases r with
  | none => exact .ret h
  | some mv =>
    refine (Rets.any _).bind ?_
    rintro ⟨s1, (_ | _) | _⟩ -
    · exact msgColl_stuck json m _ h
    · exact .ret h
    · exact .ret h

theorem forEntries_stuck {json : Bool} {sub : ℕ → Session → List Metric → Prog (Session × List Metric × Status)}
    (hs : ∀ d s b, Stuck b → Rets StuckRes (sub d s b)) (l : List (ℕ × Entry)) (s : Session) {b : List Metric}
    (h : Stuck b) : Rets StuckRes (forEntries sub (msgColl json) l s b) := by
  induction l generalizing s b with
  | nil => exact .ret h
  | cons x l ih =>
    obtain ⟨i, en⟩ := x
    unfold forEntries
    refine Rets.bind (P := StuckRes) ?_ ?_
    · split
      · exact hs _ _ _ h
      · exact collect_stuck json _ _ h
      · exact .ret h
    · rintro ⟨s1, b1, st⟩ h1
      cases st with
      | ok => exact ih s1 h1
      | err e => exact .ret h1
      | panic => exact .ret h1
      | timeout => exact .ret h1

theorem forEntries_sim {sub sub' : ℕ → Session → List Metric → Prog (Session × List Metric × Status)}
    (hs : ∀ d s a b, Converted₂ a b → Sim SameRes Broke StuckRes (sub d s a) (sub' d s b))
    (hs' : ∀ d s b, Stuck b → Rets StuckRes (sub' d s b)) (l : List (ℕ × Entry)) (s : Session) {a b : List Metric}
    (h : Converted₂ a b) :
    Sim SameRes Broke StuckRes (forEntries sub (msgColl true) l s a) (forEntries sub' (msgColl false) l s b) := by
  induction l generalizing s a b with
  | nil => exact .ret ⟨rfl, h, rfl⟩
  | cons x l ih =>
    obtain ⟨i, en⟩ := x
    unfold forEntries
    refine Sim.bind (R := SameRes) (B := Broke) (C := StuckRes) ?_ ?_ ?_ ?_
    · split
      · exact hs _ _ _ _ h
      · exact collect_sim _ _ h
      · exact .ret ⟨rfl, h, rfl⟩
    · rintro ⟨s1, a1, st⟩ ⟨s2, b1, st'⟩ ⟨h1, h2, h3⟩
      dsimp only at h1 h2 h3
      subst h1 h3
      cases st with
      | ok => exact ih s1 h2
      | err e => exact .ret ⟨rfl, h2, rfl⟩
      | panic => exact .ret ⟨rfl, h2, rfl⟩
      | timeout => exact .ret ⟨rfl, h2, rfl⟩
    · rintro ⟨s1, a1, st⟩ h1
      cases (show st = .panic from h1)
      exact .ret rfl
    · rintro ⟨s1, b1, st⟩ h1
      cases st with
      | ok => exact forEntries_stuck hs' l s1 h1
      | err e => exact .ret h1
      | panic => exact .ret h1
      | timeout => exact .ret h1

theorem traverse_stuck (json : Bool) (fuel : ℕ) : ∀ (d : ℕ) (s : Session) (b : List Metric), Stuck b →
    Rets StuckRes (traverse (msgColl json) fuel d s b) := by
  induction fuel with
  | zero => intro d s b h; exact .ret h
  | succ fuel ih => intro d s b h; exact .op fun l => forEntries_stuck ih _ _ h

theorem traverse_sim (fuel : ℕ) : ∀ (d : ℕ) (s : Session) (a b : List Metric), Converted₂ a b →
    Sim SameRes Broke StuckRes (traverse (msgColl true) fuel d s a) (traverse (msgColl false) fuel d s b) := by
  induction fuel with
  | zero => intro d s a b h; exact .ret ⟨rfl, h, rfl⟩
  | succ fuel ih => intro d s a b h; exact .op fun l => forEntries_sim ih (traverse_stuck false fuel) _ _ h

/-- the results of whole listings -/
def SameList (a b : List Metric × Status) : Prop := Converted₂ a.1 b.1 ∧ a.2 = b.2

theorem withSession_sim {p q : Session → Prog (Session × List Metric × Status)}
    (h : Sim SameRes Broke StuckRes (p []) (q [])) :
    Sim SameList (fun a => a.2 = .panic) (fun b => Stuck b.1) (withSession p) (withSession q) := by
  refine h.bind ?_ ?_ ?_
  · rintro ⟨s1, a1, st⟩ ⟨s2, b1, st'⟩ ⟨h1, h2, h3⟩
    dsimp only at h1
    subst h1
    exact .after _ fun _ => .ret ⟨h2, h3⟩
  · rintro ⟨s1, a1, st⟩ h1
    exact (Rets.any _).bind fun _ _ => .ret h1
  · rintro ⟨s1, a1, st⟩ h1
    exact (Rets.any _).bind fun _ _ => .ret h1

theorem listMetrics_sim (fuel : ℕ) (path : Str) :
    Sim SameList (fun a => a.2 = .panic) (fun b => Stuck b.1) (listMetrics true fuel path) (listMetrics false fuel path) := by
  refine .after _ ?_
  rintro ⟨_ | d, _ | m⟩
  · exact .ret ⟨.nil, rfl⟩
  · exact withSession_sim (collect_sim m [] .nil)
  · exact withSession_sim (traverse_sim fuel d [] [] [] .nil)
  · exact withSession_sim (collect_sim m [] .nil)

theorem getMetricMsg_sim (path : Str) :
    Sim (fun a b => a = b.map (encodeOut true)) (fun _ => False) (fun _ => False) (getMetricMsg true path)
      (getMetricMsg false path) := by
  refine .after _ ?_
  rintro (_ | m)
  · exact .ret rfl
  · refine .op fun r => ?_
    cases r with
    | none => exact .ret rfl
    | some mv =>
      refine Sim.bind (R := fun a b => a = encodeOut true b) (B := fun _ => False) (C := fun _ => False) ?_ ?_
        (fun _ h => h.elim) (fun _ h => h.elim)
      · refine (initMetricIn_sim mv []).bind ?_ (fun _ h => h.elim) (fun _ h => h.elim)
        rintro ⟨s1, o1⟩ ⟨s2, o2⟩ ⟨h1, h2⟩
        dsimp only at h1
        subst h1
        exact .after _ fun _ => .ret h2
      · rintro a b rfl
        exact .ret rfl

/-! ### which metrics cannot be converted -/

theorem interface_time {d : Dyn} {p : Bool} {x : Val} (h : valueToInterface d .goTime p = some x) :
    ∃ t, x = .scalar none (.time t) := by
  unfold valueToInterface at h
  simp only [reduceCtorEq, false_and, if_false, if_true] at h
  obtain ⟨t, -, rfl⟩ := Option.map_eq_some_iff.mp h
  exact ⟨t, rfl⟩

theorem interface_duration {d : Dyn} {p : Bool} {x : Val} (h : valueToInterface d .goDuration p = some x) :
    ∃ t, x = .scalar none (.duration t) := by
  unfold valueToInterface at h
  simp only [reduceCtorEq, false_and, if_false, if_true] at h
  obtain ⟨t, -, rfl⟩ := Option.map_eq_some_iff.mp h
  exact ⟨t, rfl⟩

theorem convert_none {x : Metric} : x.convertToJson = none ↔ asJson x.value x.kind x.subType x.unit = none := by
  unfold Metric.convertToJson
  cases asJson x.value x.kind x.subType x.unit with
  | none => simp
  | some r => simp

theorem listView_elem {s : State} (h : ListsTyped s) {i : ℕ} {lv : ListView} (hv : listView s i = some lv) :
    ∃ n ty xs, lv.val = .slice n ty xs ∧ elemType (.scalar ty) = some lv.subType := by
  unfold listView at hv
  split at hv
  · cases hv
  · rename_i l hl
    obtain ⟨cell, h1, h2, -⟩ := h i l hl
    rw [h1] at hv
    cases hv
    unfold Cell.val
    dsimp only
    split
    · rename_i t ht
      rw [ht] at h2
      exact ⟨_, _, _, rfl, h2⟩
    · rename_i hn
      unfold elemType at h2
      split at h2 <;> first | (rename_i hh; exact absurd hh (hn _)) | cases h2

theorem elemType_time {ty : ScalarTy} (h : elemType (.scalar ty) = some .goTime) : ty = ⟨none, .time⟩ := by
  unfold elemType at h
  split at h <;> first | cases h | skip
  rename_i hh
  cases hh
  rfl

theorem elemType_duration {ty : ScalarTy} (h : elemType (.scalar ty) = some .goDuration) : ty = ⟨none, .duration⟩ := by
  unfold elemType at h
  split at h <;> first | cases h | skip
  rename_i hh
  cases hh
  rfl

/-- the only reported metrics that `ConvertToJson` rejects -/
theorem convert_fails {S : State → Prop} (hl : ∀ σ, S σ → ListsTyped σ) {mv : MetricView} {y : Metric}
    (hd : Describes y mv) (ht : PreTells w S mv y) : y.convertToJson = none ↔ NamedTimes y := by
  rw [convert_none]
  obtain ⟨-, -, -, hk, -, -⟩ := hd
  cases ht with
  | dist h1 _ _ _ _ h2 =>
    rw [← hk] at h1
    constructor
    · intro h; rw [h1] at h; simp [asJson] at h
    · rintro ⟨h3, -⟩; rw [h1] at h3; cases h3
  | scalar h1 h2 _ _ _ h3 =>
    rw [← hk] at h1 h2 h3
    constructor
    · intro h
      exfalso
      unfold asJson at h
      split at h
      · rename_i e
        rw [e] at h3
        obtain ⟨t, ht⟩ := interface_duration h3
        rw [ht] at h
        cases h
      · rename_i e
        rw [e] at h3
        obtain ⟨t, ht⟩ := interface_time h3
        rw [ht] at h
        cases h
      · rename_i e; exact h2 e
      · cases h
    · rintro ⟨h4, -⟩; exact absurd h4 h2
  | list h1 _ h3 h4 h5 _ _ h8 =>
    rw [← hk] at h1
    obtain ⟨n, ty, xs, e1, e2⟩ := listView_elem (hl _ h3) h4
    rw [← h8] at e2
    rw [e1] at h5
    unfold NamedTimes
    rw [h1, h5]
    unfold asJson
    dsimp only
    split
    · rename_i e
      rw [e] at e2
      cases elemType_duration e2
      cases n <;> simp [e, NamedVal]
    · rename_i e
      rw [e] at e2
      cases elemType_time e2
      cases n <;> simp [e, NamedVal]
    · rename_i e3 e4
      refine ⟨fun h => (nomatch h), ?_⟩
      rintro ⟨-, h | h, -⟩
      · exact (e4 h).elim
      · exact (e3 h).elim

theorem getMetricMsg_run {json : Bool} {path : Str} {s s' : State} {h : List Ev} {x : Metric}
    (hr : RunI w (getMetricMsg json path) s h s' (some (.ok x))) :
    ∃ m mv y, (∃ σ ∈ statesOf h s', metricView σ.tree m = some mv) ∧ encodeMetric json y = .ok x ∧ Describes y mv ∧
      PreTells w (· ∈ statesOf h s') mv y := by
  obtain ⟨h1, s1, a, h2, rfl, r1, r2⟩ := RunI_bind hr
  cases a with
  | none => cases (RunI_ret r2).1
  | some m =>
    obtain ⟨h3, s3, h4, rfl, r3, r4⟩ := RunI_op r2
    cases hm : metricView s3.tree m with
    | none =>
      rw [show (exec w (.metric m) s3).2 = none from hm] at r4
      cases (RunI_ret r4).1
    | some mv =>
      rw [show (exec w (.metric m) s3).2 = some mv from hm] at r4
      obtain ⟨h5, s5, b, h6, rfl, r5, r6⟩ := RunI_bind r4
      have hb := (RunI_ret r6).1
      cases hb
      obtain ⟨h7, s7, c, h8, rfl, r7, r8⟩ := RunI_bind r5
      obtain ⟨h9, s9, -, h10, rfl, -, r10⟩ := RunI_bind r8
      have hc := (RunI_ret r10).1
      obtain ⟨c1, c2⟩ := c
      subst hc
      obtain ⟨y, hy, hd, ht, -⟩ := (initMetricIn_run r7).2 x rfl
      have hσ : s3 ∈ statesOf (h1 ++ (h3 ++ ⟨true, .metric m, s3⟩ :: (h7 ++ (h9 ++ h10) ++ h6))) s' := by
        simp [statesOf]
      refine ⟨m, mv, y, ⟨s3, hσ, hm⟩, hy, hd, ht.mono ?_⟩
      rintro σ ⟨e, he, rfl⟩
      exact List.mem_append_left _ (List.mem_map.mpr ⟨e, by simp [he], rfl⟩)

theorem list_stuck {s s' : State} (hs : Reachable w s) {fuel : ℕ} {path : Str} {h : List Ev} {ms : List Metric} {st : Status}
    (hr : RunI w (listMetrics false fuel path) s h s' (ms, st)) : ∀ x ∈ ms, x.convertToJson = none ↔ NamedTimes x := by
  obtain ⟨⟨U, sess, rfl, -, hU, -⟩, -⟩ := listMetrics_run hs hr
  have hre := (RunI_reads (listMetrics_reads _ _ _) hr hs).1
  intro x hx
  obtain ⟨u, hu, rfl⟩ := List.mem_map.mp hx
  obtain ⟨-, -, -, mv, y, ⟨σ, hσ, hv⟩, hy, hd, ht, -⟩ := hU u hu
  cases hy
  exact convert_fails (fun σ hσ => reachable_typed (hre σ hσ)) hd ht

theorem get_stuck {s s' : State} (hs : Reachable w s) {path : Str} {h : List Ev} {x : Metric}
    (hr : RunI w (getMetricMsg false path) s h s' (some (.ok x))) : x.convertToJson = none ↔ NamedTimes x := by
  have hre := (RunI_reads (getMetricMsg_reads _ _) hr hs).1
  obtain ⟨m, mv, y, -, hy, hd, ht⟩ := getMetricMsg_run hr
  cases hy
  exact convert_fails (fun σ hσ => reachable_typed (hre σ hσ)) hd ht

end Tricorder
