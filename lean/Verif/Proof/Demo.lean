import Verif.Proof.RegMany
import Verif.Proof.Handle
import Verif.Proof.DistHist
import Verif.Model.Demo
/-!
# Lemmas about the demo program
-/

namespace Tricorder
open Go Spec Tree

variable {α : Type} {w : World} {s s' : State}

/-! ### registering and directories -/

namespace Demo

theorem registerOrDie_run {d : ℕ} {rs : List Reg} (hg : ∀ r ∈ rs, r.group = 0)
    (hok : ((registerMany w.fnTy d rs).run w s).2 = rs.map fun _ => .ok (.ok ()))
    (k : Prog (Out (Except RegErr α))) :
    (registerOrDie w.fnTy d rs k).run w s = k.run w ((registerMany w.fnTy d rs).run w s).1 := by
  induction rs generalizing s with
  | nil => rfl
  | cons r rs ih =>
    have hr : (registerMany w.fnTy d (r :: rs)).run w s =
        (((registerMany w.fnTy d rs).run w
          ((apiRegisterMetric w.fnTy d r.path r.spec (some r.group) r.unit r.description).run w s).1).1,
         ((apiRegisterMetric w.fnTy d r.path r.spec (some r.group) r.unit r.description).run w s).2 ::
         ((registerMany w.fnTy d rs).run w
          ((apiRegisterMetric w.fnTy d r.path r.spec (some r.group) r.unit r.description).run w s).1).2) := by
      rw [registerMany, run_bind, run_bind]
      rfl
    rw [hr] at hok ⊢
    simp only [List.map_cons, List.cons.injEq] at hok
    obtain ⟨h1, h2⟩ := hok
    rw [registerOrDie, orDie, run_bind]
    have e : Api.dirRegisterMetric w.fnTy d r.path r.spec r.unit r.description =
        apiRegisterMetric w.fnTy d r.path r.spec (some r.group) r.unit r.description := by
      rw [hg r (by simp)]; rfl
    rw [e, h1]
    exact ih (fun x hx => hg x (by simp [hx])) h2

end Demo

/-- with a longer path -/
def Reg.under (pre : Str) (r : Reg) : Reg := { r with path := pre ++ 47 :: r.path }

/-- registering below a directory is registering with the whole path -/
theorem registerMany_under {d0 d : ℕ} {a : List Str} (hs : Reachable w s) (ha : Reaches s.tree d0 a (.dir d))
    (hd : d < s.tree.dirs.length) {pre : Str}
    {rs : List Reg} (hp : ∀ r ∈ rs, newPathSpec (r.under pre).path = a ++ newPathSpec r.path)
    (hne : ∀ r ∈ rs, newPathSpec r.path ≠ []) :
    (registerMany w.fnTy d rs).run w s = (registerMany w.fnTy d0 (rs.map (Reg.under pre))).run w s := by
  induction rs generalizing s with
  | nil => rfl
  | cons r rs ih =>
    have h1 := (registerMetric_like (w := w) (reachable_isTree hs) ha (hne r (by simp)) w.fnTy r.spec (some r.group) r.unit
      r.description).alone
    have h2 : (apiRegisterMetric w.fnTy d0 (r.under pre).path r.spec (some r.group) r.unit r.description).run w s =
        (apiRegisterMetric w.fnTy d r.path r.spec (some r.group) r.unit r.description).run w s := by
      unfold apiRegisterMetric
      rw [hp r (by simp)]
      exact h1
    have hre := register_reachable hs hd r.path r.spec (some r.group) r.unit r.description
    have hm : (∀ d0 q n, Reaches s.tree d0 q n → Reaches ((apiRegisterMetric w.fnTy d r.path r.spec (some r.group) r.unit
        r.description).run w s).1.tree d0 q n) ∧ Ext s.tree ((apiRegisterMetric w.fnTy d r.path r.spec (some r.group) r.unit
        r.description).run w s).1.tree := by
      obtain ⟨a1, a2, a3, -⟩ := registerMetric_run (w := w) (reachable_isTree hs) hd (p := newPathSpec r.path)
        (fun _ hx => newPathSpec_comp hx) (hne r (by simp)) r.spec (some r.group) r.unit r.description
      exact ⟨a3, a2⟩
    rw [List.map_cons, registerMany, registerMany, run_bind (apiRegisterMetric w.fnTy d _ _ _ _ _),
      run_bind (apiRegisterMetric w.fnTy d0 _ _ _ _ _)]
    rw [show (Reg.under pre r).spec = r.spec from rfl, show (Reg.under pre r).group = r.group from rfl,
      show (Reg.under pre r).unit = r.unit from rfl, show (Reg.under pre r).description = r.description from rfl, h2]
    rw [run_bind, run_bind, ih hre (hm.1 _ _ _ ha) (lt_of_lt_of_le hd hm.2.dirs) (fun x hx => hp x (by simp [hx]))
      (fun x hx => hne x (by simp [hx]))]

/-- registering a directory with no metric on the way -/
theorem directory_step (ht : IsTree s.tree) {d : ℕ} (hd : d < s.tree.dirs.length) {p : List Str}
    (hg : ∀ x ∈ p, GoodName x) (hno : ∀ u m, u <+: p → ¬ Reaches s.tree d u (.metric m)) :
    let r := (registerDirectory d p).run w s
    (∃ d', r.2 = .ok d' ∧ Reaches r.1.tree d p (.dir d')) ∧ r.1 = { s with tree := r.1.tree } ∧ IsTree r.1.tree ∧
    Ext s.tree r.1.tree ∧ (∀ d0 q n, Reaches s.tree d0 q n → Reaches r.1.tree d0 q n) ∧
    (∀ c, ¬ c <+: p → Clear s.tree d c → Clear r.1.tree d c) ∧
    (∀ q m, Reaches r.1.tree d q (.metric m) → Reaches s.tree d q (.metric m)) := by
  obtain ⟨a1, a2, a3, a4, a5, hcase⟩ := registerDirectory_run (w := w) ht hd hg
  intro r
  rcases hcase with ⟨u, m, h1, h2, -⟩ | ⟨d', h1, h2, h3⟩
  · exact absurd h2 (hno u m h1)
  have hdl : d < r.1.tree.dirs.length := lt_of_lt_of_le hd a3.dirs
  -- below `d`, what is new is on the path, and a directory
  have hnew : ∀ q n, Reaches r.1.tree d q n → Reaches s.tree d q n ∨ q <+: p ∧ ∃ x, n = .dir x := by
    intro q n hq
    rcases h3 d q n hd hq with h | ⟨u, u1, u2, u3, u4⟩
    · exact Or.inl h
    · right
      have hqu : q = u := by
        cases n with
        | dir x => exact reaches_path_unique a2 hq u3 hdl
        | metric m => exact reaches_metric_unique a2 hq u3 hdl
      subst hqu
      refine ⟨u2, ?_⟩
      cases n with
      | dir x => exact ⟨x, rfl⟩
      | metric m =>
        obtain ⟨t, rfl⟩ := u2
        by_cases h0 : t = []
        · have h2' : Reaches r.1.tree d q (.dir d') := by
            have h2'' : Reaches r.1.tree d (q ++ t) (.dir d') := h2
            rw [h0, List.append_nil] at h2''
            exact h2''
          have := reaches_unique a2 hq h2'
          cases this
        · obtain ⟨x, hx, -⟩ := reaches_split h2 h0
          have := reaches_unique a2 hq hx
          cases this
  refine ⟨⟨d', h1, h2⟩, a1, a2, a3, a4, ?_, ?_⟩
  · rintro c hc ⟨hc1, hc2⟩
    refine ⟨fun u m hu hne hr => ?_, fun n hr => ?_⟩
    · rcases hnew u _ hr with h | ⟨_, x, hx⟩
      · exact hc1 u m hu hne h
      · cases hx
    · rcases hnew c _ hr with h | ⟨h, _⟩
      · exact hc2 n h
      · exact hc h
  · intro q m hr
    rcases hnew q _ hr with h | ⟨_, x, hx⟩
    · exact h
    · cases hx

theorem registerDirectory_reachable (hs : Reachable w s) {d : ℕ} (hd : d < s.tree.dirs.length) (path : Str) :
    Reachable w ((registerDirectory d (newPathSpec path)).run w s).1 := by
  obtain ⟨h, h1, h2⟩ := RunI_of_run (w := w) (registerDirectory d (newPathSpec path)) s
  exact (RunI_reachable h1 hs (registerDirectory_safe (fun _ hx => newPathSpec_comp hx) hs hd h1).1).2

/-! ### the data points -/

/-- other time stamp, group and unit -/
def Dist.dress (d : Dist Fl) (t : Time) (g : ℕ) (u : MUnit) (b : Bool) : Dist Fl :=
  { d with timeStamp := t, groupId := g, unit := u, unitSet := b }

theorem add_dress {d : Dist Fl} (hs : Shape d) (x : Fl) (t ts : Time) (g : ℕ) (u : MUnit) (b : Bool) :
    (d.dress t g u b).add x ts = ((d.add x Time.zero).1.dress ts g u b, none) := by
  obtain ⟨c, hc, h⟩ := add_eq hs x Time.zero
  have hs' : Shape (d.dress t g u b) := ⟨hs.len, hs.ne⟩
  obtain ⟨c', hc', h'⟩ := add_eq hs' x ts
  have : c = c' := Option.some.inj (hc.symm.trans hc')
  subst this
  rw [h, h']
  rfl

theorem add_shape {d : Dist Fl} (hs : Shape d) (x : Fl) (ts : Time) : Shape (d.add x ts).1 := by
  obtain ⟨c, hc, h⟩ := add_eq hs x ts
  rw [h]
  exact ⟨by simp [Dist.added, hs.len], hs.ne⟩

namespace Demo

/-- the distribution after the values 0, …, n - 1 -/
def filled (pieces : List (Piece Fl)) : ℕ → Dist Fl
  | 0 => newDist pieces false Time.zero 0
  | n + 1 => ((filled pieces n).add (Fl.ofInt b64 (n : ℕ)) Time.zero).1

theorem filled_shape {pieces : List (Piece Fl)} (hp : pieces ≠ []) (n : ℕ) : Shape (filled pieces n) := by
  induction n with
  | zero => exact ⟨by simp [filled, newDist], hp⟩
  | succ n ih => exact add_shape ih _ _

/-- the number as a float64 in the loop -/
theorem addLoop_run {pieces : List (Piece Fl)} (hp : pieces ≠ []) {i g : ℕ} {ts : ℕ → Time} (n : ℕ) (hn : n ≤ 500)
    {t : Time} {u : MUnit}
    (hD : s.dists[i]? = some ((filled pieces (500 - n)).dress t g u true)) (hs : Reachable w s) :
    ∃ t', (addLoop i ts n).run w s =
      ({ s with dists := s.dists.set i ((filled pieces 500).dress t' g u true) }, true) ∧ (n ≠ 0 → t' = ts 499) ∧
      Reachable w { s with dists := s.dists.set i ((filled pieces 500).dress t' g u true) } := by
  induction n generalizing s t with
  | zero =>
    have : s.dists.set i ((filled pieces 500).dress t g u true) = s.dists := by
      have hi := (List.getElem?_eq_some_iff.mp hD)
      obtain ⟨h1, h2⟩ := hi
      simp only [Nat.sub_zero] at h2
      rw [← h2]
      exact List.set_getElem_self h1
    refine ⟨t, ?_, by simp, ?_⟩
    · rw [this]; rfl
    · rw [this]; exact hs
  | succ n ih =>
    have hi : i < s.dists.length := (List.getElem?_eq_some_iff.mp hD).1
    have e1 : 500 - n = (500 - (n + 1)) + 1 := by omega
    have e2 : 499 - n = 500 - (n + 1) := by omega
    have hadd : (((filled pieces (500 - (n + 1))).dress t g u true).call
        (.add (.scalar none (.float64 (Fl.ofInt b64 (499 - n : ℕ)))) (ts (499 - n)))) =
        ((filled pieces (500 - n)).dress (ts (499 - n)) g u true, none) := by
      have h1 : ((filled pieces (500 - (n + 1))).dress t g u true).addWithTs
          (.scalar none (.float64 (Fl.ofInt b64 (499 - n : ℕ)))) (ts (499 - n)) =
          ((filled pieces (500 - (n + 1))).dress t g u true).add (Fl.ofInt b64 (499 - n : ℕ)) (ts (499 - n)) := rfl
      rw [Dist.call, h1, add_dress (filled_shape hp _), e1, e2]
      rfl
    have hex : exec w (.distCall i (.add (.scalar none (.float64 (Fl.ofInt b64 (499 - n : ℕ)))) (ts (499 - n)))) s =
        ({ s with dists := s.dists.set i ((filled pieces (500 - n)).dress (ts (499 - n)) g u true) }, none) := by
      simp only [exec]
      rw [hD]
      simp only
      rw [hadd]
      rfl
    have hre := Reachable.step (w := w)
      (.distCall i (.add (.scalar none (.float64 (Fl.ofInt b64 (499 - n : ℕ)))) (ts (499 - n)))) hs trivial
    rw [hex] at hre
    obtain ⟨t', h1, h2, h3⟩ := ih (by omega)
      (s := { s with dists := s.dists.set i ((filled pieces (500 - n)).dress (ts (499 - n)) g u true) })
      (t := ts (499 - n)) (by simp [List.getElem?_set_self hi]) hre
    refine ⟨t', ?_, ?_, ?_⟩
    · rw [addLoop, Prog.run, hex]
      simp only
      rw [h1]
      simp
    · intro _
      by_cases h0 : n = 0
      · subst h0
        have h4 : (addLoop i ts 0).run w { s with dists := s.dists.set i ((filled pieces (500 - 0)).dress (ts (499 - 0)) g u true) } =
          ({ s with dists := s.dists.set i ((filled pieces (500 - 0)).dress (ts (499 - 0)) g u true) }, true) := rfl
        rw [h4] at h1
        have h5 := congrArg (fun x => x.1.dists[i]?) h1
        simp [List.getElem?_set_self hi] at h5
        have h6 := congrArg Dist.timeStamp h5
        exact h6.symm
      · exact h2 h0
    · simpa using h3

end Demo

end Tricorder
