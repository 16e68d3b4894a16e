import Verif.Spec.Again
import Verif.Props.Whole
import Verif.Props.Poll
/-!
# Asking again for metrics of a group (C93)
-/

namespace Tricorder.Whole
open Go Spec

variable {w : World} {json : Bool}

theorem answered_update {tr : List (Item Answer)} {s : St Answer} (hr : Run w tr s) {c : ℕ} {x : Item Answer} (hx : x ∈ tr)
    {ms : List Metric} (h : AnsweredWith json c x s ms) : ∃ V, List.Forall₂ (Reports c tr json) V ms ∧
      ∀ r, (∃ v ∈ V, OfGroup r v) → OneUpdate w c tr r V := by
  cases h with
  | listing h1 hd => exact C70_listing hr ⟨x, hx, h1⟩ hd
  | single h1 hd hm =>
    subst hm
    obtain ⟨v, h2, h3⟩ := C70_single hr ⟨x, hx, h1⟩ hd
    refine ⟨[v], .cons h2 .nil, fun r ⟨v', hv', hg⟩ => ?_⟩
    obtain rfl := List.mem_singleton.mp hv'
    exact h3 r hg.1 hg.2

theorem AnsweredWith.spawned {c : ℕ} {x : Item Answer} {s : St Answer} {ms : List Metric} (h : AnsweredWith json c x s ms) :
    ∃ p, x.lab = .spawn c p := by
  cases h with
  | listing h1 => exact ⟨_, h1⟩
  | single h1 => exact ⟨_, h1⟩

/-- before a goroutine is started it does nothing -/
theorem spawn_first {e d : List (Item Answer)} {y : Item Answer} {s : St Answer} (hr : Run w (e ++ y :: d) s) {c : ℕ} {p : Prog Answer}
    (hy : y.lab = .spawn c p) : ∀ it ∈ e, it.lab.who ≠ some c := by
  intro it hit hw
  rw [List.append_cons] at hr
  obtain ⟨s0, h1, -⟩ := hr.split
  obtain ⟨s1, h2, h3⟩ := h1.snoc_inv
  have hlt := h2.who_lt it hit c hw
  cases h3 <;> simp at hy
  omega

/-- the updates that two requests see are in order -/
theorem updates_order {r c : ℕ} {e d P1 R1 P2 B2 b1 b2 : List (Item Answer)} {y u1 u2 rd : Item Answer} {t1 : Time}
    (hfirst : ∀ it ∈ e, it.lab.who ≠ some c) (h1 : e ++ y :: d = P1 ++ u1 :: R1) (hu1 : Updated r t1 u1) (hin : P1 ++ [u1] <+: e)
    (h2 : e ++ y :: d = P2 ++ u2 :: B2) (hb : B2 = b1 ++ rd :: b2)
    (hq : Quiet r b1) (ht : ∃ x ∈ b1, ∃ cl t, x.lab = .took c r cl t) :
    (∃ q, P2 = P1 ++ u1 :: q) ∨ P1 = P2 ∧ u1 = u2 ∧ R1 = B2 := by
  have h := h1.symm.trans h2
  rcases List.append_eq_append_iff.mp h with ⟨as, e1, e2⟩ | ⟨as, e1, e2⟩
  · cases as with
    | nil =>
      simp only [List.nil_append, List.cons.injEq] at e2
      exact .inr ⟨by simpa using e1.symm, e2.1, e2.2⟩
    | cons z as =>
      simp only [List.cons_append, List.cons.injEq] at e2
      exact .inl ⟨as, by rw [e1, e2.1]⟩
  · cases as with
    | nil =>
      simp only [List.nil_append, List.cons.injEq] at e2
      exact .inr ⟨by simpa using e1, e2.1.symm, e2.2.symm⟩
    | cons z as =>
      exfalso
      simp only [List.cons_append, List.cons.injEq] at e2
      have hu : u1 ∉ b1 := fun hm => by
        obtain ⟨f, hf⟩ := hu1
        have := (hq u1 hm).2 _ hf
        simp [Group.isUpdate] at this
      obtain ⟨x, hx, cl, t, hl⟩ := ht
      have e3 : b1 ++ rd :: b2 = as ++ u1 :: R1 := by rw [← hb]; exact e2.2
      have hxa : x ∈ as := by
        rcases List.append_eq_append_iff.mp e3 with ⟨k, f1, f2⟩ | ⟨k, f1, f2⟩
        · rw [f1]; exact List.mem_append_left _ hx
        · cases k with
          | nil => simp at f1; rw [← f1]; exact hx
          | cons z' k =>
            simp only [List.cons_append, List.cons.injEq] at f2
            exact absurd (by rw [f1, f2.1]; simp) hu
      refine hfirst x (hin.subset ?_) (by rw [hl]; rfl)
      rw [e1]
      simp [hxa]

/-- **C93** Two requests, the second one made after the first one was answered, while other goroutines, other requests and the update
functions do anything.  The scalars of a group in the second answer come from a later call of its update function than those in
the first answer, or from the same call; in the latter case, if only the update function changes a metric, it has the same value
in both answers. -/
theorem C93_in_order {a b c d : List (Item Answer)} {x y : Item Answer} {s1 s2 : St Answer} {k1 k2 : ℕ} {ms ns : List Metric}
    (hr1 : Run w (a ++ x :: b) s1) (hr2 : Run w (a ++ x :: b ++ c ++ y :: d) s2)
    (h1 : AnsweredWith json k1 x s1 ms) (h2 : AnsweredWith json k2 y s2 ns) :
    ∃ V V', List.Forall₂ (Reports k1 (a ++ x :: b) json) V ms ∧
      List.Forall₂ (Reports k2 (a ++ x :: b ++ c ++ y :: d) json) V' ns ∧
      ∀ r, (∃ v ∈ V, OfGroup r v) → (∃ v ∈ V', OfGroup r v) → ∃ t t', InOrder w (a ++ x :: b ++ c ++ y :: d) r V V' t t' := by
  obtain ⟨V, f1, g1⟩ := answered_update hr1 (by simp) h1
  obtain ⟨V', f2, g2⟩ := answered_update hr2 (by simp) h2
  refine ⟨V, V', f1, f2, fun r hv hv' => ?_⟩
  obtain ⟨P1, u1, B1, t, e1, hu1, m1⟩ := g1 r hv
  obtain ⟨P2, u2, B2, t', e2, hu2, m2⟩ := g2 r hv'
  refine ⟨t, t', fun v hv hg => (m1 v hv hg.1 hg.2).1, fun v hv hg => (m2 v hv hg.1 hg.2).1, ?_⟩
  obtain ⟨v', hv', hg'⟩ := hv'
  obtain ⟨-, -, -, b1, rd, b2, -, n1, ⟨z, hz, cl, hl⟩, n3, -⟩ := m2 v' hv' hg'.1 hg'.2
  obtain ⟨p, hp⟩ := h2.spawned
  have he : a ++ x :: b ++ c ++ y :: d = P1 ++ u1 :: (B1 ++ c ++ y :: d) := by rw [e1]; simp
  rcases updates_order (spawn_first hr2 hp) he hu1 (by rw [e1]; exact ⟨B1 ++ c, by simp⟩) e2 n1 n3 ⟨z, hz, cl, _, hl⟩ with
    ⟨q, rfl⟩ | ⟨rfl, rfl, hB⟩
  · exact .inl ⟨P1, u1, q, u2, B2, by rw [e2], hu1, hu2⟩
  · have ht : t' = t := by
      obtain ⟨f, hf⟩ := hu1
      obtain ⟨f', hf'⟩ := hu2
      have hle : u1.evs.length ≤ 1 := by
        have hr := hr2
        rw [e2, List.append_cons] at hr
        obtain ⟨s0, k1, -⟩ := hr.split
        obtain ⟨s1, -, k3⟩ := k1.snoc_inv
        exact k3.evs_le
      match hE : u1.evs, hle with
      | [], _ => rw [hE] at hf; cases hf
      | [e], _ =>
        rw [hE] at hf hf'
        have i1 := List.mem_singleton.mp hf
        have i2 := List.mem_singleton.mp hf'
        rw [← i1] at i2
        cases i2; rfl
    refine .inr ⟨ht, P1, u1, B2, e2, hu1, fun v hv v' hv' hg hg' hsame hon => ?_⟩
    obtain ⟨-, sc, dd, c1, rd1, c2, i1, i2, -, -, -, -, i3, i4⟩ := m1 v hv hg.1 hg.2
    obtain ⟨-, sc', dd', c1', rd1', c2', j1, j2, -, -, -, -, j3, j4⟩ := m2 v' hv' hg'.1 hg'.2
    rw [hsame, i1] at j1
    cases j1
    have o1 := i4 fun it hit => hon sc i1 it (by rw [← hB, i2]; simp [hit])
    have o2 := j4 fun it hit => hon sc i1 it (by rw [j2]; simp [hit])
    rw [o1] at o2
    cases o2
    rw [hsame, i3] at j3
    exact (Option.some.inj j3).symm

/-- **C93 (times)** If the update function never returns an earlier time than before, then time stamps never go back. -/
theorem C93_never_back {a b c d : List (Item Answer)} {x y : Item Answer} {s1 s2 : St Answer} {k1 k2 : ℕ} {ms ns : List Metric}
    (hr1 : Run w (a ++ x :: b) s1) (hr2 : Run w (a ++ x :: b ++ c ++ y :: d) s2)
    (h1 : AnsweredWith json k1 x s1 ms) (h2 : AnsweredWith json k2 y s2 ns) :
    ∃ V V', List.Forall₂ (Reports k1 (a ++ x :: b) json) V ms ∧
      List.Forall₂ (Reports k2 (a ++ x :: b ++ c ++ y :: d) json) V' ns ∧
      ∀ r, NeverBack r (a ++ x :: b ++ c ++ y :: d) → ∀ v ∈ V, ∀ v' ∈ V', OfGroup r v → OfGroup r v' →
        ∃ t t', v.2.timeStamp = .time t ∧ v'.2.timeStamp = .time t' ∧ NotAfter t t' := by
  obtain ⟨V, V', f1, f2, f3⟩ := C93_in_order hr1 hr2 h1 h2
  refine ⟨V, V', f1, f2, fun r hn v hv v' hv' hg hg' => ?_⟩
  obtain ⟨t, t', g1, g2, g3⟩ := f3 r ⟨v, hv, hg⟩ ⟨v', hv', hg'⟩
  refine ⟨t, t', g1 v hv hg, g2 v' hv' hg', ?_⟩
  rcases g3 with ⟨p, u, q, u', z, e, i1, i2⟩ | ⟨rfl, -⟩
  · exact hn p u q u' z t t' e i1 i2
  · exact .inr ⟨rfl, le_rfl⟩

/-- **C93 (same time, same value)** If the update function returns a new time with each call, and only it changes a metric of the
group, then in both answers the metric has the same value if it has the same time stamp. -/
theorem C93_same_time {a b c d : List (Item Answer)} {x y : Item Answer} {s1 s2 : St Answer} {k1 k2 : ℕ} {ms ns : List Metric}
    (hr1 : Run w (a ++ x :: b) s1) (hr2 : Run w (a ++ x :: b ++ c ++ y :: d) s2)
    (h1 : AnsweredWith json k1 x s1 ms) (h2 : AnsweredWith json k2 y s2 ns) :
    ∃ V V', List.Forall₂ (Reports k1 (a ++ x :: b) json) V ms ∧
      List.Forall₂ (Reports k2 (a ++ x :: b ++ c ++ y :: d) json) V' ns ∧
      ∀ r, NewTimes r (a ++ x :: b ++ c ++ y :: d) → ∀ v ∈ V, ∀ v' ∈ V', OfGroup r v → OfGroup r v' → v'.1.value = v.1.value →
        (∀ sc, v.1.value.src = some sc → OnlyUpdate w r sc (a ++ x :: b ++ c ++ y :: d)) →
        v'.2.timeStamp = v.2.timeStamp → v'.2.value = v.2.value := by
  obtain ⟨V, V', f1, f2, f3⟩ := C93_in_order hr1 hr2 h1 h2
  refine ⟨V, V', f1, f2, fun r hn v hv v' hv' hg hg' hs ho ht => ?_⟩
  obtain ⟨t, t', g1, g2, g3⟩ := f3 r ⟨v, hv, hg⟩ ⟨v', hv', hg'⟩
  rw [g1 v hv hg, g2 v' hv' hg'] at ht
  cases ht
  rcases g3 with ⟨p, u, q, u', z, e, i1, i2⟩ | ⟨-, p, u, q, e, -, i⟩
  · exact absurd rfl (hn p u q u' z t t e i1 i2)
  · exact i v hv v' hv' hg hg' hs fun sc hsc it hit => ho sc hsc it (by rw [e]; simp [hit])

/-- **C93 (fresh)** If nobody holds a group when a request is made, then its scalars in the answer come from a call of the update
function that returned after the request was made. -/
theorem C93_fresh {e d : List (Item Answer)} {y : Item Answer} {s : St Answer} {k : ℕ} {ns : List Metric}
    (hr : Run w (e ++ y :: d) s) (h : AnsweredWith json k y s ns) :
    ∃ V, List.Forall₂ (Reports k (e ++ y :: d) json) V ns ∧
      ∀ r, Unheld r e → (∃ v ∈ V, OfGroup r v) → ∃ p u q t, d = p ++ u :: q ∧ Updated r t u ∧
        ∀ v ∈ V, OfGroup r v → v.2.timeStamp = .time t ∧ ∃ sc, v.1.value.src = some sc ∧
          (OnlyUpdate w r sc q → ∃ x, current w u.post sc = some x ∧
            valueToInterface x v.1.value.valType v.1.value.isPtr = some v.2.value) := by
  obtain ⟨V, f, g⟩ := answered_update hr (by simp) h
  refine ⟨V, f, fun r hfree hv => ?_⟩
  obtain ⟨P, u, B, t, e1, hu, m⟩ := g r hv
  obtain ⟨v0, hv0, hg0⟩ := hv
  obtain ⟨-, -, -, b1, rd, b2, -, n1, ⟨z, hz, cl, hl⟩, n3, -⟩ := m v0 hv0 hg0.1 hg0.2
  obtain ⟨pr, hp⟩ := h.spawned
  obtain ⟨z1, z2, rfl⟩ := List.append_of_mem hz
  have e2 : e ++ y :: d = (P ++ u :: z1) ++ z :: (z2 ++ rd :: b2) := by rw [e1, n1]; simp
  -- the request takes the group after it was made
  obtain ⟨mid, hm1, hm2⟩ : ∃ mid, P ++ u :: z1 = e ++ y :: mid ∧ d = mid ++ z :: (z2 ++ rd :: b2) := by
    rcases List.append_eq_append_iff.mp e2 with ⟨as, i1, i2⟩ | ⟨as, i1, i2⟩
    · cases as with
      | nil =>
        simp only [List.nil_append, List.cons.injEq] at i2
        rw [← i2.1, hp] at hl
        cases hl
      | cons q as =>
        simp only [List.cons_append, List.cons.injEq] at i2
        exact ⟨as, by rw [i1, i2.1], i2.2⟩
    · exfalso
      cases as with
      | nil =>
        simp only [List.nil_append, List.cons.injEq] at i2
        rw [i2.1, hp] at hl
        cases hl
      | cons q as =>
        simp only [List.cons_append, List.cons.injEq] at i2
        exact spawn_first hr hp z (by rw [i1, i2.1]; simp) (by rw [hl]; rfl)
  have hr' := hr
  rw [e2, hm1] at hr'
  obtain ⟨c1, u', c2, j1, j2, j3⟩ := C70_fresh hr' hfree hl
  cases c1 with
  | nil =>
    simp only [List.nil_append, List.cons.injEq] at j1
    obtain ⟨rfl, -⟩ := j1
    exfalso
    rw [List.append_cons] at hr
    obtain ⟨s0, k1, -⟩ := hr.split
    obtain ⟨s1, -, k3⟩ := k1.snoc_inv
    obtain ⟨f, hf⟩ := j2
    cases k3 <;> simp at hp <;> cases hf
  | cons y' c1 =>
    simp only [List.cons_append, List.cons.injEq] at j1
    obtain ⟨rfl, rfl⟩ := j1
    obtain ⟨rfl, rfl, rfl⟩ := last_unique (l := P ++ u :: z1) rfl (a' := e ++ y :: c1) (by rw [hm1]; simp) hu j2
      (fun it hit => n3 it (by simp [hit])) j3
    have hB : B = z1 ++ z :: (z2 ++ rd :: b2) := by rw [n1]; simp
    refine ⟨c1, u, B, t, by rw [hm2, hB]; simp, hu, fun v hv hg => ?_⟩
    obtain ⟨q1, sc, x, c1', rd', c2', q2, q3, -, -, -, -, q4, q5⟩ := m v hv hg.1 hg.2
    exact ⟨q1, sc, q2, fun ho => ⟨x, q5 fun it hit => ho it (by rw [q3]; simp [hit]), q4⟩⟩

/-! ### By group id -/

theorem encode_kind {y m : Metric} (h : encodeMetric json y = .ok m) (hk : ScalarKind m) :
    y.kind ≠ .dist ∧ y.kind ≠ .list ∧ m.groupId = y.groupId ∧ ∀ t, y.timeStamp = .time t → m.timeStamp = stamp json t := by
  unfold encodeMetric at h
  cases json with
  | false => cases h; exact ⟨hk.1, hk.2, rfl, fun t ht => ht⟩
  | true =>
    simp only [if_true] at h
    cases h1 : y.convertToJson with
    | none => rw [h1] at h; cases h
    | some z =>
      rw [h1] at h; cases h
      unfold Metric.convertToJson at h1
      cases h2 : asJson y.value y.kind y.subType y.unit with
      | none => rw [h2] at h1; cases h1
      | some r =>
        obtain ⟨v, k, st⟩ := r
        rw [h2] at h1; cases h1
        refine ⟨fun e => hk.1 ?_, fun e => hk.2 ?_, rfl, fun t ht => by simp only [ht]; rfl⟩
        · rw [e] at h2
          simp only [asJson, Option.some.injEq, Prod.mk.injEq] at h2
          exact h2.2.1.symm
        · rw [e] at h2
          unfold asJson at h2
          dsimp only at h2
          split at h2
          · split at h2 <;> cases h2 <;> rfl
          · split at h2 <;> cases h2 <;> rfl
          · split at h2 <;> cases h2 <;> rfl

theorem Run.ids {tr : List (Item Answer)} {s : St Answer} (hr : Run w tr s) :
    IdsOk s.mem ∧ ∀ it ∈ tr, IdsExt it.pre s.mem := by
  constructor
  · rw [hr.after]; exact (after_ids _ (init_idsOk w)).1
  · intro it hit
    obtain ⟨p, q, rfl⟩ := List.append_of_mem hit
    rw [hr.after_pre rfl, hr.after, List.filterMap_append, _root_.Tricorder.after_append]
    exact (after_ids _ (after_ids _ (init_idsOk w)).1).2

/-- the group of a scalar in an answer -/
theorem Reports.group {tr : List (Item Answer)} {s : St Answer} (hr : Run w tr s) {c : ℕ} {v : MetricView × Metric} {m : Metric}
    (h : Reports c tr json v m) (hk : ScalarKind m) : ∃ r, OfGroup r v ∧ s.mem.regions[r]? = some m.groupId ∧
      ∀ t, v.2.timeStamp = .time t → m.timeStamp = stamp json t := by
  obtain ⟨h1, h2, -, h3⟩ := h
  obtain ⟨k1, k2, k3, k4⟩ := encode_kind h1 hk
  rw [h2.2.2.2.1] at k1 k2
  obtain ⟨r, e1, it, hit, e2⟩ := h3 ⟨k1, k2⟩
  refine ⟨r, ⟨⟨k1, k2⟩, e1⟩, ?_, k4⟩
  rw [k3]
  exact prefix_index (hr.ids.2 it hit).regions e2

theorem Run.region_unique {tr : List (Item Answer)} {s : St Answer} (hr : Run w tr s) {r r' g : ℕ} (h : s.mem.regions[r]? = some g)
    (h' : s.mem.regions[r']? = some g) : r = r' :=
  nodup_index (List.nodup_append.mp (List.nodup_append.mp hr.ids.1.1).1).1 h h'

theorem forall₂_right {α β : Type} {R : α → β → Prop} {l : List α} {l' : List β} (h : List.Forall₂ R l l') :
    ∀ y ∈ l', ∃ x ∈ l, R x y := by
  induction h with
  | nil => intro y hy; cases hy
  | cons h _ ih =>
    intro y hy
    rcases List.mem_cons.mp hy with rfl | hy
    · exact ⟨_, List.mem_cons_self .., h⟩
    · obtain ⟨x, hx, e⟩ := ih y hy
      exact ⟨x, List.mem_cons_of_mem _ hx, e⟩

/-- **C70 (by group id)** Whatever the other goroutines and the update functions do, two single values with the same group id in one
answer have the same time stamp, and it is a time that the update function of the group with this id returned. -/
theorem C70_same_id {tr : List (Item Answer)} {s : St Answer} (hr : Run w tr s) {k : ℕ} {x : Item Answer} (hx : x ∈ tr)
    {ms : List Metric} (h : AnsweredWith json k x s ms) {m n : Metric} (hm : m ∈ ms) (hn : n ∈ ms) (hkm : ScalarKind m)
    (hkn : ScalarKind n) (hg : m.groupId = n.groupId) : ∃ r t u, s.mem.regions[r]? = some m.groupId ∧ u ∈ tr ∧ Updated r t u ∧
      m.timeStamp = stamp json t ∧ n.timeStamp = stamp json t := by
  obtain ⟨V, f, g⟩ := answered_update hr hx h
  obtain ⟨v, hv, e⟩ := forall₂_right f m hm
  obtain ⟨v', hv', e'⟩ := forall₂_right f n hn
  obtain ⟨r, i1, i2, i3⟩ := e.group hr hkm
  obtain ⟨r', j1, j2, j3⟩ := e'.group hr hkn
  rw [← hg] at j2
  obtain rfl := hr.region_unique i2 j2
  obtain ⟨P, u, B, t, e1, hu, q⟩ := g r ⟨v, hv, i1⟩
  exact ⟨r, t, u, i2, by simp [e1], hu, i3 t (q v hv i1.1 i1.2).1, j3 t (q v' hv' j1.1 j1.2).1⟩

/-- **C93 (by group id)** Two single values with the same group id, one in each answer: the time stamp of the second one is a time that
the update function of the group with this id returned with the same call or a later one.  If the update function never returns an
earlier time than before, the time stamp is not earlier. -/
theorem C93_same_id {a b c d : List (Item Answer)} {x y : Item Answer} {s1 s2 : St Answer} {k1 k2 : ℕ} {ms ns : List Metric}
    (hr1 : Run w (a ++ x :: b) s1) (hr2 : Run w (a ++ x :: b ++ c ++ y :: d) s2)
    (h1 : AnsweredWith json k1 x s1 ms) (h2 : AnsweredWith json k2 y s2 ns) {m n : Metric} (hm : m ∈ ms) (hn : n ∈ ns)
    (hkm : ScalarKind m) (hkn : ScalarKind n) (hg : m.groupId = n.groupId) :
    ∃ r t t', s2.mem.regions[r]? = some m.groupId ∧ m.timeStamp = stamp json t ∧ n.timeStamp = stamp json t' ∧
      ((∃ p u q u' z, a ++ x :: b ++ c ++ y :: d = p ++ u :: q ++ u' :: z ∧ Updated r t u ∧ Updated r t' u') ∨
        t' = t ∧ ∃ u ∈ a ++ x :: b ++ c ++ y :: d, Updated r t u) ∧
      (NeverBack r (a ++ x :: b ++ c ++ y :: d) → NotAfter t t') := by
  obtain ⟨V, V', f1, f2, f3⟩ := C93_in_order hr1 hr2 h1 h2
  obtain ⟨v, hv, e⟩ := forall₂_right f1 m hm
  obtain ⟨v', hv', e'⟩ := forall₂_right f2 n hn
  obtain ⟨r, i1, i2, i3⟩ := e.group hr1 hkm
  obtain ⟨r', j1, j2, j3⟩ := e'.group hr2 hkn
  have i2' : s2.mem.regions[r]? = some m.groupId := by
    refine prefix_index (IdsExt.regions ?_) i2
    rw [hr1.after, hr2.after, show a ++ x :: b ++ c ++ y :: d = (a ++ x :: b) ++ (c ++ y :: d) by simp]
    generalize a ++ x :: b = l
    rw [List.filterMap_append, _root_.Tricorder.after_append]
    exact (after_ids _ (after_ids _ (init_idsOk w)).1).2
  rw [← hg] at j2
  obtain rfl := hr2.region_unique i2' j2
  obtain ⟨t, t', g1, g2, g3⟩ := f3 r ⟨v, hv, i1⟩ ⟨v', hv', j1⟩
  refine ⟨r, t, t', i2', i3 t (g1 v hv i1), j3 t' (g2 v' hv' j1), ?_, fun hb => ?_⟩
  · rcases g3 with h | ⟨h, p, u, q, h3, h4, -⟩
    · exact .inl h
    · exact .inr ⟨h, u, by rw [h3]; simp, h4⟩
  · rcases g3 with ⟨p, u, q, u', z, e, i1, i2⟩ | ⟨rfl, -⟩
    · exact hb p u q u' z t t' e i1 i2
    · exact .inr ⟨rfl, le_rfl⟩

/-! ### Examples

As in C70: the second request finds the group free, and its update function is called again. -/

def exAsk : Prog Answer := listCall true 3 (lit "/")

def exAgain (ms1 ms1' ms2 ms2' : List (Move Answer)) : Option (Option ExAnswer × Option ExAnswer) :=
  (playW exW (ms1 ++ .spawn exAsk :: ms1') [] (start Answer)).bind fun x =>
    (playW exW (ms2 ++ .spawn exAsk :: ms2') x.1 x.2).map fun z =>
      (exSummary x.2.procs[(ms1.map Move.spawns).sum]?,
        exSummary z.2.procs[((ms1 ++ .spawn exAsk :: ms1' ++ ms2).map Move.spawns).sum]?)

/-- the answers, with paths, values and times -/
def exRow (m : Metric) : ExRow := ⟨m.path, exBase m.value, exTime m.timeStamp⟩

theorem exSummary_rows {o : Option (Proc Answer)} {l : List ExRow} (h : exSummary o = some ⟨true, l⟩) :
    ∃ ms, o = some ⟨.run (.ret (.listing ms .ok)), []⟩ ∧ ms.map exRow = l := by
  unfold exSummary at h
  split at h
  · exact ⟨_, rfl, by cases h; rfl⟩
  · cases h
  · cases h

/-- the hypotheses of C93 hold of it -/
theorem exAgain_spec {ms1 ms1' ms2 ms2' : List (Move Answer)} {l l' : List ExRow}
    (h : exAgain ms1 ms1' ms2 ms2' = some (some ⟨true, l⟩, some ⟨true, l'⟩)) :
    ∃ a x b c y d s1 s2 k1 k2 ms ns, Run exW (a ++ x :: b) s1 ∧ Run exW (a ++ x :: b ++ c ++ y :: d) s2 ∧
      AnsweredWith true k1 x s1 ms ∧ AnsweredWith true k2 y s2 ns ∧ ms.map exRow = l ∧ ns.map exRow = l' := by
  unfold exAgain at h
  obtain ⟨⟨tr1, s1⟩, h1, h2⟩ := Option.bind_eq_some_iff.mp h
  obtain ⟨⟨tr2, s2⟩, h3, h4⟩ := Option.map_eq_some_iff.mp h2
  simp only [Prod.mk.injEq] at h4
  obtain ⟨e1, e2⟩ := h4
  have r1 := playW_run .nil h1
  have r2 := playW_run r1 h3
  have hl := playW_length h1
  obtain ⟨a, x, b, rfl, hx⟩ := playW_asked h1
  obtain ⟨c, y, d, rfl, hy⟩ := playW_asked h3
  obtain ⟨ms, p1, q1⟩ := exSummary_rows e1
  obtain ⟨ns, p2, q2⟩ := exSummary_rows e2
  refine ⟨a, x, b, c, y, d, s1, s2, _, _, ms, ns, r1, r2, .listing (held := []) (st := .ok) hx ?_, .listing (held := []) (st := .ok) hy ?_, q1, q2⟩
  · rw [show (start Answer).procs.length = 0 from rfl, Nat.zero_add]; exact p1
  · rw [hl, show (start Answer).procs.length = 0 from rfl, Nat.zero_add, ← List.sum_append, ← List.map_append]; exact p2

def exWrites (a b : ℤ) : List Cmd := [.writeVar 0 (.scalar none (.int .int64 a)), .writeVar 1 (.scalar none (.int .int64 b))]

def exRows (a b : ℤ) (t : Str) : List ExRow := [⟨lit "/a", some (.int .int64 a), some t⟩, ⟨lit "/b", some (.int .int64 b), some t⟩]

example : ∃ a x b c y d s1 s2 k1 k2 ms ns, Run exW (a ++ x :: b) s1 ∧ Run exW (a ++ x :: b ++ c ++ y :: d) s2 ∧
    AnsweredWith true k1 x s1 ms ∧ AnsweredWith true k2 y s2 ns ∧ ms.map exRow = exRows 6 8 (lit "100.000000000") ∧
    ns.map exRow = exRows 7 9 (lit "200.000000000") :=
  exAgain_spec (ms1 := exBefore) (ms1' := gos 1 3 ++ taking 1 0 0 (exWrites 6 8) ⟨100, 0⟩ ++ gos 1 6 ++ releasing 1 0 0)
    (ms2 := []) (ms2' := gos 2 3 ++ taking 2 0 1 (exWrites 7 9) ⟨200, 0⟩ ++ gos 2 6 ++ releasing 2 0 1) (by decide +kernel)

/-- another request holds the group all the time; both requests show the same call -/
example : ∃ a x b c y d s1 s2 k1 k2 ms ns, Run exW (a ++ x :: b) s1 ∧ Run exW (a ++ x :: b ++ c ++ y :: d) s2 ∧
    AnsweredWith true k1 x s1 ms ∧ AnsweredWith true k2 y s2 ns ∧ ms.map exRow = exRows 6 8 (lit "100.000000000") ∧
    ns.map exRow = exRows 6 8 (lit "100.000000000") :=
  exAgain_spec (ms1 := exBefore ++ .spawn exAsk :: gos 1 3 ++ taking 1 0 0 (exWrites 6 8) ⟨100, 0⟩)
    (ms1' := gos 2 3 ++ sharing 2 0 1 ++ gos 2 6 ++ releasing 2 0 1)
    (ms2 := []) (ms2' := gos 3 3 ++ sharing 3 0 2 ++ gos 3 6 ++ releasing 3 0 2) (by decide +kernel)

def exAgainIds (ms1 ms1' ms2 ms2' : List (Move Answer)) : Option (List (Ty × ℕ) × List (Ty × ℕ)) :=
  (playW exW (ms1 ++ .spawn exAsk :: ms1') [] (start Answer)).bind fun x =>
    (playW exW (ms2 ++ .spawn exAsk :: ms2') x.1 x.2).map fun z =>
      ((exListed x.2.procs[(ms1.map Move.spawns).sum]?).map fun m => (m.kind, m.groupId),
        (exListed z.2.procs[((ms1 ++ .spawn exAsk :: ms1' ++ ms2).map Move.spawns).sum]?).map fun m => (m.kind, m.groupId))

/-- in these examples all metrics are single values and have the same group id -/
example : exAgainIds exBefore (gos 1 3 ++ taking 1 0 0 (exWrites 6 8) ⟨100, 0⟩ ++ gos 1 6 ++ releasing 1 0 0) []
    (gos 2 3 ++ taking 2 0 1 (exWrites 7 9) ⟨200, 0⟩ ++ gos 2 6 ++ releasing 2 0 1) =
    some ([(.int64, 0), (.int64, 0)], [(.int64, 0), (.int64, 0)]) := by decide +kernel

end Tricorder.Whole
