import Verif.Proof.Fine3
/-! A run of `Model/Whole` is one of `Model/Fine`, in which the methods are executed one after the other. -/

namespace Tricorder.Fine
open Go Locks

variable {A : Type} {w : World} {n : ℕ} {tr : List (Item A)} {f : St A} {tr' : List (Whole.Item A)} {s : Whole.St A}

/-- a step of `Model/Whole` is determined by its label and the groups after it -/
theorem whole_det {s s1 s2 : Whole.St A} {i1 i2 : Whole.Item A} (h1 : Whole.Step w s i1 s1) (h2 : Whole.Step w s i2 s2)
    (hl : i1.lab = i2.lab) (he : i1.evs = i2.evs) (hg : s1.grp = s2.grp) : i2 = i1 ∧ s2 = s1 := by
  cases h1 <;> cases h2 <;> first | (cases hl; done) | skip
  · cases hl; exact ⟨rfl, rfl⟩
  · rename_i a1 a2 a3 _ _ _ _ b1 b2 b3
    cases hl; rw [a1] at b1; cases b1; exact ⟨rfl, rfl⟩
  · rename_i a1 a2 a3 _ _ _ b1
    cases hl; exact absurd a2 id
  · rename_i a1 _ _ _ _ b1 b2 b3
    cases hl; exact absurd b2 id
  · rename_i a1 _ _ _ b1
    cases hl; rw [a1] at b1; cases b1; exact ⟨rfl, rfl⟩
  · cases hl; exact ⟨rfl, rfl⟩
  · rename_i a1 a2 _ _ _ _ b1 b2
    cases hl; rw [a1] at b1; cases b1; exact ⟨rfl, rfl⟩
  · rename_i a1 a2 _ _ _ _ _ _ b1 b2
    cases hl; rw [a1] at b1; cases b1; exact ⟨rfl, rfl⟩
  · rename_i a1 a2 a3 a4 _ _ _ _ _ _ b1 b2 b3 b4
    cases hl; rw [a1] at b1; cases b1; rw [a3] at b3; cases b3; exact ⟨rfl, rfl⟩
  · rename_i a1 a2 a3 _ _ _ _ _ _ b1 b2 b3
    cases hl; rw [a1] at b1; cases b1; exact ⟨rfl, rfl⟩
  · cases hg; cases he; exact ⟨rfl, rfl⟩

/-- the two runs and what connects them -/
def K (w : World) (n : ℕ) (tr : List (Item A)) (f : St A) (tr' : List (Whole.Item A)) (s : Whole.St A) : Prop :=
  Run w n tr f ∧ J w n tr f tr' s

theorem K.still (hw : Local w) (h : K w n tr f tr' s) {it : Item A} {f' : St A} (hs : Step w f it f') (hc : coarse it = none) :
    K w n (tr ++ [it]) f' tr' s := by
  obtain ⟨_, _, hj, hf⟩ := h.2.step hw hs
  cases hf with
  | still => exact ⟨h.1.snoc hs, hj⟩
  | step _ e => rw [hc] at e; cases e

theorem K.step (hw : Local w) (h : K w n tr f tr' s) {it : Item A} {f' : St A} (hs : Step w f it f') {wit : Whole.Item A}
    {s2 : Whole.St A} (hs2 : Whole.Step w s wit s2) (hc : coarse it = some (wit.lab, wit.evs)) (hg : f'.grp = s2.grp) :
    K w n (tr ++ [it]) f' (tr' ++ [wit]) s2 := by
  obtain ⟨_, _, hj, hf⟩ := h.2.step hw hs
  cases hf with
  | still e => rw [hc] at e; cases e
  | step h1 e =>
    rw [hc] at e
    injection e with e
    injection e with e1 e2
    obtain ⟨rfl, rfl⟩ := whole_det hs2 h1 e1 e2 (by rw [hj.groups]; exact hg.symm)
    exact ⟨h.1.snoc hs, hj⟩

/-- inside a critical section, up to its last step -/
theorem K.within (hw : Local w) {i : ℕ} {cmd : Cmd} {loc : Loc} {excl : Bool} {rest : Sec (Data loc) cmd.Resp} :
    ∀ {tr f}, K w n tr f tr' s → f.lk.phases[i]? = some (.inside cmd loc excl rest) →
      ∃ tr2 lk g, K w n (tr ++ tr2) { f with lk := lk } tr' s ∧ lk.phases = f.lk.phases.set i (.inside cmd loc excl (.last g)) := by
  induction rest with
  | read g k ih =>
    intro tr f h hp
    have hs := Locks.Step.read (w := w) f.lk i cmd loc excl _ g k hp
    obtain ⟨tr2, lk, g', h1, h2⟩ := ih (g (f.lk.objs loc)) (h.still hw (.quiet f i _ hs) rfl) (by simp only [Locks.St.setP, get_set hp, if_true])
    exact ⟨_ :: tr2, lk, g', by simpa using h1, by simpa [Locks.St.setP] using h2⟩
  | write g k ih =>
    intro tr f h hp
    have hs := Locks.Step.write (w := w) f.lk i cmd loc excl g k hp
    obtain ⟨tr2, lk, g', h1, h2⟩ := ih (h.still hw (.quiet f i _ hs) rfl) (by simp only [Locks.St.setP, get_set hp, if_true])
    exact ⟨_ :: tr2, lk, g', by simpa using h1, by simpa [Locks.St.setP] using h2⟩
  | last g =>
    intro tr f h hp
    refine ⟨[], f.lk, g, by simpa using h, ?_⟩
    apply List.ext_getElem?
    intro j
    rw [get_set hp]
    split
    · subst j; exact hp
    · rfl

/-- nobody is in a method -/
def Rest (n : ℕ) (lk : Locks.St) : Prop := ∀ i, i < n → lk.phases[i]? = some .idle

theorem rest_idle (h : Rest n lk) (hl : lk.phases.length = n) {i : ℕ} {ph : Phase} (hp : lk.phases[i]? = some ph) : ph = .idle := by
  have := (List.getElem?_eq_some_iff.1 hp).1
  rw [h i (by omega)] at hp
  cases hp; rfl

/-- a method that waits while everybody else rests gets as far as its effect -/
theorem K.toEffect (hw : Local w) (h : K w n tr f tr' s) {i : ℕ} {cmd : Cmd} {im : Impl cmd.Resp}
    (hp : f.lk.phases[i]? = some (.wait cmd im)) (ho : ∀ (j : ℕ) p, j ≠ i → f.lk.phases[j]? = some p → p = .idle) :
    ∃ tr2 lk lk2 r lock, K w n (tr ++ tr2) { f with lk := lk } tr' s ∧ Locks.Step w lk (.effect i cmd r) lk2 ∧
      lk2.phases = f.lk.phases.set i (.done cmd lock r) := by
  cases im with
  | plain g =>
    exact ⟨[], f.lk, _, _, _, by simpa using h, .plain f.lk i cmd g hp, rfl⟩
  | locked loc excl sec =>
    have hf : Free f.lk i loc excl := by
      intro c' p e hne hc hh
      rw [ho c' p hne hc] at hh
      cases hh
    have hs := Locks.Step.acquire (w := w) f.lk i cmd loc excl sec hp hf
    obtain ⟨tr2, lk, g, h1, h2⟩ := (h.still hw (.quiet f i _ hs) rfl).within hw (i := i) (cmd := cmd) (loc := loc) (excl := excl)
      (rest := sec) (by simp only [Locks.St.setP, get_set hp, if_true])
    have h3 : lk.phases[i]? = some (.inside cmd loc excl (.last g)) := by
      rw [h2]
      simp only [Locks.St.setP, List.set_set, get_set hp, if_true]
    refine ⟨_ :: tr2, lk, _, _, some (loc, excl), by simpa using h1, .last lk i cmd loc excl g h3, ?_⟩
    show lk.phases.set i _ = _
    rw [h2]
    simp [Locks.St.setP]

theorem K.rest_procs (h : K w n tr f tr' s) (hr : Rest n f.lk) : s.procs = f.procs := by
  apply List.ext_getElem?
  intro c
  cases e : f.procs[c]? with
  | none =>
    rw [List.getElem?_eq_none_iff] at e ⊢
    rw [h.2.len]; exact e
  | some p =>
    have hlt : c < s.procs.length := by rw [h.2.len]; exact (List.getElem?_eq_some_iff.1 e).1
    have h1 := List.getElem?_eq_getElem hlt
    rw [h1, (h.2.ahead c p _ e h1).eq fun x hx => by rw [rest_idle hr (run_length h.2.locks) hx]; rfl]

theorem K.shared (hw : Local w) (h : K w n tr f tr' s) : Shared.of s.mem = f.lk.shared := by
  obtain ⟨o, h1, _⟩ := (h.2.toSame hw).memory
  rw [h1, of_whole]

theorem rest_set {lk lk2 : Locks.St} {i : ℕ} (hr : Rest n lk) (h : lk2.phases = lk.phases.set i .idle) : Rest n lk2 := by
  intro j hj
  rw [h, List.getElem?_set]
  have := hr j hj
  split
  · rw [if_pos]
    subst i
    exact (List.getElem?_eq_some_iff.1 this).1
  · exact this

/-- one step of `Model/Whole` -/
theorem K.follow (hw : Local w) (h : K w n tr f tr' s) (hr : Rest n f.lk) {wit : Whole.Item A} {s2 : Whole.St A}
    (hs : Whole.Step w s wit s2) (hc : ∀ i cmd, wit.lab = .own i cmd ∨ wit.lab = .upd i cmd → 2 * i + 1 < n ∧ Callable (Shared.of s.mem) cmd) :
    ∃ tr2 f2, K w n (tr ++ tr2) f2 (tr' ++ [wit]) s2 ∧ Rest n f2.lk := by
  have hp := h.rest_procs hr
  have hg := h.2.groups
  cases hs with
  | spawn p =>
    exact ⟨_, _, h.step hw (.spawn f p) (.spawn s p) (by simp [coarse, h.2.len]) hg.symm, hr⟩
  | own c held cmd k h1 h2 h3 =>
    obtain ⟨hn, hca⟩ := hc c cmd (.inl rfl)
    rw [h.shared hw] at hca
    have hi : f.lk.phases[2 * c]? = some .idle := hr _ (by omega)
    have k1 := h.still hw (.call f c held cmd k _ (hp ▸ h1) (.inl h2) (.call f.lk (2 * c) cmd hi hca)) rfl
    obtain ⟨t2, lk, lk2, r, lock, k2, st, e⟩ := k1.toEffect hw (i := 2 * c) (cmd := cmd)
      (by simp only [Locks.St.setP, get_set hi, if_true]; rfl) (by
        intro j p hj hq
        simp only [Locks.St.setP, get_set hi, if_neg hj] at hq
        exact rest_idle hr (run_length h.2.locks) hq)
    have k3 := k2.step hw (.effect _ (2 * c) cmd r lk2 h2 st) (.own s c held cmd k h1 h2 h3) (by simp [coarse]) hg.symm
    have hd : lk2.phases[2 * c]? = some (.done cmd lock r) := by
      rw [e]; simp only [Locks.St.setP, List.set_set, get_set hi, if_true]
    have k4 := k3.still hw (.ret _ c held cmd k r _ (hp ▸ h1) (.ret lk2 (2 * c) cmd lock r hd)) rfl
    refine ⟨_, _, by simpa [List.append_assoc] using k4, rest_set (i := 2 * c) hr ?_⟩
    simp [Locks.St.setP, e]
  | newGroup c held k h1 =>
    obtain ⟨hn, hca⟩ := hc c .newRegion (.inl rfl)
    rw [h.shared hw] at hca
    have hi : f.lk.phases[2 * c]? = some .idle := hr _ (by omega)
    have k1 := h.still hw (.call f c held .newRegion k _ (hp ▸ h1) (.inr rfl) (.call f.lk (2 * c) .newRegion hi hca)) rfl
    obtain ⟨t2, lk, lk2, r, lock, k2, st, e⟩ := k1.toEffect hw (i := 2 * c) (cmd := .newRegion)
      (by simp only [Locks.St.setP, get_set hi, if_true]; rfl) (by
        intro j p hj hq
        simp only [Locks.St.setP, get_set hi, if_neg hj] at hq
        exact rest_idle hr (run_length h.2.locks) hq)
    have k3 := k2.step hw (.newGroup _ (2 * c) r lk2 st) (.newGroup s c held k h1) (by simp [coarse, hg]) (by rw [hg])
    have hd : lk2.phases[2 * c]? = some (.done .newRegion lock r) := by
      rw [e]; simp only [Locks.St.setP, List.set_set, get_set hi, if_true]
    have k4 := k3.still hw (.ret _ c held .newRegion k r _ (hp ▸ h1) (.ret lk2 (2 * c) .newRegion lock r hd)) rfl
    refine ⟨_, _, by simpa [List.append_assoc] using k4, rest_set (i := 2 * c) hr ?_⟩
    simp [Locks.St.setP, e]
  | upd i g cmd h1 h2 h3 h4 =>
    obtain ⟨hn, hca⟩ := hc i cmd (.inr rfl)
    rw [h.shared hw] at hca
    have hi : f.lk.phases[2 * i + 1]? = some .idle := hr _ hn
    have k1 := h.still hw (.updCall f i cmd _ ⟨g, hg ▸ h1, h2⟩ h3 (.call f.lk (2 * i + 1) cmd hi hca)) rfl
    obtain ⟨t2, lk, lk2, r, lock, k2, st, e⟩ := k1.toEffect hw (i := 2 * i + 1) (cmd := cmd)
      (by simp only [Locks.St.setP, get_set hi, if_true]; rfl) (by
        intro j p hj hq
        simp only [Locks.St.setP, get_set hi, if_neg hj] at hq
        exact rest_idle hr (run_length h.2.locks) hq)
    have k3 := k2.step hw (.effect _ (2 * i + 1) cmd r lk2 h3 st) (.upd s i g cmd h1 h2 h3 h4) (by
      have e1 : (2 * i + 1) % 2 = 1 := by omega
      have e2 : (2 * i + 1) / 2 = i := by omega
      simp [coarse, e1, e2]) hg.symm
    have hd : lk2.phases[2 * i + 1]? = some (.done cmd lock r) := by
      rw [e]; simp only [Locks.St.setP, List.set_set, get_set hi, if_true]
    have k4 := k3.still hw (.updRet _ i cmd r _ (.ret lk2 (2 * i + 1) cmd lock r hd)) rfl
    refine ⟨_, _, by simpa [List.append_assoc] using k4, rest_set (i := 2 * i + 1) hr ?_⟩
    simp [Locks.St.setP, e]
  | asks c r held k h1 h2 =>
    exact ⟨_, _, h.step hw (.asks f c r held k (hp ▸ h1) (hg ▸ h2)) (.asks s c r held k h1 h2) (by simp [coarse, hg])
      (by simp [hg, Whole.St.setP]), hr⟩
  | took c r cl t held k h1 h2 =>
    exact ⟨_, _, h.step hw (.took f c r cl t held k (hp ▸ h1) (hg ▸ h2)) (.took s c r cl t held k h1 h2) rfl
      (by simp [hg, Whole.St.setP]), hr⟩
  | gives c r cl client held k h1 h2 h3 h4 =>
    exact ⟨_, _, h.step hw (.gives f c r cl client held k (hp ▸ h1) h2 (hg ▸ h3) h4) (.gives s c r cl client held k h1 h2 h3 h4) rfl
      (by simp [hg, Whole.St.setP]), hr⟩
  | gave c r cl client held k h1 h2 h3 =>
    exact ⟨_, _, h.step hw (.gave f c r cl client held k (hp ▸ h1) (hg ▸ h2) h3) (.gave s c r cl client held k h1 h2 h3) rfl
      (by simp [hg, Whole.St.setP]), hr⟩
  | loop es g h1 h2 h3 =>
    refine ⟨_, _, h.step hw (.loop f es g (hg ▸ h1) (hg ▸ h2) ?_ ?_) (.loop s es g h1 h2 h3) rfl rfl, hr⟩
    · rw [← hp, ← hg]; exact h3
    · intro r ph q1 q2
      exact absurd (rest_idle hr (run_length h.2.locks) q1) q2

/-- the number of goroutines of `Model/Locks` that a step needs -/
def need (it : Whole.Item A) : ℕ :=
  match it.lab with
  | .own c _ => 2 * c + 2
  | .upd r _ => 2 * r + 2
  | _ => 0

theorem pre_eq {s s2 : Whole.St A} {it : Whole.Item A} (h : Whole.Step w s it s2) : it.pre = s.mem := by cases h <;> rfl

theorem converse (hw : Local w) (h : Whole.Run w tr' s)
    (hc : ∀ it ∈ tr', ∀ i cmd, it.lab = .own i cmd ∨ it.lab = .upd i cmd → Callable (Shared.of it.pre) cmd) :
    ∃ N, ∀ n, N ≤ n → ∃ tr f, K w n tr f tr' s ∧ Rest n f.lk := by
  induction h with
  | nil =>
    refine ⟨0, fun n _ => ⟨[], start A n, ⟨.nil, J.nil⟩, ?_⟩⟩
    intro i hi
    show (List.replicate n Phase.idle)[i]? = _
    simp [hi]
  | @snoc tr s it s' _ hs ih =>
    obtain ⟨N, hN⟩ := ih fun x hx => hc x (by simp [hx])
    refine ⟨max N (need it), fun n hn => ?_⟩
    obtain ⟨t, f, hk, hr⟩ := hN n (by omega)
    obtain ⟨t2, f2, h1, h2⟩ := hk.follow hw hr hs (by
      intro i cmd e
      refine ⟨?_, pre_eq hs ▸ hc it (by simp) i cmd e⟩
      have : need it = 2 * i + 2 := by rcases e with e | e <;> simp [need, e]
      omega)
    exact ⟨_, _, h1, h2⟩

end Tricorder.Fine
