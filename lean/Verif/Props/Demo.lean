import Verif.Proof.Demo4
import Verif.Props.Path
import Verif.Props.Setup
import Verif.Props.Listing
import Verif.Spec.Dist
/-!
# C83: the demo program
-/

namespace Tricorder
open Go Spec Tree

variable {w : World} {s : State}

private theorem comps_eq {path : Str} {c : List Str} (h : Components path c) : newPathSpec path = c :=
  (C01_components_unique h).symm

theorem ten_ne {pieces : List (Piece Fl)} (hp : powersOfTen = .ok pieces) : pieces ≠ [] := by
  rintro rfl
  have h : (match powersOfTen with
    | .ok p => decide (p = [])
    | _ => true) = false := by decide +kernel
  rw [hp] at h
  exact absurd h (by simp)

/-- **C83** The demo program registers its metrics without an error if nothing is in the way of its paths.  What was
there stays; no other metrics appear; the metrics report what the program assigned. -/
theorem C83_demo (hw : IsDemo w) (hs : Reachable w s)
    (hc : ∀ p ∈ demoPaths, ∀ c, Components p c → Clear s.tree 0 c) {pieces : List (Piece Fl)}
    (hp : powersOfTen = .ok pieces) (t0 : Time) (ts : ℕ → Time) :
    ∃ s' o, (Demo.registerMetrics w.fnTy pieces t0 ts).run w s = (s', .ok (.ok o)) ∧
      (∀ d q n, Reaches s.tree d q n → Reaches s'.tree d q n) ∧
      (∀ (m : ℕ) mo, s.tree.metrics[m]? = some mo → s'.tree.metrics[m]? = some mo) ∧
      (s.vars <+: s'.vars ∧ s.dists <+: s'.dists ∧ s.lists <+: s'.lists ∧ s.mem <+: s'.mem) ∧
      (∀ q m, Reaches s'.tree 0 q (.metric m) → Reaches s.tree 0 q (.metric m) ∨ ∃ p ∈ demoPaths, Components p q) ∧
      GetTells w s' (lit "/list/squares") (squaresVal 0) .none (lit "Squares") (s.nextId + 1) ∧
      GetTells w s' (lit "/proc/rpc-latency") (.dist (some demoLatency)) .millisecond (lit "RPC latency") s.nextId ∧
      GetTells w s' (lit "/proc/rpc-count") (.scalar none (.int .uint64 500)) .unknown (lit "RPC count") 0 ∧
      GetTells w s' (lit "/proc/temperature") (.scalar none (.float64 (.fin (45 / 2)))) .celsius (lit "Temperature") 0 ∧
      GetTells w s' (lit "/proc/duration") (.scalar none (.duration 125000000000)) .second (lit "Duration") 0 ∧
      GetTells w s' (lit "/proc/foo/bar/baz") (.scalar none (.float64 (.fin (99 / 8)))) .none
        (lit "Another float value") 0 ∧
      GetTells w s' (lit "/proc/foo/bar/abool") (.scalar none (.bool true)) .none (lit "A boolean value") 0 := by
  obtain ⟨s', e, hre, hx, hm, hn, hv, hd, hmem, hl, hat⟩ := Demo.demo_run hw hs
    (fun p hp => hc p hp _ (C01_components _)) (ten_ne hp) t0 ts
  refine ⟨s', _, e, hm, fun m mo h => hx.metrics m mo h, ⟨?_, ?_, ?_, ?_⟩, ?_, ?_⟩
  · rw [hv]; exact List.prefix_append _ _
  · rw [hd]; exact List.prefix_append _ _
  · rw [hl]; exact List.prefix_append _ _
  · rw [hmem]; exact List.prefix_append _ _
  · intro q m h
    rcases hn q m h with h | ⟨p, h1, h2⟩
    · exact Or.inl h
    · exact Or.inr ⟨p, h1, h2 ▸ C01_components _⟩
  · simp only [Demo.allRegs, Demo.rootRegs, Demo.barRegs, Reg.under, List.map_cons, List.map_nil, List.cons_append,
      List.nil_append, List.forall_mem_cons] at hat
    obtain ⟨⟨v1, a1, b1⟩, ⟨v2, a2, b2⟩, ⟨v3, a3, b3⟩, ⟨v4, a4, b4⟩, ⟨v5, a5, b5⟩, ⟨v6, a6, b6⟩, ⟨v7, a7, b7⟩, -⟩ := hat
    have u1 : (Demo.made s pieces t0).vars[(Demo.objs s).temperature]? = _ := (Demo.made_ready (w := w) pieces t0).temperature
    have u2 : (Demo.made s pieces t0).vars[(Demo.objs s).someBool]? = _ := (Demo.made_ready (w := w) pieces t0).someBool
    have u3 : (Demo.made s pieces t0).vars[(Demo.objs s).someDuration]? = _ :=
      (Demo.made_ready (w := w) pieces t0).someDuration
    have c3 : some ⟨some (.fn Demo.rpcCountFn), some 0, none, none, .uint64, false, .unknown⟩ = some v3 := by
      rw [← a3]; unfold valOf; simp only [hw.countTy]; rfl
    have c4 : some ⟨some (.var (Demo.objs s).temperature), some 0, none, none, .float64, false, .celsius⟩ = some v4 := by
      rw [← a4]; unfold valOf; simp only [u1]; rfl
    have c5 : some ⟨some (.var (Demo.objs s).someDuration), some 0, none, none, .goDuration, false, .second⟩ = some v5 := by
      rw [← a5]; unfold valOf; simp only [u3]; rfl
    have c6 : some ⟨some (.fn Demo.bazFn), some 0, none, none, .float64, false, .none⟩ = some v6 := by
      rw [← a6]; unfold valOf; simp only [hw.bazTy]; rfl
    have c7 : some ⟨some (.var (Demo.objs s).someBool), some 0, none, none, .bool, false, .none⟩ = some v7 := by
      rw [← a7]; unfold valOf; simp only [u2]; rfl
    cases a1; cases a2; cases c3; cases c4; cases c5; cases c6; cases c7
    have p6 : lit "/proc/foo/bar" ++ 47 :: lit "baz" = lit "/proc/foo/bar/baz" := by decide +kernel
    have p7 : lit "/proc/foo/bar" ++ 47 :: lit "abool" = lit "/proc/foo/bar/abool" := by decide +kernel
    rw [p6] at b6
    rw [p7] at b7
    refine ⟨?_, ?_, ?_, ?_, ?_, ?_, ?_⟩
    · refine read_list (x := ⟨squaresVal 0, t0, s.nextId + 1, .int64⟩) hre b1 ?_
      unfold listView
      rw [hl, hmem]
      simp [Demo.made, Demo.objs, Cell.val, squaresVal]
    · refine read_dist (D := (Demo.filled pieces 500).dress (ts 499) s.nextId .millisecond true) hre b2 ?_ ?_
      · rw [hd]; exact List.getElem?_concat_length ..
      · rw [Demo.dress_snapshot]; exact Demo.latency_eq hp
    · exact read_at hre b3 (by decide) (hw.count s') rfl
    · exact read_at hre b4 (by decide) (show s'.vars[(Demo.objs s).temperature]? = some (.scalar none (.float64 (.fin (45 / 2)))) by
        rw [hv]; simp [Demo.objs]) rfl
    · exact read_at hre b5 (by decide) (show s'.vars[(Demo.objs s).someDuration]? = some (.scalar none (.duration 125000000000)) by
        rw [hv]; simp [Demo.objs]) rfl
    · exact read_at hre b6 (by decide) (hw.baz s') rfl
    · exact read_at hre b7 (by decide) (show s'.vars[(Demo.objs s).someBool]? = some (.scalar none (.bool true)) by
        rw [hv]; simp [Demo.objs]) rfl

/-- **C83 (the list)** While the goroutine that changes the list runs, whatever others do except changing this list or
writing the goroutine's slices, `/list/squares` reports, as long as it is registered, the first `k` squares, and `k` never
decreases.  It does not panic, and in the end there are 99 squares. -/
theorem C83_squares (hw : IsDemo w) (hs : Reachable w s)
    (hc : ∀ p ∈ demoPaths, ∀ c, Components p c → Clear s.tree 0 c) {pieces : List (Piece Fl)}
    (hp : powersOfTen = .ok pieces) {t0 : Time} {ts : ℕ → Time} {s1 : State} {o : Demo.Objs}
    (hr : (Demo.registerMetrics w.fnTy pieces t0 ts).run w s = (s1, .ok (.ok o))) {ts' : ℕ → Time} {h : List Ev}
    {s2 : State} {b : Bool} (hu : RunI w (Demo.updateList o.anIntList ts') s1 h s2 b) (ha : Alone o.anIntList h) :
    b = true ∧ ∃ m c gid, Components (lit "/list/squares") c ∧ Reaches s1.tree 0 c (.metric m) ∧
      (∃ ks : List ℕ, ks.Pairwise (· ≤ ·) ∧ (∀ k ∈ ks, k ≤ 99) ∧ List.Forall₂ (fun σ k => Reaches σ.tree 0 c (.metric m) →
        GetTells w σ (lit "/list/squares") (squaresVal k) .none (lit "Squares") gid) (statesOf h s2) ks) ∧
      (Reaches s2.tree 0 c (.metric m) → GetTells w s2 (lit "/list/squares") (squaresVal 99) .none (lit "Squares") gid) := by
  obtain ⟨s', e, hre, hx, hm, hn, hv, hd, hmem, hl, hat⟩ := Demo.demo_run hw hs
    (fun p hp => hc p hp _ (C01_components _)) (ten_ne hp) t0 ts
  rw [e] at hr
  simp only [Prod.mk.injEq, Out.ok.injEq, Except.ok.injEq] at hr
  obtain ⟨rfl, rfl⟩ := hr
  have hsafe : Safe s' (Demo.objs s).anIntList ⟨squaresVal 0, t0, s.nextId + 1, .int64⟩ := by
    refine ⟨⟨s.nextId + 1, .int64, s.mem.length + 1, t0⟩, ⟨none, .scalar ⟨none, .int .int64⟩, some [], true⟩, ?_, ?_, rfl, ?_⟩
    · rw [hl]; exact List.getElem?_concat_length ..
    · rw [hmem]; simp [Demo.made]
    · simp [Cell.val, squaresVal]
  obtain ⟨b1, ⟨ks, b2, b3, b4⟩, b5⟩ := Demo.rounds_run hu hsafe rfl ha (le_refl 1) (le_refl 100)
  obtain ⟨v, a1, m, mo, a2, a3, a4, a5⟩ := hat _ (List.mem_append_left _ (List.mem_cons_self ..))
  cases a1
  have hreach := RunI_reachable hu hre (Demo.rounds_ok hu)
  have hext := RunI_ext hu
  have tell : ∀ σ ∈ statesOf h s2, Reaches σ.tree 0 (newPathSpec (lit "/list/squares")) (.metric m) →
      ∀ lv, listView σ (Demo.objs s).anIntList = some lv → GetTells w σ (lit "/list/squares") lv.val .none (lit "Squares") lv.groupId := by
    intro σ hσ hr lv hlv
    have h1 : Reachable w σ ∧ Ext s'.tree σ.tree := by
      simp only [statesOf, List.mem_append, List.mem_map, List.mem_cons, List.not_mem_nil, or_false] at hσ
      rcases hσ with ⟨e, he, rfl⟩ | rfl
      · exact ⟨hreach.1 e he, hext.1 e he⟩
      · exact ⟨hreach.2, hext.2⟩
    exact read_list h1.1 ⟨m, mo, hr, h1.2.metrics _ _ a3, a4, a5⟩ hlv
  refine ⟨b1, m, _, s.nextId + 1, C01_components _, a2, ⟨ks, b3, fun k hk => ?_, ?_⟩, fun h2 => ?_⟩
  · have := b4 k hk; omega
  · have h3 : List.Forall₂ (fun σ k => σ ∈ statesOf h s2 ∧ listView σ (Demo.objs s).anIntList =
        some (Demo.listAt ⟨squaresVal 0, t0, s.nextId + 1, .int64⟩ ts' 1 k)) (statesOf h s2) ks :=
      Demo.forall₂_mem b2
    refine h3.imp fun σ k hk hr => ?_
    have := tell σ hk.1 hr _ hk.2
    unfold Demo.listAt at this
    split at this
    · have : k = 0 := by omega
      subst this
      assumption
    · exact this
  · have := tell s2 (by simp [statesOf]) h2 _ b5.view
    exact this

/-- **C83 (after start-up)** When the library has just been initialized, nothing is in the way. -/
theorem C83_started {p : Proc} (hf : FdInt w p) (now : Time) :
    Reachable w (started w p now) ∧ ∀ q ∈ demoPaths, ∀ c, Components q c → Clear (started w p now).tree 0 c := by
  refine ⟨(started_spec hf now).2.1, fun q hq c hc => ?_⟩
  rw [← comps_eq hc]
  exact Demo.started_clear hq

private theorem default_other (b : Bool) : ∀ q ∈ (defaultRegs b).map Reg.path ++ demoPaths,
    ¬ [lit "aaa", lit "bbb"] <+: newPathSpec q ∧ newPathSpec q ≠ [lit "proc", lit "foo", lit "ddd"] := by
  cases b <;> decide +kernel

/-- **C83 (the client)** What the client program gets: nothing is listed under `/aaa/bbb`, `/proc/foo/bar/baz` is 12.375
and there is no metric `/proc/foo/ddd`. -/
theorem C83_client (hw : IsDemo w) {p : Proc} (hf : FdInt w p) (now : Time) {pieces : List (Piece Fl)}
    (hp : powersOfTen = .ok pieces) (t0 : Time) (ts : ℕ → Time) {fuel : ℕ} :
    let s' := ((Demo.registerMetrics w.fnTy pieces t0 ts).run w (started w p now)).1
    (s'.tree.entries.length < fuel → (listMetrics false fuel (lit "/aaa/bbb")).run w s' = (s', [], .ok)) ∧
    GetTells w s' (lit "/proc/foo/bar/baz") (.scalar none (.float64 (.fin (99 / 8)))) .none
        (lit "Another float value") 0 ∧
    (getMetricMsg false (lit "/proc/foo/ddd")).run w s' = (s', none) := by
  obtain ⟨h1, h2⟩ := C83_started (w := w) hf now
  obtain ⟨s', o, e, -, -, -, hnew, -, -, -, -, -, hbaz, -⟩ := C83_demo hw h1 h2 hp t0 ts
  obtain ⟨s'', e', hre, -⟩ := Demo.demo_run hw h1 (fun p hp => h2 p hp _ (C01_components _)) (ten_ne hp) t0 ts
  rw [e] at e'
  simp only [Prod.mk.injEq, Out.ok.injEq, Except.ok.injEq] at e'
  obtain ⟨rfl, -⟩ := e'
  have hall : ∀ q m, Reaches s'.tree 0 q (.metric m) →
      ∃ x ∈ (defaultRegs p.hasFds).map Reg.path ++ demoPaths, q = newPathSpec x := by
    intro q m hq
    rcases hnew q m hq with hq | ⟨x, hx, hc⟩
    · obtain ⟨r, hr, rfl⟩ := C61_exact hf now hq
      exact ⟨r.path, List.mem_append_left _ (List.mem_map_of_mem hr), rfl⟩
    · exact ⟨x, List.mem_append_right _ hx, (comps_eq hc).symm⟩
  have ka : newPathSpec (lit "/aaa/bbb") = [lit "aaa", lit "bbb"] := by decide +kernel
  have kd : newPathSpec (lit "/proc/foo/ddd") = [lit "proc", lit "foo", lit "ddd"] := by decide +kernel
  intro σ
  have hσ : σ = s' := by show (Prog.run w _ _).1 = s'; rw [e]
  rw [hσ]
  refine ⟨fun hfuel => ?_, hbaz, ?_⟩
  · have hL : Canonical s'.tree (newPathSpec (lit "/aaa/bbb")) [] := by
      refine ⟨fun q m => ⟨nofun, ?_⟩, .nil⟩
      rintro ⟨hpre, hq⟩
      obtain ⟨x, hx, rfl⟩ := hall q m hq
      rw [ka] at hpre
      exact absurd hpre (default_other _ x hx).1
    obtain ⟨r1, r2, r3, r4⟩ := C10_listing (w := w) hre false (C01_components (lit "/aaa/bbb")) hfuel hL
    have hok := r3.mpr (fun x hx => nomatch hx)
    have h4 := r4 hok
    generalize (listMetrics false fuel (lit "/aaa/bbb")).run w s' = r at *
    obtain ⟨a, b, c⟩ := r
    simp only at r1 hok h4
    subst r1 hok
    simp only [List.filter_nil, List.map_nil, List.map_eq_nil_iff] at h4
    rw [h4]
  · refine (getMetricMsg_now hre false rfl).2 fun m hq => ?_
    obtain ⟨x, hx, he⟩ := hall _ m hq
    rw [kd] at he
    exact (default_other _ x hx).2 he.symm

/-- **C83 (ranges)** The ranges of `PowersOfTwo`, `PowersOfFour` and `PowersOfTen`: below 1, between successive powers up to
2¹⁸, 4⁹ and 10⁵, and above. -/
theorem C83_powers :
    (∃ p, powersOfTwo = .ok p ∧ p.length = 20 ∧ ∀ i, p[i]? = _root_.Spec.range ((List.range 19).map fun j => Fl.fin (2 ^ j)) i) ∧
    (∃ p, powersOfFour = .ok p ∧ p.length = 11 ∧ ∀ i, p[i]? = _root_.Spec.range ((List.range 10).map fun j => Fl.fin (4 ^ j)) i) ∧
    (∃ p, powersOfTen = .ok p ∧ p.length = 7 ∧ ∀ i, p[i]? = _root_.Spec.range ((List.range 6).map fun j => Fl.fin (10 ^ j)) i) := by
  have key : ∀ (r : Res (List (Piece Fl))) (l : List Fl) (n : ℕ), l.length + 1 = n →
      (match r with
        | .ok p => decide (p.map some = (List.range n).map (_root_.Spec.range l))
        | _ => false) = true → ∃ p, r = .ok p ∧ p.length = n ∧ ∀ i, p[i]? = _root_.Spec.range l i := by
    intro r l n hl h
    cases r with
    | ok p =>
      have h1 := of_decide_eq_true h
      have hlen : p.length = n := by simpa using congrArg List.length h1
      refine ⟨p, rfl, hlen, fun i => ?_⟩
      by_cases hi : i < n
      · have h2 := congrArg (fun x => x[i]?) h1
        simp only [List.getElem?_map, List.getElem?_range hi, Option.map_some] at h2
        have h3 : i < p.length := by omega
        rw [List.getElem?_eq_getElem h3] at h2 ⊢
        exact Option.some.inj h2
      · rw [List.getElem?_eq_none (by omega)]
        obtain ⟨j, rfl⟩ : ∃ j, i = j + 1 := ⟨i - 1, by omega⟩
        have h4 : l[j]? = none := List.getElem?_eq_none (by omega)
        simp [_root_.Spec.range, h4]
    | panic => cases h
    | timeout => cases h
  refine ⟨key _ _ _ (by simp) ?_, key _ _ _ (by simp) ?_, key _ _ _ (by simp) ?_⟩
  · decide +kernel
  · decide +kernel
  · decide +kernel

/-- a world with the callbacks of the demo program -/
def exDemoW : World where
  ord := fun _ l => l
  ord_perm := fun _ l => List.Perm.refl l
  fnTy := fun f => if f = 1 then .scalar ⟨none, .int .uint64⟩ else .scalar ⟨none, .float64⟩
  fn := fun _ f => some (if f = 1 then Demo.rpcCountCallback else Demo.bazCallback)
  fn_ty := by
    intro s f d h
    cases h
    split <;> rfl
  flagGet := fun _ _ => none
  flagString := fun _ _ => none
  lockTime := fun _ _ => Time.zero

theorem exDemoW_demo : IsDemo exDemoW := ⟨rfl, rfl, fun _ => rfl, fun _ => rfl⟩

/-- the demo program right after start-up: the distribution and the temperature are there -/
example : ∃ pieces s' o, powersOfTen = .ok pieces ∧
    (Demo.registerMetrics exDemoW.fnTy pieces Time.zero fun _ => Time.zero).run exDemoW
      (started exDemoW exProc Time.zero) = (s', .ok (.ok o)) ∧
    (∃ gid, GetTells exDemoW s' (lit "/proc/rpc-latency") (.dist (some demoLatency)) .millisecond (lit "RPC latency") gid) ∧
    GetTells exDemoW s' (lit "/proc/temperature") (.scalar none (.float64 (.fin (45 / 2)))) .celsius
      (lit "Temperature") 0 := by
  obtain ⟨-, -, pieces, hp, -⟩ := C83_powers
  obtain ⟨h1, h2⟩ := C83_started (w := exDemoW) (p := exProc) (fun h => nomatch h) Time.zero
  obtain ⟨s', o, e, -, -, -, -, -, a, -, b, -⟩ := C83_demo exDemoW_demo h1 h2 hp Time.zero fun _ => Time.zero
  exact ⟨pieces, s', o, hp, e, ⟨_, a⟩, b⟩

/-- the goroutine alone: 99 squares in the end -/
example : ∃ pieces s' o h s'' , powersOfTen = .ok pieces ∧
    (Demo.registerMetrics exDemoW.fnTy pieces Time.zero fun _ => Time.zero).run exDemoW
      (started exDemoW exProc Time.zero) = (s', .ok (.ok o)) ∧
    RunI exDemoW (Demo.updateList o.anIntList fun _ => Time.zero) s' h s'' true ∧ Alone o.anIntList h := by
  obtain ⟨-, -, pieces, hp, -⟩ := C83_powers
  obtain ⟨h1, h2⟩ := C83_started (w := exDemoW) (p := exProc) (fun h => nomatch h) Time.zero
  obtain ⟨s', o, e, -⟩ := C83_demo exDemoW_demo h1 h2 hp Time.zero fun _ => Time.zero
  obtain ⟨h, r1, r2⟩ := RunI_of_run (w := exDemoW) (Demo.updateList o.anIntList fun _ => Time.zero) s'
  have ha : Alone o.anIntList h := fun e he ho => by rw [r2 e he] at ho; cases ho
  have hb := (C83_squares exDemoW_demo h1 h2 hp e r1 ha).1
  exact ⟨pieces, s', o, h, _, hp, e, hb ▸ r1, ha⟩

end Tricorder
