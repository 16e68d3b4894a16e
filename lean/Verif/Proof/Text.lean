import Verif.Proof.Canon
import Verif.Proof.Sim
import Verif.Proof.Render
import Verif.Proof.Messages
import Verif.Proof.DistHist
import Verif.Spec.Text
/-!
# The text page
-/

namespace Tricorder
open Go Spec Tree _root_.Spec

variable {w : World} {s : State} {W : Type}

/-! ### writers -/

theorem all_append (wr : Writer W) (x : W) (a b : List Str) :
    wr.all x (a ++ b) = match wr.all x a with
      | (x', .ok) => wr.all x' b
      | r => r := by
  induction a generalizing x with
  | nil => rfl
  | cons c a ih =>
    rw [List.cons_append, Writer.all, Writer.all]
    split
    · rfl
    · exact ih _

theorem all_status (wr : Writer W) (x : W) (a : List Str) : (wr.all x a).2 = .ok ∨ ∃ e, (wr.all x a).2 = .err e := by
  induction a generalizing x with
  | nil => exact Or.inl rfl
  | cons c a ih =>
    rw [Writer.all]
    split
    · exact Or.inr ⟨_, rfl⟩
    · exact ih _

/-! ### what is written, as a function of the state -/

/-- the strings written for the value of a metric; `none` is a panic -/
def nowChunks (fm : Fmts) (w : World) (s : State) (mv : MetricView) : Option (List Str) :=
  if mv.value.valType = .dist then
    (mv.value.dist.bind fun i => (s.dists[i]?).bind fun d => d.snapshot).map (distText fm)
  else if mv.value.valType = .list then
    (mv.value.alist.bind fun i => listView s i).bind fun x =>
      (renderAll (fun d => valueToTextString fm d x.subType mv.value.unit false) (elemsOf x.val)).map
        fun xs => [joinByte 124 xs ++ [10]]
  else ((nowDyn w s mv.value).bind fun d =>
    valueToTextString fm d mv.value.valType mv.value.unit mv.value.isPtr).map fun x => [x ++ [10]]

/-- write them, or panic -/
def emit (wr : Writer W) (x : W) : Option (List Str) → W × Status
  | none => (x, .panic)
  | some cs => wr.all x cs

theorem textEmit_dist (fm : Fmts) (wr : Writer W) (mv : MetricView) (hd : mv.value.valType = .dist ∨ mv.value.valType = .list)
    (so : Option Session) (x : W) :
    (textEmitMetric fm wr mv so x).run w s = (s, (so, emit wr x (nowChunks fm w s mv))) := by
  unfold textEmitMetric nowChunks
  split
  · cases hi : mv.value.dist with
    | none => rfl
    | some i =>
      simp only [Prog.run]
      have h1 : (exec w (.snapshot i) s).1 = s := rfl
      have h2 : (exec w (.snapshot i) s).2 = (match s.dists[i]? with
        | none => none
        | some d => d.snapshot.map fun x => ⟨x, d.groupId⟩) := rfl
      rw [h1, h2]
      cases hd : s.dists[i]? with
      | none => simp only [Option.bind_some, hd]; rfl
      | some d =>
        simp only [Option.bind_some, hd]
        cases d.snapshot <;> rfl
  · rename_i hnd
    split
    · cases hi : mv.value.alist with
      | none => rfl
      | some i =>
        simp only [Prog.run]
        have h1 : (exec w (.getList i) s).1 = s := rfl
        have h2 : (exec w (.getList i) s).2 = listView s i := rfl
        rw [h1, h2]
        cases hl : listView s i with
        | none => simp only [Option.bind_some, hl]; rfl
        | some lv =>
          simp only [Option.bind_some, hl]
          cases renderAll (fun d => valueToTextString fm d lv.subType mv.value.unit false) (elemsOf lv.val) <;> rfl
    · rename_i h2
      rcases hd with h | h
      · exact absurd h hnd
      · exact absurd h h2

theorem asTextString_eq (fm : Fmts) (v : MValue) (so so' : Option Session)
    (h : ∀ conv : Dyn → Option Str, (readAs v so conv).run w s = (s, (so', outOf ((nowDyn w s v).bind conv))))
    (hn : v.src = none → so' = so) :
    (asTextString fm v so).run w s =
      (s, (so', outOf ((nowDyn w s v).bind fun d => valueToTextString fm d v.valType v.unit v.isPtr))) := by
  unfold asTextString
  cases hs : v.src with
  | none =>
    rw [hn hs]
    unfold nowDyn
    rw [hs]
    rfl
  | some _ => exact h _

theorem textEmit_in (fm : Fmts) (wr : Writer W) (mv : MetricView) {se : Session} (hs : Sane w s se) (x : W) :
    ∃ se', Sane w s se' ∧
      (textEmitMetric fm wr mv (some se) x).run w s = (s, (some se', emit wr x (nowChunks fm w s mv))) := by
  by_cases hd : mv.value.valType = .dist ∨ mv.value.valType = .list
  · exact ⟨se, hs, textEmit_dist fm wr mv hd (some se) x⟩
  · rw [not_or] at hd
    obtain ⟨se', h1, h2⟩ := evalIn_now hs mv.value
    have h3 : ∀ conv : Dyn → Option Str, (readAs mv.value (some se) conv).run w s =
        (s, (some se', outOf ((nowDyn w s mv.value).bind conv))) := by
      intro conv
      rw [← readHandle_now]
      refine readAs_step conv ?_
      unfold evaluate
      simp only
      rw [run_bind, h2]
      rfl
    unfold textEmitMetric nowChunks
    rw [if_neg hd.1, if_neg hd.2, if_neg hd.1, if_neg hd.2]
    cases hsrc : mv.value.src with
    | none =>
      refine ⟨se, hs, ?_⟩
      rw [run_bind]
      unfold asTextString nowDyn
      rw [hsrc]
      rfl
    | some sc =>
      refine ⟨se', h1, ?_⟩
      rw [run_bind, asTextString_eq fm mv.value (some se) (some se') h3 (fun h => by rw [hsrc] at h; cases h)]
      cases (nowDyn w s mv.value).bind fun d =>
        valueToTextString fm d mv.value.valType mv.value.unit mv.value.isPtr <;> rfl

theorem textEmit_alone (fm : Fmts) (wr : Writer W) (mv : MetricView) (x : W) :
    (textEmitMetric fm wr mv none x).run w s = (s, (none, emit wr x (nowChunks fm w s mv))) := by
  by_cases hd : mv.value.valType = .dist ∨ mv.value.valType = .list
  · exact textEmit_dist fm wr mv hd none x
  · rw [not_or] at hd
    unfold textEmitMetric nowChunks
    rw [if_neg hd.1, if_neg hd.2, if_neg hd.1, if_neg hd.2]
    rw [run_bind, asTextString_eq fm mv.value none none (fun conv => readAs_now_alone mv.value conv) (fun _ => rfl)]
    cases (nowDyn w s mv.value).bind fun d =>
      valueToTextString fm d mv.value.valType mv.value.unit mv.value.isPtr <;> rfl

/-- one metric of a text listing: the strings written, none if it is left out -/
theorem textCollect_now (fm : Fmts) (wr : Writer W) {m : ℕ} {mv : MetricView} (hm : metricView s.tree m = some mv)
    {se : Session} (hs : Sane w s se) (x : W) :
    ∃ se', Sane w s se' ∧
      (nowInfNaN w s mv.value = .ok true → (collect (textColl fm wr) m se x).run w s = (s, (se', wr.all x []))) ∧
      (∀ cs, nowInfNaN w s mv.value = .ok false → nowChunks fm w s mv = some cs →
        (collect (textColl fm wr) m se x).run w s = (s, (se', wr.all x ((mv.path ++ [32]) :: cs)))) := by
  obtain ⟨se1, h3, h4⟩ := isInfNaN_now hs mv.value
  have h1 : (exec w (.metric m) s).1 = s := rfl
  have h2 : (exec w (.metric m) s).2 = some mv := hm
  have hstart : (collect (textColl fm wr) m se x).run w s = ((match (some se1, nowInfNaN w s mv.value) with
      | (s', .panic) => .ret (s'.getD [], x, .panic)
      | (s', .ok true) => .ret (s'.getD [], x, .ok)
      | (s', .ok false) => textColl fm wr m (s'.getD []) x : Prog (Session × W × Status))).run w s := by
    unfold collect
    rw [Prog.run, h1, h2]
    simp only
    rw [run_bind, h4]
    rcases nowInfNaN w s mv.value with (_ | _) | _ <;> rfl
  rw [hstart]
  cases hi : nowInfNaN w s mv.value with
  | panic => exact ⟨se1, h3, fun h => (nomatch h), fun _ h => (nomatch h)⟩
  | ok b =>
    cases b with
    | true => exact ⟨se1, h3, fun _ => rfl, fun _ h => (nomatch h)⟩
    | false =>
      simp only [textColl, Option.getD_some]
      rw [Prog.run, h1, h2]
      simp only
      cases hw : wr.write x (mv.path ++ [32]) with
      | mk x' e =>
        cases e with
        | some e =>
          refine ⟨se1, h3, fun h => (nomatch h), fun cs _ _ => ?_⟩
          rw [Writer.all, hw]
          rfl
        | none =>
          obtain ⟨se2, h5, h6⟩ := textEmit_in fm wr mv h3 x'
          refine ⟨se2, h5, fun h => (nomatch h), fun cs _ hcs => ?_⟩
          simp only
          rw [run_bind, h6, hcs, Writer.all, hw]
          rfl

/-- the strings written for metric `m` in a listing -/
def lineChunks (fm : Fmts) (w : World) (s : State) (m : ℕ) : List Str :=
  match metricView s.tree m with
  | none => []
  | some mv => match nowInfNaN w s mv.value with
    | .ok true => []
    | _ => (mv.path ++ [32]) :: (nowChunks fm w s mv).getD []

/-- metric `m` can be shown -/
def Showable (fm : Fmts) (w : World) (s : State) (m : ℕ) : Prop :=
  ∃ mv b, metricView s.tree m = some mv ∧ nowInfNaN w s mv.value = .ok b ∧
    (b = false → (nowChunks fm w s mv).isSome = true)

theorem textCollect_line (fm : Fmts) (wr : Writer W) {m : ℕ} (hm : Showable fm w s m) {se : Session}
    (hs : Sane w s se) (x : W) : ∃ se', Sane w s se' ∧
      (collect (textColl fm wr) m se x).run w s = (s, (se', wr.all x (lineChunks fm w s m))) := by
  obtain ⟨mv, b, h1, h2, h3⟩ := hm
  obtain ⟨se', h4, h5, h6⟩ := textCollect_now fm wr h1 hs x
  refine ⟨se', h4, ?_⟩
  unfold lineChunks
  rw [h1]
  simp only
  rw [h2]
  cases b with
  | true => exact h5 h2
  | false =>
    obtain ⟨cs, hc⟩ := Option.isSome_iff_exists.mp (h3 rfl)
    rw [h6 cs h2 hc, hc]
    rfl

theorem calls_text (fm : Fmts) (wr : Writer W) {H : List Ev} (hH : ∀ e ∈ H, e.own = true ∧ e.pre = s)
    {V : List ℕ} {se : Session} {a : W} {se' : Session} {a' : W} {st : Status}
    (hc : Calls w (textColl fm wr) H V se a se' a' st) (hs : Sane w s se) (hV : ∀ m ∈ V, Showable fm w s m)
    (hst : st ≠ .timeout) : (a', st) = wr.all a (V.flatMap (lineChunks fm w s)) := by
  have start : ∀ {m se a σ h σ' r}, Showable fm w s m → RunI w (collect (textColl fm wr) m se a) σ h σ' r →
      (∀ e ∈ h, e.own = true ∧ e.pre = s) →
      Sane w s se → ∃ se', Sane w s se' ∧ r = (se', wr.all a (lineChunks fm w s m)) := by
    intro m se a σ h σ' r hm hr hi hse
    have hown : ∀ e ∈ h, e.own = true := fun e he => (hi e he).1
    have hσ : σ = s := by
      cases hr with
      | env c _ _ => exact absurd (hown _ List.mem_cons_self) (by simp)
      | op _ => exact (hi _ List.mem_cons_self).2
    subst hσ
    have h1 := run_of_RunI hr hown
    obtain ⟨se', h2, h3⟩ := textCollect_line fm wr hm hse a
    rw [h3] at h1
    exact ⟨se', h2, by rw [Prod.mk.injEq] at h1; exact h1.2.symm⟩
  induction hc with
  | done => rfl
  | timeout => exact absurd rfl hst
  | more _ hr _ ih =>
    obtain ⟨sx, h1, h2⟩ := start (hV _ List.mem_cons_self) hr (fun e he => hH e (by simp [he])) hs
    obtain ⟨rfl, h3⟩ := Prod.mk.inj h2
    rw [List.flatMap_cons, all_append, ← h3]
    exact ih (fun e he => hH e (by simp [he])) h1 (fun m hm => hV m (List.mem_cons_of_mem _ hm)) hst
  | stop _ hr _ hno =>
    obtain ⟨sx, h1, h2⟩ := start (hV _ List.mem_cons_self) hr (fun e he => hH e (by simp [he])) hs
    rw [List.flatMap_cons, List.flatMap_nil, List.append_nil]
    exact (Prod.mk.inj h2).2

theorem textColl_no_timeout (fm : Fmts) (wr : Writer W) : NoTimeout w (textColl fm wr) := by
  have hall : ∀ (x : W) (cs : List Str), (wr.all x cs).2 ≠ .timeout := by
    intro x cs h
    rcases all_status wr x cs with h1 | ⟨e, h1⟩ <;> rw [h1] at h <;> cases h
  have hemit : ∀ mv so x, Rets (fun r : Option Session × W × Status => r.2.2 ≠ .timeout) (textEmitMetric fm wr mv so x) := by
    intro mv so x
    unfold textEmitMetric
    split
    · split
      · exact .ret (by simp)
      · refine .op fun r => ?_
        cases r with
        | none => exact .ret (by simp)
        | some d => exact .ret (hall _ _)
    · split
      · split
        · exact .ret (by simp)
        · refine .op fun r => ?_
          cases r with
          | none => exact .ret (by simp)
          | some d =>
            dsimp only
            split
            · exact .ret (by simp)
            · exact .ret (hall _ _)
      · refine (Rets.any _).bind ?_
        rintro ⟨so', _ | _⟩ -
        · exact .ret (hall _ _)
        · exact .ret (by simp)
  intro m se a σ h σ' r hr
  refine Rets.runI (P := fun r => r.2.2 ≠ .timeout) (.op fun r => ?_) hr
  cases r with
  | none => exact .ret (by simp)
  | some mv =>
    dsimp only
    split
    · exact .ret (by simp)
    · exact (hemit _ _ _).bind fun r hr => .ret hr

/-! ### texts of values -/

/-- the text of a value of an element type -/
theorem text_base (fm : Fmts) {n : Option ℕ} {b : Base} {t : Ty} (u : MUnit) (hv : b.Valid)
    (ht : elemType (.scalar ⟨n, b.ty⟩) = some t) :
    ∃ x, valueToTextString fm (.scalar n b) t u false = some x ∧ TextBase fm t u b x := by
  cases b with
  | bool b =>
    have : t = .bool := by cases n <;> simpa [elemType, Base.ty] using ht.symm
    subst this
    exact ⟨_, rfl, rfl⟩
  | string b =>
    have : t = .string := by cases n <;> simpa [elemType, Base.ty] using ht.symm
    subst this
    exact ⟨_, rfl, rfl⟩
  | float32 b =>
    have : t = .float32 := by cases n <;> simpa [elemType, Base.ty] using ht.symm
    subst this
    exact ⟨_, rfl, rfl⟩
  | float64 b =>
    have : t = .float64 := by cases n <;> simpa [elemType, Base.ty] using ht.symm
    subst this
    exact ⟨_, rfl, rfl⟩
  | int k x => exact ⟨_, text_eq fm u (Or.inl ⟨n, k, rfl, hv, ht⟩), fmtInt_spec x⟩
  | time x =>
    cases n with
    | some n => simp [elemType, Base.ty] at ht
    | none =>
      have : t = .goTime := by simpa [elemType, Base.ty] using ht.symm
      subst this
      refine ⟨timeAsString x u, ?_, fun hr => timeAsString_denotes x hv hr u⟩
      simp [valueToTextString, Ty.isInt, Ty.isUint, valueToTime, timeToDuration, timeAsString]
      cases x.isZero <;> rfl
  | duration x =>
    cases n with
    | some n =>
      have : t = .int64 := by simpa [elemType, Base.ty] using ht.symm
      subst this
      refine ⟨_, text_eq fm u (Or.inr ⟨n, rfl, hv, rfl⟩), ?_⟩
      simp only [TextBase]
      rw [if_neg (by simp)]
      exact fmtInt_spec x
    | none =>
      have : t = .goDuration := by simpa [elemType, Base.ty] using ht.symm
      subst this
      refine ⟨durationAsString x u, ?_, ?_⟩
      · simp [valueToTextString, Ty.isInt, Ty.isUint, valueToGoDuration, Dyn.int, durationAsString]
      · simp only [TextBase, if_true]
        exact durationAsString_denotes x hv u

/-- the reported value has the same text -/
theorem text_interface (fm : Fmts) {n : Option ℕ} {b : Base} {t : Ty} (u : MUnit) (hv : b.Valid)
    (ht : elemType (.scalar ⟨n, b.ty⟩) = some t) {v : Val} (h : valueToInterface (.scalar n b) t false = some v) :
    ∃ n' b', v = .scalar n' b' ∧ ∀ x, TextBase fm t u b x → TextBase fm t u b' x := by
  cases b with
  | bool b =>
    have : t = .bool := by cases n <;> simpa [elemType, Base.ty] using ht.symm
    subst this
    cases h
    exact ⟨_, _, rfl, fun _ h => h⟩
  | string b =>
    have : t = .string := by cases n <;> simpa [elemType, Base.ty] using ht.symm
    subst this
    cases h
    exact ⟨_, _, rfl, fun _ h => h⟩
  | float32 b =>
    have : t = .float32 := by cases n <;> simpa [elemType, Base.ty] using ht.symm
    subst this
    cases h
    exact ⟨_, _, rfl, fun _ h => h⟩
  | float64 b =>
    have : t = .float64 := by cases n <;> simpa [elemType, Base.ty] using ht.symm
    subst this
    cases h
    exact ⟨_, _, rfl, fun _ h => h⟩
  | int k x =>
    have hx : k.InRange x := hv
    cases k <;>
    · have := Option.some.inj ((show elemType _ = _ by cases n <;> rfl).symm.trans ht)
      subst this
      simp [IntKind.InRange, IntKind.signed, IntKind.bits] at hx
      cases h
      refine ⟨_, _, rfl, fun y hy => ?_⟩
      simp only [TextBase] at hy ⊢
      first
        | exact hy
        | (convert hy using 1; (try simp only [i32, i64, u64]); omega)
  | time x =>
    cases n with
    | some n => simp [elemType, Base.ty] at ht
    | none =>
      have : t = .goTime := by simpa [elemType, Base.ty] using ht.symm
      subst this
      cases h
      exact ⟨_, _, rfl, fun _ h => h⟩
  | duration x =>
    have hx : InI64 x := hv
    cases n with
    | some n =>
      have : t = .int64 := by simpa [elemType, Base.ty] using ht.symm
      subst this
      cases h
      refine ⟨_, _, rfl, fun y hy => ?_⟩
      simp only [TextBase] at hy ⊢
      rw [if_neg (by simp)] at hy
      convert hy using 1
      unfold InI64 at hx
      simp only [i64]
      omega
    | none =>
      have : t = .goDuration := by simpa [elemType, Base.ty] using ht.symm
      subst this
      cases h
      exact ⟨_, _, rfl, fun _ h => h⟩

/-! ### distributions -/

theorem range_some {l : List Fl} (hl : l ≠ []) (i : ℕ) : (range l i).isSome = true ↔ i ≤ l.length := by
  cases i with
  | zero =>
    cases l with
    | nil => exact absurd rfl hl
    | cons a l => simp [range]
  | succ i =>
    simp only [range]
    by_cases h : i < l.length
    · rw [List.getElem?_eq_getElem h]
      cases l[i + 1]? <;> simp <;> omega
    · rw [List.getElem?_eq_none (by omega)]
      simp; omega

theorem range_first {l : List Fl} {i : ℕ} {p : Piece Fl} (h : range l i = some p) : p.first = true ↔ i = 0 := by
  cases i with
  | zero =>
    simp only [range, Option.map_eq_some_iff] at h
    obtain ⟨e, -, rfl⟩ := h
    simp
  | succ i =>
    simp only [range] at h
    split at h <;> first | cases h; done | (cases h; simp)

theorem range_last {l : List Fl} (hl : l ≠ []) {i : ℕ} {p : Piece Fl} (h : range l i = some p) : p.last = true ↔ i = l.length := by
  have hpos : 0 < l.length := List.length_pos_iff.mpr hl
  cases i with
  | zero =>
    simp only [range, Option.map_eq_some_iff] at h
    obtain ⟨e, -, rfl⟩ := h
    simp; omega
  | succ i =>
    simp only [range] at h
    split at h
    · rename_i a b h1 h2
      have := (List.getElem?_eq_some_iff.mp h2).1
      cases h; simp; omega
    · rename_i a h1 h2
      have := (List.getElem?_eq_some_iff.mp h1).1
      have := List.getElem?_eq_none_iff.mp h2
      cases h; simp; omega
    · cases h

theorem pieces_length {l : List Fl} (hl : l ≠ []) {ps : List (Piece Fl)} (h : ∀ i : ℕ, ps[i]? = range l i) :
    ps.length = l.length + 1 := by
  have h1 : ∀ i, i < ps.length ↔ i ≤ l.length := by
    intro i
    rw [← range_some hl, ← h]
    simp
  have h2 := h1 l.length
  have h3 := h1 (l.length + 1)
  omega

theorem snapshot_breakdown {d : Dist Fl} {sn : Snapshot Fl} (h : d.snapshot = some sn) :
    sn.breakdown = d.pieces.zip d.counts ∧ d.pieces.length ≤ d.counts.length := by
  unfold Dist.snapshot at h
  split at h
  · cases h
  · rename_i hlt
    split at h
    · cases h; exact ⟨rfl, by omega⟩
    · split at h
      · cases h
      · cases h; exact ⟨rfl, by omega⟩

theorem fmtNat_denotes (n : ℕ) : DenotesInt (fmtNat n) (n : ℤ) := by
  have h := fmtInt_spec (n : ℤ)
  unfold fmtInt at h
  rw [if_neg (by omega)] at h
  simpa using h

theorem flatten_flatMap_pieces (fm : Fmts) (l : List (Piece Fl × ℕ)) :
    (l.flatMap (pieceText fm)).flatten = (l.map fun x => (pieceText fm x).flatten).flatten := by
  induction l with
  | nil => rfl
  | cons a l ih => simp [ih]

theorem text_dist (fm : Fmts) {d : Dist Fl} {sn : Snapshot Fl} (h : d.snapshot = some sn) {l : List Fl} (hl : l ≠ [])
    (hp : ∀ i : ℕ, d.pieces[i]? = range l i) :
    ∃ txt, (distText fm sn).flatten = txt ++ [10] ∧ TextDist fm (shownDist sn) txt := by
  obtain ⟨hb, hle⟩ := snapshot_breakdown h
  have hlen := pieces_length hl hp
  have hbl : sn.breakdown.length = l.length + 1 := by rw [hb, List.length_zip]; omega
  refine ⟨_, ?_, fmtNat sn.count, sn.breakdown.map fun x => (pieceText fm x).flatten, ?_, ?_, ?_, rfl⟩
  · unfold distText shownDist
    rw [List.flatten_cons, List.flatten_append, flatten_flatMap_pieces]
    simp only [List.flatten_cons, List.flatten_nil, List.append_nil, List.append_assoc]
    rfl
  · exact fmtNat_denotes sn.count
  · simp [shownDist]
  · intro i r x hr hx
    simp only [shownDist, List.getElem?_map, List.length_map] at hr hx ⊢
    rw [hbl]
    cases hi : sn.breakdown[i]? with
    | none => rw [hi] at hr; cases hr
    | some pc =>
      rw [hi] at hr hx
      obtain ⟨p, c⟩ := pc
      simp only [Option.map_some, Option.some.injEq] at hr hx
      subst hr hx
      rw [hb] at hi
      have hpi : d.pieces[i]? = some p := by
        rw [List.getElem?_zip_eq_some] at hi
        exact hi.1
      rw [hp] at hpi
      have h1 := range_first hpi
      have h2 := range_last hl hpi
      have hpos : 0 < l.length := List.length_pos_iff.mpr hl
      have hc := fmtNat_denotes c
      unfold TextRange pieceText
      simp only
      by_cases h0 : c = 0
      · rw [if_pos h0, if_pos h0]; rfl
      · rw [if_neg h0, if_neg h0]
        refine ⟨_, hc, ?_⟩
        by_cases hf : p.first = true
        · rw [if_pos hf, if_pos (h1.mp hf), if_neg (by have := h1.mp hf; omega)]
          simp [lit]
        · rw [if_neg hf, if_neg (fun h => hf (h1.mpr h))]
          by_cases hla : p.last = true
          · rw [if_pos hla, if_pos (by have := h2.mp hla; omega)]
            simp [lit]
          · rw [if_neg hla, if_neg (fun h => hla (h2.mpr (by omega)))]
            simp

/-! ### lists -/

theorem text_list (fm : Fmts) {e : ScalarTy} {t : Ty} (u : MUnit) (ht : elemType (.scalar e) = some t) :
    ∀ es : List Base, (∀ b ∈ es, b.ty = e.base ∧ b.Valid) →
      ∃ parts, renderAll (fun d => valueToTextString fm d t u false) (es.map fun b => .scalar e.named b) = some parts ∧
        List.Forall₂ (TextBase fm t u) es parts
  | [], _ => ⟨[], rfl, .nil⟩
  | b :: es, h => by
    obtain ⟨hb1, hb2⟩ := h b List.mem_cons_self
    obtain ⟨parts, h1, h2⟩ := text_list fm u ht es (fun b hb => h b (List.mem_cons_of_mem _ hb))
    obtain ⟨x, h3, h4⟩ := text_base fm (n := e.named) u hb2 (t := t) (by rw [hb1]; exact ht)
    refine ⟨x :: parts, ?_, .cons h4 h2⟩
    rw [List.map_cons, renderAll]
    simp only [h3, h1, Option.map_some]

/-! ### all metrics -/

theorem text_metric (fm : Fmts) (ht : Typed w s) {m : ℕ} {mv : MetricView} (hm : metricView s.tree m = some mv)
    {y : Metric} (hy : nowMetric w s mv = some y) :
    ∃ cs txt, nowChunks fm w s mv = some cs ∧ cs.flatten = txt ++ [10] ∧ TextOf fm y txt := by
  unfold nowMetric at hy
  unfold nowChunks
  split at hy
  · rename_i hd
    rw [if_pos hd]
    split at hy
    · cases hy
    · rename_i i hi
      split at hy
      · cases hy
      · rename_i d hdi
        obtain ⟨sn, h1, rfl⟩ := Option.map_eq_some_iff.mp hy
        obtain ⟨l, hl, hp⟩ := ht.dists i d hdi
        obtain ⟨txt, h2, h3⟩ := text_dist fm h1 hl hp
        rw [hi]
        simp only [Option.bind_some, hdi, h1, Option.map_some]
        exact ⟨_, txt, rfl, h2, h3⟩
  · rename_i hnd
    rw [if_neg hnd]
    split at hy
    · rename_i hl
      rw [if_pos hl]
      split at hy
      · cases hy
      · rename_i i hi
        obtain ⟨lv, h1, rfl⟩ := Option.map_eq_some_iff.mp hy
        rw [hi]
        simp only [Option.bind_some, h1]
        have hty := reachable_typed (grown_reachable ht.grown)
        unfold listView at h1
        split at h1
        · cases h1
        · rename_i lo hlo
          split at h1
          · cases h1
          · rename_i c hc
            cases h1
            obtain ⟨cell, c1, c2, c3⟩ := hty i lo hlo
            rw [hc] at c1
            cases c1
            simp only
            unfold Cell.val
            cases he : c.elem with
            | timePtr => rw [he] at c2; cases c2
            | other k => rw [he] at c2; cases c2
            | scalar t =>
              rw [he] at c2
              obtain ⟨parts, h3, h4⟩ := text_list fm mv.value.unit c2 (c.data.getD []) (ht.slices _ c hc t he)
              simp only [elemsOf, h3, Option.map_some]
              refine ⟨_, joinByte 124 parts, rfl, by simp, ?_⟩
              simp only [TextOf, blankMetric]
              exact ⟨parts, h4, by rw [joinByte_eq]; rfl⟩
    · rename_i hnl
      rw [if_neg hnl]
      unfold nowScalar at hy
      split at hy
      · rename_i val r hval hr
        obtain ⟨gid, -, rfl⟩ := Option.map_eq_some_iff.mp hy
        unfold nowVal at hval
        obtain ⟨d, hd, hx⟩ := Option.bind_eq_some_iff.mp hval
        rw [hd]
        simp only [Option.bind_some]
        have hok : DynOk d := by
          unfold nowDyn at hd
          obtain ⟨sc, h1, h2⟩ := Option.bind_eq_some_iff.mp hd
          exact ht.sources m mv sc d hm h1 h2
        have hfit : DynFits mv.value d := by
          unfold nowDyn at hd
          obtain ⟨sc, h1, h2⟩ := Option.bind_eq_some_iff.mp hd
          have hf := view_fits (grown_fit ht.grown) hm
          unfold Fits at hf
          rw [h1] at hf
          cases sc with
          | var i =>
            obtain ⟨d', h3, h4⟩ := hf
            have : s.vars[i]? = some d := h2
            rw [this] at h3
            cases h3
            exact h4
          | fn f => exact ⟨w.fnTy f, w.fn_ty s f d h2, hf⟩
          | flagGet g => exact ht.flags m mv hm g s d h1 rfl h2
          | flagString g =>
            obtain ⟨str, -, rfl⟩ := Option.map_eq_some_iff.mp h2
            refine ⟨_, rfl, ?_⟩
            rw [hf.1, hf.2]; rfl
        obtain ⟨g, g1, g2⟩ := hfit
        cases d with
        | invalid => cases g1
        | other i => cases g1; simp [metricType, elemType] at g2
        | timePtr o =>
          cases g1
          simp only [metricType, Option.some.injEq, Prod.mk.injEq] at g2
          obtain ⟨g2, g3⟩ := g2
          rw [← g2, ← g3] at hx ⊢
          have key : ∀ t : Time, t.Valid → valueToTime (.timePtr o) true = some t →
              ∃ cs txt, (valueToTextString fm (.timePtr o) .goTime mv.value.unit true).map (fun x => [x ++ [10]]) = some cs ∧
                cs.flatten = txt ++ [10] ∧
                TextOf fm { blankMetric mv .unknown with value := val, timeStamp := .time (w.lockTime s r), groupId := gid } txt := by
            intro t hv hvt
            refine ⟨[timeAsString t mv.value.unit ++ [10]], timeAsString t mv.value.unit, ?_, by simp, ?_⟩
            · simp [valueToTextString, Ty.isInt, Ty.isUint, hvt, timeToDuration, timeAsString]
              cases t.isZero <;> rfl
            · simp [valueToInterface, hvt] at hx
              subst hx
              exact fun hr => timeAsString_denotes t hv hr _
          cases o with
          | none => exact key Time.zero (by decide) rfl
          | some t => exact key t hok rfl
        | scalar n b =>
          cases g1
          simp only [metricType] at g2
          obtain ⟨t, t1, t2⟩ := Option.map_eq_some_iff.mp g2
          simp only [Prod.mk.injEq] at t2
          obtain ⟨rfl, t3⟩ := t2
          rw [← t3] at hx ⊢
          obtain ⟨x, h3, h4⟩ := text_base fm mv.value.unit hok t1
          obtain ⟨n', b', rfl, h6⟩ := text_interface fm mv.value.unit hok t1 hx
          rw [h3]
          exact ⟨_, x, rfl, List.append_nil _, h6 x h4⟩
      · cases hy

theorem text_showable (fm : Fmts) (ht : Typed w s) {m : ℕ} (h : nowItem w s false m ≠ .panic) : Showable fm w s m := by
  unfold nowItem at h
  split at h
  · exact absurd rfl h
  · rename_i mv hm
    split at h
    · exact absurd rfl h
    · rename_i hi; exact ⟨mv, true, hm, hi, fun h => (nomatch h)⟩
    · rename_i hi
      refine ⟨mv, false, hm, hi, fun _ => ?_⟩
      cases hn : nowMetric w s mv with
      | none => rw [hn] at h; exact absurd rfl h
      | some y =>
        obtain ⟨cs, txt, h1, -⟩ := text_metric fm ht hm hn
        rw [h1]; rfl

end Tricorder
