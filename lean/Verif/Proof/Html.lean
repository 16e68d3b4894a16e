import Verif.Proof.Text
import Verif.Model.Html
import Verif.Spec.Html
import Verif.Props.Render
import Verif.Props.Duration
/-!
# The HTML page
-/

namespace Tricorder
open Go Spec Tree _root_.Spec

variable {w : World} {s : State} {W : Type}

/-! ### escaping -/

theorem esc_cons (b : UInt8) (x : Str) : esc (b :: x) = escByte b ++ esc x := List.flatMap_cons

theorem esc_escapes (x : Str) : Escapes (esc x) x := by
  induction x with
  | nil => exact .nil
  | cons b x ih =>
    rw [esc_cons]
    unfold escByte
    split
    · rename_i h; subst h; exact .nul ih
    · split
      · rename_i h; subst h; exact .ref (by decide) ih
      · split
        · rename_i h; subst h; exact .ref (by decide) ih
        · split
          · rename_i h; subst h; exact .ref (by decide) ih
          · split
            · rename_i h; subst h; exact .ref (by decide) ih
            · split
              · rename_i h; subst h; exact .ref (by decide) ih
              · split
                · rename_i h; subst h; exact .ref (by decide) ih
                · exact .plain (by simp; tauto) ih

theorem esc_digits {x : Str} (h : AllDigits x) : esc x = x := by
  induction x with
  | nil => rfl
  | cons b x ih =>
    have hb := h b List.mem_cons_self
    rw [esc_cons, ih (fun c hc => h c (List.mem_cons_of_mem _ hc))]
    have : escByte b = [b] := by
      unfold escByte
      have hne : ∀ k : UInt8, k.toNat < 48 ∨ 57 < k.toNat → ¬ b = k := by
        rintro k hk rfl
        omega
      rw [if_neg (hne 0 (by decide)), if_neg (hne 34 (by decide)), if_neg (hne 38 (by decide)), if_neg (hne 39 (by decide)),
        if_neg (hne 43 (by decide)), if_neg (hne 60 (by decide)), if_neg (hne 62 (by decide))]
    rw [this]; rfl

theorem esc_fmtNat (n : ℕ) : esc (fmtNat n) = fmtNat n := esc_digits (fmtNat_spec n).1

theorem name_text (t : Ty) : (htmlType t).name = typeText t := by cases t <;> rfl
theorem string_text (u : MUnit) : u.string = unitText u := by cases u <;> rfl

/-! ### what is written, as a function of the state -/

/-- the strings written for a metric; `none` is a panic -/
def nowHtml (fm : Fmts) (w : World) (s : State) (mv : MetricView) : Option (List Str) :=
  if mv.value.valType = .dist then
    (mv.value.dist.bind fun i => (s.dists[i]?).bind fun d => d.snapshot).map fun x =>
      ([lit "      ", esc mv.path, lit " <span class=\"parens\">(distribution: ", esc mv.description] ++
        unitPart mv.value.unit ++ [lit ")</span><br>\n"]) ++ htmlSnapshot fm x
  else if mv.value.valType = .list then
    (mv.value.alist.bind fun i => listView s i).bind fun x =>
      (renderAll (fun d => valueToHtmlString fm d x.subType mv.value.unit false) (elemsOf x.val)).map fun xs =>
        ([lit "      ", esc mv.path, lit " <span class=\"parens\">(list of ", esc (htmlType x.subType).name,
            lit ": ", esc mv.description] ++ unitPart mv.value.unit ++ [lit ")</span>\n      <ul>\n"]) ++
          (xs.flatMap (fun e => [lit "        <li>", esc e, lit "</li>\n"]) ++ [lit "      </ul>\n"])
  else ((nowDyn w s mv.value).bind fun d =>
    valueToHtmlString fm d mv.value.valType mv.value.unit mv.value.isPtr).map fun x =>
      [lit "      ", esc mv.path, lit " "] ++ ([esc x, lit " <span class=\"parens\">(",
            esc (htmlType mv.value.valType).name, lit ": ", esc mv.description] ++ unitPart mv.value.unit ++
            [lit ")</span><br>\n"])

theorem writing_run (wr : Writer W) (x : W) (cs : List Str) {se : Session} (hs : Sane w s se)
    (k : W → Prog (Session × W × Status)) {ds : List Str}
    (hk : ∀ y, ∃ se', Sane w s se' ∧ (k y).run w s = (s, (se', wr.all y ds))) :
    ∃ se', Sane w s se' ∧ (writing wr x cs se k).run w s = (s, (se', wr.all x (cs ++ ds))) := by
  unfold writing
  rw [all_append]
  cases h : wr.all x cs with
  | mk x' st =>
    cases st with
    | ok => exact hk x'
    | err => exact ⟨se, hs, rfl⟩
    | panic => exact ⟨se, hs, rfl⟩
    | timeout => exact ⟨se, hs, rfl⟩

theorem asHtmlString_now (fm : Fmts) (v : MValue) {se : Session} (hs : Sane w s se) :
    ∃ se', Sane w s se' ∧ (asHtmlString fm v (some se)).run w s =
      (s, (some se', outOf ((nowDyn w s v).bind fun d => valueToHtmlString fm d v.valType v.unit v.isPtr))) := by
  unfold asHtmlString
  cases hsrc : v.src with
  | none =>
    refine ⟨se, hs, ?_⟩
    unfold nowDyn
    rw [hsrc]
    rfl
  | some _ => exact readAs_now hs v _

theorem htmlMetric_now (fm : Fmts) (wr : Writer W) (mv : MetricView) {se : Session} (hs : Sane w s se) (x : W)
    {cs : List Str} (hc : nowHtml fm w s mv = some cs) :
    ∃ se', Sane w s se' ∧ (htmlMetric fm wr mv se x).run w s = (s, (se', wr.all x cs)) := by
  unfold nowHtml at hc
  unfold htmlMetric
  split at hc
  · rename_i hd
    rw [if_pos hd]
    obtain ⟨sn, h1, rfl⟩ := Option.map_eq_some_iff.mp hc
    obtain ⟨i, h2, h3⟩ := Option.bind_eq_some_iff.mp h1
    obtain ⟨d, h4, h5⟩ := Option.bind_eq_some_iff.mp h3
    rw [h2]
    refine writing_run wr x _ hs _ fun y => ⟨se, hs, ?_⟩
    simp only
    rw [Prog.run]
    have e1 : (exec w (.snapshot i) s).1 = s := rfl
    have e2 : (exec w (.snapshot i) s).2 = some ⟨sn, d.groupId⟩ := by
      show (match s.dists[i]? with
        | none => none
        | some d => d.snapshot.map fun x => (⟨x, d.groupId⟩ : DistView)) = _
      rw [h4]; simp [h5]
    rw [e1, e2]; rfl
  · rename_i hnd
    rw [if_neg hnd]
    split at hc
    · rename_i hl
      rw [if_pos hl]
      obtain ⟨lv, h1, h2⟩ := Option.bind_eq_some_iff.mp hc
      obtain ⟨xs, h3, rfl⟩ := Option.map_eq_some_iff.mp h2
      obtain ⟨i, h4, h5⟩ := Option.bind_eq_some_iff.mp h1
      have e1 : (exec w (.getList i) s).1 = s := rfl
      have e2 : (exec w (.getList i) s).2 = some lv := h5
      rw [h4]
      simp only
      rw [Prog.run, e1, e2]
      simp only
      refine writing_run wr x _ hs _ fun y => ⟨se, hs, ?_⟩
      rw [Prog.run, e1, e2]
      simp only [h3]
      rfl
    · rename_i hnl
      rw [if_neg hnl]
      obtain ⟨v, h1, rfl⟩ := Option.map_eq_some_iff.mp hc
      obtain ⟨se', h2, h3⟩ := asHtmlString_now fm mv.value hs
      rw [h1] at h3
      refine writing_run wr x _ hs _ fun y => ⟨se', h2, ?_⟩
      rw [run_bind, h3]
      rfl

theorem htmlEnd_now (wr : Writer W) (x : W) (cs : List Str) (se : Session) :
    (htmlEnd wr (se, wr.all x cs)).run w s = (s, (se, wr.all x (cs ++ [pageFoot]))) := by
  rw [all_append]
  cases h : wr.all x cs with
  | mk x' st => cases st <;> rfl

/-- the strings written for an entry of a directory -/
def entryChunks (fm : Fmts) (w : World) (s : State) (en : Entry) : Option (List Str) :=
  match en.dir, en.metric with
  | some d, _ => (s.tree.dirAbsPath d).map fun p =>
      [lit "        <a href=\"", esc (urlNorm (htmlLink p)), lit "\">", esc p, lit "</a><br>\n"]
  | none, some m => (metricView s.tree m).bind fun mv => nowHtml fm w s mv
  | none, none => none

theorem htmlEntry_now (fm : Fmts) (wr : Writer W) (en : Entry) {se : Session} (hs : Sane w s se) (x : W)
    {cs : List Str} (hc : entryChunks fm w s en = some cs) :
    ∃ se', Sane w s se' ∧ (htmlEntry fm wr en se x).run w s = (s, (se', wr.all x cs)) := by
  unfold entryChunks at hc
  unfold htmlEntry
  split at hc
  · rename_i d hd
    obtain ⟨p, h1, rfl⟩ := Option.map_eq_some_iff.mp hc
    refine ⟨se, hs, ?_⟩
    simp only [hd]
    rw [Prog.run]
    have e1 : (exec w (.dirAbsPath d) s).1 = s := rfl
    have e2 : (exec w (.dirAbsPath d) s).2 = some p := h1
    rw [e1, e2]
    rfl
  · rename_i m hd hm
    obtain ⟨mv, h1, h2⟩ := Option.bind_eq_some_iff.mp hc
    obtain ⟨se', h3, h4⟩ := htmlMetric_now fm wr mv hs x h2
    refine ⟨se', h3, ?_⟩
    simp only [hd, hm]
    rw [Prog.run]
    have e1 : (exec w (.metric m) s).1 = s := rfl
    have e2 : (exec w (.metric m) s).2 = some mv := h1
    rw [e1, e2]
    exact h4
  · cases hc

theorem htmlEntries_now (fm : Fmts) (wr : Writer W) : ∀ (l : List (ℕ × Entry)) {se : Session} (_ : Sane w s se) (x : W)
    (_ : ∀ e ∈ l, (entryChunks fm w s e.2).isSome = true),
    ∃ se', Sane w s se' ∧ (htmlEntries fm wr l se x).run w s =
      (s, (se', wr.all x (l.flatMap fun e => (entryChunks fm w s e.2).getD [])))
  | [], se, hs, x, _ => ⟨se, hs, rfl⟩
  | (e, en) :: l, se, hs, x, h => by
    obtain ⟨cs, hc⟩ := Option.isSome_iff_exists.mp (h (e, en) List.mem_cons_self)
    obtain ⟨se1, h1, h2⟩ := htmlEntry_now fm wr en hs x hc
    rw [htmlEntries, run_bind, h2, List.flatMap_cons, all_append, hc, Option.getD_some]
    cases ha : wr.all x cs with
    | mk x' st =>
      cases st with
      | ok =>
        simp only
        exact htmlEntries_now fm wr l h1 x' (fun e he => h e (List.mem_cons_of_mem _ he))
      | err => exact ⟨se1, h1, rfl⟩
      | panic => exact ⟨se1, h1, rfl⟩
      | timeout => exact ⟨se1, h1, rfl⟩

theorem withSession_now {A : Type} {body : Session → Prog (Session × A × Status)} {se : Session} {r : A × Status}
    (h : (body []).run w s = (s, (se, r))) : (withSession body).run w s = (s, r) := by
  unfold withSession
  rw [run_bind, h]
  simp only
  rw [run_bind, close_now]
  rfl

/-! ### values -/

/-- the value read for a metric is a value of its Go type, and its type is the one registered -/
theorem source_fits (ht : Typed w s) {m : ℕ} {mv : MetricView} (hm : metricView s.tree m = some mv) {d : Dyn}
    (hd : nowDyn w s mv.value = some d) : DynOk d ∧ DynFits mv.value d := by
  unfold nowDyn at hd
  obtain ⟨sc, h1, h2⟩ := Option.bind_eq_some_iff.mp hd
  refine ⟨ht.sources m mv sc d hm h1 h2, ?_⟩
  have hf := view_fits (grown_fit ht.grown) hm
  unfold Fits at hf
  rw [h1] at hf
  cases sc with
  | var i =>
    obtain ⟨d', h3, h4⟩ := hf
    have : s.vars[i]? = some d := h2
    rw [this] at h3
    cases h3
    exact h4
  | fn f => exact ⟨w.fnTy f, w.fn_ty s f d h2, hf⟩
  | flagGet g => exact ht.flags m mv hm g s d h1 rfl h2
  | flagString g =>
    obtain ⟨str, -, rfl⟩ := Option.map_eq_some_iff.mp h2
    refine ⟨_, rfl, ?_⟩
    rw [hf.1, hf.2]; rfl

theorem html_int (fm : Fmts) {d : Dyn} {t : Ty} {x : ℤ} (h : IsIntVal d t x) (u : MUnit) :
    ∃ y, valueToHtmlString fm d t u false = some y ∧ HtmlInt u x y := by
  unfold HtmlInt
  by_cases hu : u = .none
  · subst hu
    obtain ⟨text, html, h1, h2, -, sign, ds, g, h4, h5, h6, h7, h8⟩ := C49_html fm h
    rw [text_eq fm .none h] at h1
    cases h1
    obtain ⟨ws, w1, w2, w3, w4⟩ := fmtInt_spec x
    rw [w4, h6] at h4
    have := List.append_cancel_left h4
    subst this
    refine ⟨html, h2, ?_⟩
    rw [if_pos rfl]
    exact ⟨ws, g, w1, w2, w3, h8, by rw [h5, h6]⟩
  · obtain ⟨y, h1, h2⟩ := C50_html fm h hu
    refine ⟨y, h1, ?_⟩
    rw [if_neg hu]
    exact h2

theorem html_duration (fm : Fmts) {x : ℤ} (hx : InI64 x) (u : MUnit) :
    ∃ y, valueToHtmlString fm (.scalar none (.duration x)) .goDuration u false = some y ∧
      if x < 0 then Denotes9 y (x * perSecond u) else Pretty x.toNat y := by
  obtain ⟨h1, h2, -⟩ := Dur.new_coherent x hx
  have hneg : (Dur.new x).isNegative = true ↔ x < 0 := by
    have e : (Dur.new x).sec * 1000000000 + (Dur.new x).nsec = x := h2
    unfold Coherent at h1
    unfold Dur.isNegative
    rw [Bool.or_eq_true, decide_eq_true_eq, decide_eq_true_eq]
    omega
  have he : valueToHtmlString fm (.scalar none (.duration x)) .goDuration u false =
      if (Dur.new x).isNegative then valueToTextString fm (.scalar none (.duration x)) .goDuration u false
      else (Dur.new x).prettyFormat := rfl
  by_cases h0 : x < 0
  · rw [he, if_pos (hneg.mpr h0)]
    simp only [if_pos h0]
    refine ⟨durationAsString x u, ?_, durationAsString_denotes x hx u⟩
    simp [valueToTextString, Ty.isInt, Ty.isUint, valueToGoDuration, Dyn.int, durationAsString]
  · rw [he, if_neg (fun h => h0 (hneg.mp h))]
    simp only [if_neg h0]
    obtain ⟨y, h3, h4⟩ := C46_prettyFormat (Dur.new x) h1 (by rw [h2]; omega)
    rw [h2] at h4
    exact ⟨y, h3, h4⟩

/-- what is shown for a value of an element type -/
theorem html_base (fm : Fmts) {n : Option ℕ} {b : Base} {t : Ty} (u : MUnit) (hv : b.Valid)
    (ht : elemType (.scalar ⟨n, b.ty⟩) = some t) :
    ∃ x, valueToHtmlString fm (.scalar n b) t u false = some x ∧ HtmlBase fm t u b x := by
  cases b with
  | bool b =>
    have : t = .bool := by cases n <;> simpa [elemType, Base.ty] using ht.symm
    subst this
    exact ⟨_, rfl, rfl⟩
  | string b =>
    have : t = .string := by cases n <;> simpa [elemType, Base.ty] using ht.symm
    subst this
    exact ⟨_, rfl, rfl⟩
  | float32 b =>
    have : t = .float32 := by cases n <;> simpa [elemType, Base.ty] using ht.symm
    subst this
    exact ⟨_, rfl, rfl⟩
  | float64 b =>
    have : t = .float64 := by cases n <;> simpa [elemType, Base.ty] using ht.symm
    subst this
    exact ⟨_, rfl, rfl⟩
  | int k x => exact html_int fm (Or.inl ⟨n, k, rfl, hv, ht⟩) u
  | time x =>
    cases n with
    | some n => simp [elemType, Base.ty] at ht
    | none =>
      have : t = .goTime := by simpa [elemType, Base.ty] using ht.symm
      subst this
      exact ⟨_, rfl, rfl⟩
  | duration x =>
    cases n with
    | some n =>
      have : t = .int64 := by simpa [elemType, Base.ty] using ht.symm
      subst this
      obtain ⟨y, h1, h2⟩ := html_int fm (Or.inr ⟨n, rfl, hv, rfl⟩) u
      exact ⟨y, h1, by simp only [HtmlBase]; rw [if_neg (by simp)]; exact h2⟩
    | none =>
      have : t = .goDuration := by simpa [elemType, Base.ty] using ht.symm
      subst this
      obtain ⟨y, h1, h2⟩ := html_duration fm hv u
      exact ⟨y, h1, by simp only [HtmlBase, if_true]; exact h2⟩

/-- the reported value is shown in the same way -/
theorem html_interface (fm : Fmts) {n : Option ℕ} {b : Base} {t : Ty} (u : MUnit) (hv : b.Valid)
    (ht : elemType (.scalar ⟨n, b.ty⟩) = some t) {v : Val} (h : valueToInterface (.scalar n b) t false = some v) :
    ∃ n' b', v = .scalar n' b' ∧ ∀ x, HtmlBase fm t u b x → HtmlBase fm t u b' x := by
  cases b with
  | bool b =>
    have : t = .bool := by cases n <;> simpa [elemType, Base.ty] using ht.symm
    subst this
    cases h
    exact ⟨_, _, rfl, fun _ h => h⟩
  | string b =>
    have : t = .string := by cases n <;> simpa [elemType, Base.ty] using ht.symm
    subst this
    cases h
    exact ⟨_, _, rfl, fun _ h => h⟩
  | float32 b =>
    have : t = .float32 := by cases n <;> simpa [elemType, Base.ty] using ht.symm
    subst this
    cases h
    exact ⟨_, _, rfl, fun _ h => h⟩
  | float64 b =>
    have : t = .float64 := by cases n <;> simpa [elemType, Base.ty] using ht.symm
    subst this
    cases h
    exact ⟨_, _, rfl, fun _ h => h⟩
  | int k x =>
    have hx : k.InRange x := hv
    cases k <;>
    · have := Option.some.inj ((show elemType _ = _ by cases n <;> rfl).symm.trans ht)
      subst this
      simp [IntKind.InRange, IntKind.signed, IntKind.bits] at hx
      cases h
      refine ⟨_, _, rfl, fun y hy => ?_⟩
      simp only [HtmlBase] at hy ⊢
      first
        | exact hy
        | (convert hy using 1; (try simp only [i32, i64, u64]); omega)
  | time x =>
    cases n with
    | some n => simp [elemType, Base.ty] at ht
    | none =>
      have : t = .goTime := by simpa [elemType, Base.ty] using ht.symm
      subst this
      cases h
      exact ⟨_, _, rfl, fun _ h => h⟩
  | duration x =>
    have hx : InI64 x := hv
    cases n with
    | some n =>
      have : t = .int64 := by simpa [elemType, Base.ty] using ht.symm
      subst this
      cases h
      refine ⟨_, _, rfl, fun y hy => ?_⟩
      simp only [HtmlBase] at hy ⊢
      rw [if_neg (by simp)] at hy
      convert hy using 1
      unfold InI64 at hx
      simp only [i64]
      omega
    | none =>
      have : t = .goDuration := by simpa [elemType, Base.ty] using ht.symm
      subst this
      cases h
      exact ⟨_, _, rfl, fun _ h => h⟩

/-! ### distributions -/

theorem flatten_flatMap_rows (fm : Fmts) (l : List (Piece Fl × ℕ)) :
    (l.flatMap (htmlPiece fm)).flatten = (l.map fun x => (htmlPiece fm x).flatten).flatten := by
  induction l with
  | nil => rfl
  | cons a l ih => simp [ih]

theorem html_dist (fm : Fmts) {d : Dist Fl} {sn : Snapshot Fl} (h : d.snapshot = some sn) {l : List Fl} (hl : l ≠ [])
    (hp : ∀ i : ℕ, d.pieces[i]? = range l i) : HtmlDist fm (shownDist sn) (htmlSnapshot fm sn).flatten := by
  obtain ⟨hb, hle⟩ := snapshot_breakdown h
  have hlen := pieces_length hl hp
  have hbl : sn.breakdown.length = l.length + 1 := by rw [hb, List.length_zip]; omega
  refine ⟨sn.breakdown.map fun x => (htmlPiece fm x).flatten,
    if sn.count = 0 then [] else List.flatten [lit "\t<span class=\"summary\"> min: ", esc (fm.v32 sn.min), lit " max: ", esc (fm.v32 sn.max), lit " avg: ",
      esc (fm.v32 sn.average), lit " &#126;median: ", esc (fm.v32 sn.median), lit " sum: ", esc (fm.v32 sn.sum),
      lit " count: ", esc (fmtNat sn.count), lit "</span><br><br>\n"], ?_, ?_, ?_, ?_⟩
  · simp [shownDist]
  · intro i r x hr hx
    simp only [shownDist, List.getElem?_map, List.length_map] at hr hx ⊢
    rw [hbl]
    cases hi : sn.breakdown[i]? with
    | none => rw [hi] at hr; cases hr
    | some pc =>
      rw [hi] at hr hx
      obtain ⟨p, c⟩ := pc
      simp only [Option.map_some, Option.some.injEq] at hr hx
      subst hr hx
      rw [hb] at hi
      have hpi : d.pieces[i]? = some p := by
        rw [List.getElem?_zip_eq_some] at hi
        exact hi.1
      rw [hp] at hpi
      have h1 := range_first hpi
      have h2 := range_last hl hpi
      have hpos : 0 < l.length := List.length_pos_iff.mpr hl
      have hc := fmtNat_denotes c
      unfold HtmlRange htmlPiece
      simp only
      by_cases h0 : c = 0
      · rw [if_pos h0, if_pos h0]; rfl
      · rw [if_neg h0, if_neg h0]
        refine ⟨_, _, _, hc, esc_escapes _, esc_escapes _, ?_⟩
        by_cases hf : p.first = true
        · rw [if_pos hf, if_pos (h1.mp hf)]
          simp [lit, esc_fmtNat]
        · rw [if_neg hf, if_neg (fun h => hf (h1.mpr h))]
          by_cases hla : p.last = true
          · rw [if_pos hla, if_pos (by have := h2.mp hla; omega)]
            simp [lit, esc_fmtNat]
          · rw [if_neg hla, if_neg (fun h => hla (h2.mpr (by omega)))]
            simp [lit, esc_fmtNat]
  · by_cases h0 : sn.count = 0
    · have h0' : (shownDist sn).count = 0 := h0
      rw [if_pos h0', if_pos h0]
    · have h0' : ¬ (shownDist sn).count = 0 := h0
      rw [if_neg h0', if_neg h0]
      refine ⟨_, _, _, _, _, _, esc_escapes _, esc_escapes _, esc_escapes _, esc_escapes _, esc_escapes _,
        fmtNat_denotes _, ?_⟩
      simp only [esc_fmtNat, List.flatten_cons, List.flatten_nil, List.append_nil, List.append_assoc]
      rfl
  · unfold htmlSnapshot
    simp only [List.flatten_cons, List.flatten_append, flatten_flatMap_rows, List.append_assoc]
    split <;> rfl

/-! ### lists -/

theorem html_list (fm : Fmts) {e : ScalarTy} {t : Ty} (u : MUnit) (ht : elemType (.scalar e) = some t) :
    ∀ es : List Base, (∀ b ∈ es, b.ty = e.base ∧ b.Valid) →
      ∃ parts, renderAll (fun d => valueToHtmlString fm d t u false) (es.map fun b => .scalar e.named b) = some parts ∧
        List.Forall₂ (HtmlValue fm t u) es (parts.map esc)
  | [], _ => ⟨[], rfl, .nil⟩
  | b :: es, h => by
    obtain ⟨hb1, hb2⟩ := h b List.mem_cons_self
    obtain ⟨parts, h1, h2⟩ := html_list fm u ht es (fun b hb => h b (List.mem_cons_of_mem _ hb))
    obtain ⟨x, h3, h4⟩ := html_base fm (n := e.named) u hb2 (t := t) (by rw [hb1]; exact ht)
    refine ⟨x :: parts, ?_, .cons ⟨x, h4, esc_escapes x⟩ h2⟩
    rw [List.map_cons, renderAll]
    simp only [h3, h1, Option.map_some]

theorem html_about (mv : MetricView) (y : Metric) (h1 : y.description = mv.description) (h2 : y.unit = mv.value.unit) :
    HtmlAbout y (esc mv.description ++ (unitPart mv.value.unit).flatten) := by
  refine ⟨esc mv.description, by rw [h1]; exact esc_escapes _, ?_⟩
  rw [h2]
  unfold unitPart
  by_cases hu : mv.value.unit = .none
  · rw [if_pos hu, if_neg (by simpa using hu)]; simp
  · rw [if_neg hu, if_pos hu]
    exact ⟨esc mv.value.unit.string, by rw [string_text]; exact esc_escapes _, by simp⟩

theorem flatten_items (xs : List Str) : (xs.flatMap (fun e => [lit "        <li>", esc e, lit "</li>\n"])).flatten =
    ((xs.map esc).map fun e => lit "        <li>" ++ e ++ lit "</li>\n").flatten := by
  induction xs with
  | nil => rfl
  | cons a l ih =>
    simp only [List.flatMap_cons, List.flatten_append, ih, List.map_cons, List.flatten_cons, List.flatten_nil,
      List.append_nil, List.append_assoc]

/-! ### all metrics -/

theorem html_metric (fm : Fmts) (ht : Typed w s) {m : ℕ} {mv : MetricView} (hm : metricView s.tree m = some mv)
    {y : Metric} (hy : nowMetric w s mv = some y) :
    ∃ cs, nowHtml fm w s mv = some cs ∧ HtmlOf fm y cs.flatten := by
  unfold nowMetric at hy
  unfold nowHtml
  split at hy
  · rename_i hd
    rw [if_pos hd]
    split at hy
    · cases hy
    · rename_i i hi
      split at hy
      · cases hy
      · rename_i d hdi
        obtain ⟨sn, h1, rfl⟩ := Option.map_eq_some_iff.mp hy
        obtain ⟨l, hl, hp⟩ := ht.dists i d hdi
        have h2 := html_dist fm h1 hl hp
        rw [hi]
        simp only [Option.bind_some, hdi, h1, Option.map_some]
        refine ⟨_, rfl, esc mv.path, _, esc_escapes _, html_about mv _ rfl rfl, _, h2, ?_⟩
        simp only [List.flatten_append, List.flatten_cons, List.flatten_nil, List.append_nil, List.append_assoc]
  · rename_i hnd
    rw [if_neg hnd]
    split at hy
    · rename_i hl
      rw [if_pos hl]
      split at hy
      · cases hy
      · rename_i i hi
        obtain ⟨lv, h1, rfl⟩ := Option.map_eq_some_iff.mp hy
        rw [hi]
        simp only [Option.bind_some, h1]
        have hty := reachable_typed (grown_reachable ht.grown)
        unfold listView at h1
        split at h1
        · cases h1
        · rename_i lo hlo
          split at h1
          · cases h1
          · rename_i c hc
            cases h1
            obtain ⟨cell, c1, c2, c3⟩ := hty i lo hlo
            rw [hc] at c1
            cases c1
            simp only
            unfold Cell.val
            cases he : c.elem with
            | timePtr => rw [he] at c2; cases c2
            | other k => rw [he] at c2; cases c2
            | scalar t =>
              rw [he] at c2
              obtain ⟨parts, h3, h4⟩ := html_list fm mv.value.unit c2 (c.data.getD []) (ht.slices _ c hc t he)
              simp only [elemsOf, h3, Option.map_some]
              refine ⟨_, rfl, esc mv.path, _, esc_escapes _, html_about mv _ rfl rfl, ?_⟩
              simp only [blankMetric]
              refine ⟨esc (htmlType lo.subType).name, parts.map esc, by rw [name_text]; exact esc_escapes _, h4, ?_⟩
              simp only [List.flatten_append, List.flatten_cons, List.flatten_nil, List.append_nil, List.append_assoc,
                flatten_items]
    · rename_i hnl
      rw [if_neg hnl]
      unfold nowScalar at hy
      split at hy
      · rename_i val r hval hr
        obtain ⟨gid, -, rfl⟩ := Option.map_eq_some_iff.mp hy
        unfold nowVal at hval
        obtain ⟨d, hd, hx⟩ := Option.bind_eq_some_iff.mp hval
        rw [hd]
        simp only [Option.bind_some]
        obtain ⟨hok, g, g1, g2⟩ := source_fits ht hm hd
        have fin : ∀ (v : Str) (n : Option ℕ) (b : Base), val = .scalar n b →
            valueToHtmlString fm d mv.value.valType mv.value.unit mv.value.isPtr = some v →
            HtmlBase fm mv.value.valType mv.value.unit b v →
            ∃ cs, ((valueToHtmlString fm d mv.value.valType mv.value.unit mv.value.isPtr).map fun x =>
              [lit "      ", esc mv.path, lit " "] ++ ([esc x, lit " <span class=\"parens\">(",
                esc (htmlType mv.value.valType).name, lit ": ", esc mv.description] ++ unitPart mv.value.unit ++
                [lit ")</span><br>\n"])) = some cs ∧
              HtmlOf fm { blankMetric mv .unknown with value := val, timeStamp := .time (w.lockTime s r), groupId := gid }
                cs.flatten := by
          rintro v n b rfl h1 h2
          rw [h1]
          refine ⟨_, rfl, esc mv.path, _, esc_escapes _, html_about mv _ rfl rfl, ?_⟩
          simp only [blankMetric]
          refine ⟨esc (htmlType mv.value.valType).name, esc v, by rw [name_text]; exact esc_escapes _,
            ⟨v, h2, esc_escapes v⟩, ?_⟩
          simp only [List.flatten_append, List.flatten_cons, List.flatten_nil, List.append_nil, List.append_assoc]
        cases d with
        | invalid => cases g1
        | other i => cases g1; simp [metricType, elemType] at g2
        | timePtr o =>
          cases g1
          simp only [metricType, Option.some.injEq, Prod.mk.injEq] at g2
          obtain ⟨g2, g3⟩ := g2
          rw [← g2, ← g3] at hx
          have key : ∀ t : Time, valueToTime (.timePtr o) true = some t → val = .scalar none (.time t) ∧
              valueToHtmlString fm (.timePtr o) .goTime mv.value.unit true = some (fm.time t) := by
            intro t hvt
            constructor
            · simp [valueToInterface, hvt] at hx
              exact hx.symm
            · simp [valueToHtmlString, Ty.isInt, Ty.isUint, hvt]
          have : ∃ t, valueToTime (.timePtr o) true = some t := by cases o <;> exact ⟨_, rfl⟩
          obtain ⟨t, hvt⟩ := this
          obtain ⟨k1, k2⟩ := key t hvt
          rw [g2, g3] at k2
          exact fin _ _ _ k1 k2 rfl
        | scalar n b =>
          cases g1
          simp only [metricType] at g2
          obtain ⟨t, t1, t2⟩ := Option.map_eq_some_iff.mp g2
          simp only [Prod.mk.injEq] at t2
          obtain ⟨rfl, t3⟩ := t2
          rw [← t3] at hx
          obtain ⟨x, h3, h4⟩ := html_base fm mv.value.unit hok t1
          obtain ⟨n', b', rfl, h6⟩ := html_interface fm mv.value.unit hok t1 hx
          rw [t3] at h3
          exact fin x _ _ rfl h3 (h6 x h4)
      · cases hy

end Tricorder
