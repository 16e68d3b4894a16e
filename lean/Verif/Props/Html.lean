import Verif.Proof.Html
import Verif.Proof.Link
import Verif.Proof.Link2
import Verif.Props.Text
/-!
# C64, C65: the HTML page

The HTML page at a path (`/repo/go/tricorder/html.go:15-181`) against `GetMetric`, in a state in which nothing else happens.
`HtmlOf fm y item`, `HtmlLink`, `LeadsTo` are in `Verif/Spec/Html.lean`.
-/

namespace Tricorder
open Go Spec Tree _root_.Spec

variable {w : World} {s : State} {W : Type}

theorem html_lookup (hs : Reachable w s) {path : Str} {c : List Str} (hc : Components path c) :
    (lookupPath 0 path).run w s = (s, match s.tree.resolve 0 c with
      | some (.dir d') => (some d', none)
      | some (.metric m) => (none, some m)
      | none => (none, none)) := by
  unfold lookupPath
  rw [getDirectoryOrMetric_run (reachable_isTree hs), ← C01_components_unique hc]
  rfl

/-- the path of a node determines its components -/
theorem pathOf_components (ht : IsTree s.tree) {c : List Str} {n : Node} (h : Reaches s.tree 0 c n) :
    newPathSpec (pathOf c) = c := by
  show newPathSpec (47 :: List.intercalate [47] c) = c
  rw [newPathSpec_slash, ← joinByte_eq, ← pathString, newPathSpec_join c (reaches_good ht h)]

/-- what an entry refers to -/
def entryNode (en : Entry) : Node :=
  match en.dir with
  | some d => .dir d
  | none => .metric (en.metric.getD 0)

/-- the entries of a directory page -/
theorem html_items (ht : Typed w s) (fm : Fmts) {c : List Str} {d : ℕ} (hd : Reaches s.tree 0 c (.dir d))
    (hok : ∀ n m, Reaches s.tree 0 (c ++ [n]) (.metric m) →
      ∃ y, ((getMetricMsg false (pathOf (c ++ [n]))).run w s).2 = some (.ok y)) {e : ℕ} {en : Entry}
    (h : Child s.tree d en.name e ∧ s.tree.entries[e]? = some en) :
    ∃ cs, entryChunks fm w s en = some cs ∧ Reaches s.tree 0 (c ++ [en.name]) (entryNode en) ∧ match entryNode en with
      | .dir _ => ∃ href, HtmlLink (pathOf (c ++ [en.name])) href cs.flatten ∧
          Escapes href (urlNorm (htmlLink (pathOf (c ++ [en.name]))))
      | .metric _ => ∃ y, ((getMetricMsg false (pathOf (c ++ [en.name]))).run w s).2 = some (.ok y) ∧
          HtmlOf fm y cs.flatten := by
  have hs := grown_reachable ht.grown
  have htree := reachable_isTree hs
  obtain ⟨h1, h2⟩ := h
  unfold entryChunks
  rcases htree.entry e en h2 with ⟨m, mo, m1, m2, m3, m4⟩ | ⟨d', m1, m2, m3, m4, m5⟩
  · have hr : Reaches s.tree 0 (c ++ [en.name]) (.metric m) := reaches_trans hd (.metric h1 h2 m1)
    obtain ⟨y, hy⟩ := hok _ _ hr
    obtain ⟨mv, v1, v2⟩ := (getMetricMsg_now hs false (pathOf_components htree hr).symm).1 m hr
    have hn : nowMetric w s mv = some y := by
      rw [v2] at hy
      cases hn : nowMetric w s mv with
      | none => rw [hn] at hy; cases hy
      | some y' =>
        rw [hn] at hy
        have hy' : some (Out.ok y') = some (Out.ok y) := hy
        injection hy' with h; injection h with h; rw [h]
    obtain ⟨cs, k1, k2⟩ := html_metric fm ht v1 hn
    have hnode : entryNode en = .metric m := by unfold entryNode; rw [m2, m1]; rfl
    rw [hnode]
    refine ⟨cs, ?_, hr, y, hy, k2⟩
    simp only [m1, m2, v1, Option.bind_some, k1]
  · have hr : Reaches s.tree 0 (c ++ [en.name]) (.dir d') := reaches_trans hd (.dir h1 h2 m2 (.here d'))
    have hp : s.tree.dirAbsPath d' = some (pathOf (c ++ [en.name])) := (C02_directory_path hs hr).1
    have hnode : entryNode en = .dir d' := by unfold entryNode; rw [m2]
    rw [hnode]
    refine ⟨_, by simp only [m2, hp, Option.map_some]; rfl, hr, _, ⟨_, esc_escapes _, ?_⟩, esc_escapes _⟩
    simp only [List.flatten_cons, List.flatten_nil, List.append_nil, List.append_assoc]

/-- the whole page of a directory -/
theorem html_page (ht : Typed w s) (fm : Fmts) (wr : Writer W) {path : Str} {c : List Str} (hc : Components path c) {d : ℕ}
    (hd : Reaches s.tree 0 c (.dir d))
    (hok : ∀ n m, Reaches s.tree 0 (c ++ [n]) (.metric m) →
      ∃ y, ((getMetricMsg false (pathOf (c ++ [n]))).run w s).2 = some (.ok y)) (x : W) :
    ∃ (L : List (Str × Node)) (items : List (List Str)),
      L.Pairwise (fun a b => a.1 < b.1) ∧ (∀ n node, (n, node) ∈ L ↔ Reaches s.tree 0 (c ++ [n]) node) ∧
      (htmlEndpoint fm wr path x).run w s = (s, wr.all x (pageHead :: (items.flatten ++ [pageFoot]))) ∧
      List.Forall₂ (fun e (item : List Str) => match e.2 with
        | .dir _ => ∃ href, HtmlLink (pathOf (c ++ [e.1])) href item.flatten ∧
            Escapes href (urlNorm (htmlLink (pathOf (c ++ [e.1]))))
        | .metric _ => ∃ y, ((getMetricMsg false (pathOf (c ++ [e.1]))).run w s).2 = some (.ok y) ∧
            HtmlOf fm y item.flatten) L items := by
  have hs := grown_reachable ht.grown
  have htree := reachable_isTree hs
  have hitem := fun (e : ℕ × Entry) (he : e ∈ sortEntries (exec w (.list d) s).2) =>
    html_items ht fm hd hok (list_mem (w := w) htree he)
  have hsorted := sortEntries_sorted (exec w (.list d) s).2 (list_names htree)
  have hcomp : ∀ n node, Reaches s.tree 0 (c ++ [n]) node →
      ∃ e ∈ sortEntries (exec w (.list d) s).2, e.2.name = n := by
    intro n node h
    have h1 := reaches_suffix htree h hd
    have : ∃ e en, Child s.tree d n e ∧ s.tree.entries[e]? = some en ∧ en.name = n := by
      cases h1 with
      | metric hc he _ => exact ⟨_, _, hc, he, (child_entry htree hc he).1⟩
      | dir hc he _ _ => exact ⟨_, _, hc, he, (child_entry htree hc he).1⟩
    obtain ⟨e, en, k1, k2, k3⟩ := this
    exact ⟨(e, en), list_complete (w := w) k1 k2, k3⟩
  have hrun : (htmlEndpoint fm wr path x).run w s = (s, wr.all x (pageHead ::
      ((sortEntries (exec w (.list d) s).2).flatMap (fun e => (entryChunks fm w s e.2).getD []) ++ [pageFoot]))) := by
    unfold htmlEndpoint
    rw [run_bind, html_lookup hs hc, (resolve_iff htree).mpr hd]
    simp only
    obtain ⟨se, -, h1⟩ := writing_run (w := w) (s := s) wr x [pageHead] Sane.nil
      (fun y => .op (.list d) fun l => (htmlEntries fm wr (sortEntries l) [] y).bind (htmlEnd wr))
      (ds := (sortEntries (exec w (.list d) s).2).flatMap (fun e => (entryChunks fm w s e.2).getD []) ++ [pageFoot])
      (fun y => by
        rw [Prog.run, show (exec w (.list d) s).1 = s from rfl]
        obtain ⟨se, k1, k2⟩ := htmlEntries_now fm wr (sortEntries (exec w (.list d) s).2) (Sane.nil (w := w) (s := s)) y
          (fun e he => by obtain ⟨cs, e1, -⟩ := hitem e he; rw [e1]; rfl)
        refine ⟨se, k1, ?_⟩
        rw [run_bind, k2]
        exact htmlEnd_now wr y _ se)
    exact withSession_now h1
  rw [hrun]
  generalize sortEntries (exec w (.list d) s).2 = E at *
  refine ⟨E.map fun e => (e.2.name, entryNode e.2), E.map fun e => (entryChunks fm w s e.2).getD [], ?_, ?_, ?_, ?_⟩
  · rw [List.pairwise_map]; exact hsorted
  · intro n node
    constructor
    · intro h
      obtain ⟨e, he, h1⟩ := List.mem_map.mp h
      cases h1
      exact (hitem e he).choose_spec.2.1
    · intro h
      obtain ⟨e, he, rfl⟩ := hcomp n node h
      have := reaches_unique htree h (hitem e he).choose_spec.2.1
      rw [this]
      exact List.mem_map.mpr ⟨e, he, rfl⟩
  · rw [List.flatMap_def]
  · rw [List.forall₂_map_left_iff, List.forall₂_map_right_iff, List.forall₂_same]
    intro e he
    obtain ⟨cs, e1, -, e3⟩ := hitem e he
    rw [e1]
    exact e3

/-- **C64 (directories)** The page of a directory is the frame around one item per child, sorted by name: a link for a
directory; for a metric what `GetMetric` reports about it.  Everything that comes from the program is escaped.  Writing
ends with the first error of the writer, and this error is the result. -/
theorem C64_directory (ht : Typed w s) (fm : Fmts) (wr : Writer W) {path : Str} {c : List Str} (hc : Components path c) {d : ℕ}
    (hd : Reaches s.tree 0 c (.dir d))
    (hok : ∀ n m, Reaches s.tree 0 (c ++ [n]) (.metric m) →
      ∃ y, ((getMetricMsg false (pathOf (c ++ [n]))).run w s).2 = some (.ok y)) (x : W) :
    ∃ (L : List (Str × Node)) (chunks items : List Str),
      L.Pairwise (fun a b => a.1 < b.1) ∧ (∀ n node, (n, node) ∈ L ↔ Reaches s.tree 0 (c ++ [n]) node) ∧
      (htmlEndpoint fm wr path x).run w s = (s, wr.all x chunks) ∧ chunks.flatten = htmlFrame items.flatten ∧
      List.Forall₂ (fun e item => match e.2 with
        | .dir _ => ∃ href url, HtmlLink (pathOf (c ++ [e.1])) href item ∧ Escapes href url
        | .metric _ => ∃ y, ((getMetricMsg false (pathOf (c ++ [e.1]))).run w s).2 = some (.ok y) ∧ HtmlOf fm y item)
        L items := by
  obtain ⟨L, items, h1, h2, h3, h4⟩ := html_page ht fm wr hc hd hok x
  refine ⟨L, _, items.map List.flatten, h1, h2, h3, ?_, ?_⟩
  · rw [List.flatten_cons, List.flatten_append, ← List.flatten_flatten]
    simp [htmlFrame, pageHead, pageFoot]
  · rw [List.forall₂_map_right_iff]
    refine h4.imp ?_
    intro e item h
    split at h
    · obtain ⟨href, a, b⟩ := h; exact ⟨href, _, a, b⟩
    · exact h

/-- **C64 (metrics)** The page of a metric is the frame around what `GetMetric` reports about it. -/
theorem C64_metric (ht : Typed w s) (fm : Fmts) (wr : Writer W) {path : Str} {c : List Str} (hc : Components path c)
    {y : Metric} (hy : ((getMetricMsg false path).run w s).2 = some (.ok y)) (x : W) :
    ∃ (chunks : List Str) (item : Str), (htmlEndpoint fm wr path x).run w s = (s, wr.all x chunks) ∧
      chunks.flatten = htmlFrame item ∧ HtmlOf fm y item := by
  have hs := grown_reachable ht.grown
  have htree := reachable_isTree hs
  have hm : ∃ m, Reaches s.tree 0 c (.metric m) := by
    by_contra hno
    rw [(getMetricMsg_now hs false (C01_components_unique hc)).2 (fun m h => hno ⟨m, h⟩)] at hy
    cases hy
  obtain ⟨m, hm⟩ := hm
  obtain ⟨mv, v1, v2⟩ := (getMetricMsg_now hs false (C01_components_unique hc)).1 m hm
  have hn : nowMetric w s mv = some y := by
    rw [v2] at hy
    cases hn : nowMetric w s mv with
    | none => rw [hn] at hy; cases hy
    | some y' =>
      rw [hn] at hy
      have hy' : some (Out.ok y') = some (Out.ok y) := hy
      injection hy' with h; injection h with h; rw [h]
  obtain ⟨cs, k1, k2⟩ := html_metric fm ht v1 hn
  refine ⟨[pageHead] ++ (cs ++ [pageFoot]), cs.flatten, ?_, by simp [htmlFrame, pageHead, pageFoot], k2⟩
  unfold htmlEndpoint
  rw [run_bind, html_lookup hs hc, (resolve_iff htree).mpr hm]
  simp only
  obtain ⟨se, -, h1⟩ := writing_run (w := w) (s := s) wr x [pageHead] Sane.nil
    (fun y => .op (.metric m) fun
      | none => .ret ([], y, .panic)
      | some mv => (htmlMetric fm wr mv [] y).bind (htmlEnd wr)) (ds := cs ++ [pageFoot])
    (fun y => by
      rw [Prog.run, show (exec w (.metric m) s).1 = s from rfl, show (exec w (.metric m) s).2 = some mv from v1]
      obtain ⟨se, j1, j2⟩ := htmlMetric_now fm wr mv (Sane.nil (w := w) (s := s)) y k1
      refine ⟨se, j1, ?_⟩
      simp only
      rw [run_bind, j2]
      exact htmlEnd_now wr y _ se)
  exact withSession_now h1

/-- **C64 (nothing there)** If the path denotes nothing, the page says so and nothing else. -/
theorem C64_missing (hs : Reachable w s) (fm : Fmts) (wr : Writer W) {path : Str} {c : List Str} (hc : Components path c)
    (hno : ∀ n, ¬ Reaches s.tree 0 c n) (x : W) :
    (htmlEndpoint fm wr path x).run w s = (s, ((wr.write x (lit "Path does not exist.")).1, .ok)) := by
  unfold htmlEndpoint
  rw [run_bind, html_lookup hs hc]
  cases hr : s.tree.resolve 0 c with
  | none => rfl
  | some n => exact absurd ((resolve_iff (reachable_isTree hs)).mp hr) (hno n)

/-- **C64 (escaping)** Escaped text contains no character that is special in HTML, except the `&` of references, and, where no
replacement character occurs, it determines the text. -/
theorem C64_escaped {e x : Str} (h : Escapes e x) :
    (∀ b ∈ e, b ∉ [0, 34, 39, 60, 62]) ∧ ((239 : UInt8) ∉ e → ∀ x', Escapes e x' → x' = x) := by
  refine ⟨?_, fun hn x' h' => escapes_unique h' h hn⟩
  induction h with
  | nil => simp
  | plain hb _ ih =>
    intro c hc
    rcases List.mem_cons.mp hc with rfl | hc
    · simp only [List.mem_cons, List.not_mem_nil, or_false, not_or] at hb ⊢; tauto
    · exact ih c hc
  | ref hr _ ih =>
    intro c hc
    rcases List.mem_append.mp hc with hc | hc
    · have : ∀ p ∈ references, ∀ b ∈ p.1, b ∉ [0, 34, 39, 60, 62] := by decide +kernel
      exact this _ hr c hc
    · exact ih c hc
  | nul _ ih =>
    intro c hc
    rcases List.mem_append.mp hc with hc | hc
    · have : ∀ b ∈ ([239, 191, 189] : Str), b ∉ [0, 34, 39, 60, 62] := by decide +kernel
      exact this c hc
    · exact ih c hc

/-! ## C65 -/

theorem forall₂_split {α β : Type} {R : α → β → Prop} {l₁ l₂ : List α} {m : List β} (h : List.Forall₂ R (l₁ ++ l₂) m) :
    ∃ m₁ m₂, List.Forall₂ R l₁ m₁ ∧ List.Forall₂ R l₂ m₂ ∧ m = m₁ ++ m₂ := by
  induction l₁ generalizing m with
  | nil => exact ⟨[], m, .nil, h, rfl⟩
  | cons a l ih =>
    obtain ⟨b, m', h1, h2, rfl⟩ := List.forall₂_cons_left_iff.mp h
    obtain ⟨m₁, m₂, k1, k2, rfl⟩ := ih h2
    exact ⟨b :: m₁, m₂, .cons h1 k1, k2, rfl⟩

/-- **C65 (partial)** On the page of a directory, the link of each child directory leads to the page of this directory, if all
components of its path are plain (`PlainName`).  Without this restriction the claim is false: `C65_links_false`. -/
theorem C65_links_partial (ht : Typed w s) (fm : Fmts) (wr : Writer W) {path : Str} {c : List Str} (hc : Components path c) {d : ℕ}
    (hd : Reaches s.tree 0 c (.dir d))
    (hok : ∀ n m, Reaches s.tree 0 (c ++ [n]) (.metric m) →
      ∃ y, ((getMetricMsg false (pathOf (c ++ [n]))).run w s).2 = some (.ok y)) (x : W)
    {n : Str} {d' : ℕ} (hn : Reaches s.tree 0 (c ++ [n]) (.dir d')) (hp : ∀ a ∈ c ++ [n], PlainName a) :
    (lookupPath 0 (pathOf (c ++ [n]))).run w s = (s, (some d', none)) ∧
    ∃ chunks before item after href, (htmlEndpoint fm wr path x).run w s = (s, wr.all x chunks) ∧
      chunks.flatten = htmlFrame (before ++ item ++ after) ∧ HtmlLink (pathOf (c ++ [n])) href item ∧
      LeadsTo href (pathOf (c ++ [n])) := by
  have hs := grown_reachable ht.grown
  have htree := reachable_isTree hs
  refine ⟨(C02_directory_path hs hn).2, ?_⟩
  obtain ⟨L, items, h1, h2, h3, h4⟩ := html_page ht fm wr hc hd hok x
  have hmem := (h2 n _).mpr hn
  obtain ⟨A, B, rfl⟩ := List.append_of_mem hmem
  obtain ⟨A', M, a1, a2, rfl⟩ := forall₂_split h4
  obtain ⟨item, B', b1, b2, rfl⟩ := List.forall₂_cons_left_iff.mp a2
  obtain ⟨href, c1, c2⟩ := b1
  refine ⟨_, A'.flatten.flatten, item.flatten, B'.flatten.flatten, href, h3, ?_, c1, ?_⟩
  · simp [htmlFrame, pageHead, pageFoot]
  · refine link_leads (by simp) (fun a ha => ?_) hp c2
    exact (reaches_good htree hn a ha).1

/-- **C65 (exact)** On the page of a directory, the link of a child directory leads to the page of this directory exactly if
all components of its path are plain: no `?` or `#`, no `%` before two hexadecimal digits, not `.` or `..`.  (For all other
names the claim fails, not only for those of `C65_links_false`.) -/
theorem C65_links_exact (ht : Typed w s) (fm : Fmts) (wr : Writer W) {path : Str} {c : List Str} (hc : Components path c) {d : ℕ}
    (hd : Reaches s.tree 0 c (.dir d))
    (hok : ∀ n m, Reaches s.tree 0 (c ++ [n]) (.metric m) →
      ∃ y, ((getMetricMsg false (pathOf (c ++ [n]))).run w s).2 = some (.ok y)) (x : W)
    {n : Str} {d' : ℕ} (hn : Reaches s.tree 0 (c ++ [n]) (.dir d')) :
    ∃ chunks before item after href, (htmlEndpoint fm wr path x).run w s = (s, wr.all x chunks) ∧
      chunks.flatten = htmlFrame (before ++ item ++ after) ∧ HtmlLink (pathOf (c ++ [n])) href item ∧
      (LeadsTo href (pathOf (c ++ [n])) ↔ ∀ a ∈ c ++ [n], PlainName a) := by
  have htree := reachable_isTree (grown_reachable ht.grown)
  obtain ⟨L, items, h1, h2, h3, h4⟩ := html_page ht fm wr hc hd hok x
  have hmem := (h2 n _).mpr hn
  obtain ⟨A, B, rfl⟩ := List.append_of_mem hmem
  obtain ⟨A', M, a1, a2, rfl⟩ := forall₂_split h4
  obtain ⟨item, B', b1, b2, rfl⟩ := List.forall₂_cons_left_iff.mp a2
  obtain ⟨href, c1, c2⟩ := b1
  refine ⟨_, A'.flatten.flatten, item.flatten, B'.flatten.flatten, href, h3, ?_, c1, ?_⟩
  · simp [htmlFrame, pageHead, pageFoot]
  · exact link_iff (by simp) (fun a ha => (reaches_good htree hn a ha).1) c2

/-- a registry with one directory -/
def exLinkS (n : Str) : State := ((apiRegisterDirectory 0 n).run exW State.init).1

theorem exLinkS_reachable (n : Str) : Reachable exW (exLinkS n) := by
  obtain ⟨h, h1, -⟩ := RunI_of_run (w := exW) (apiRegisterDirectory 0 n) State.init
  obtain ⟨a, -⟩ := registerDirectory_safe (fun _ hx => newPathSpec_comp hx) .init (reachable_isTree (w := exW) .init).rootIn h1
  exact (RunI_reachable h1 .init a).2

theorem leads_only {href url : Str} (h : Escapes href url) (hn : (239 : UInt8) ∉ href) (p : Str) (hp : LeadsTo href p) :
    unpercent (List.intercalate [47] (removeDots [] (splitByte 47 (urlPath url)))) = some (lit "/metrics" ++ p) := by
  obtain ⟨url', h1, h2⟩ := hp
  rw [escapes_unique h h1 hn]
  exact h2

theorem exLink_page {n : Str} (hn : (exLinkS n).tree.resolve 0 [n] = some (.dir 1))
    (hp : ((htmlEndpoint exFm exWriter [47] []).run exW (exLinkS n)).2 = (htmlFrame
      (lit "        <a href=\"" ++ esc (urlNorm (htmlLink (pathOf [n]))) ++ lit "\">" ++ esc (pathOf [n]) ++ lit "</a><br>\n"), .ok))
    (h239 : (239 : UInt8) ∉ esc (urlNorm (htmlLink (pathOf [n])))) :
    Reachable exW (exLinkS n) ∧ Reaches (exLinkS n).tree 0 [n] (.dir 1) ∧
      ∃ item href, ((htmlEndpoint exFm exWriter [47] []).run exW (exLinkS n)).2 = (htmlFrame item, .ok) ∧
        HtmlLink (pathOf [n]) href item ∧ ∀ p, LeadsTo href p ↔ unpercent (List.intercalate [47] (removeDots []
          (splitByte 47 (urlPath (urlNorm (htmlLink (pathOf [n]))))))) = some (lit "/metrics" ++ p) :=
  ⟨exLinkS_reachable n, (resolve_iff (reachable_isTree (exLinkS_reachable n))).mp hn, _, _, hp, ⟨_, esc_escapes _, rfl⟩,
    fun p => ⟨leads_only (esc_escapes _) h239 p, fun h => ⟨_, esc_escapes _, h⟩⟩⟩

/-- **C65 is false as it stands.**  If a directory is called `a?b` or `a#b`, the link on the page of its parent leads to the
page for `/a`, where nothing is; for `%41` it leads to `/A`, for `.` back to the same page, and for `..` to no page of the
metrics at all. -/
theorem C65_links_false :
    (∀ e ∈ [(lit "a?b", lit "/a"), (lit "a#b", lit "/a"), (lit "%41", lit "/A"), (lit ".", lit "/")],
      pathOf [e.1] ≠ e.2 ∧ Reachable exW (exLinkS e.1) ∧ Reaches (exLinkS e.1).tree 0 [e.1] (.dir 1) ∧
      ∃ item href, ((htmlEndpoint exFm exWriter [47] []).run exW (exLinkS e.1)).2 = (htmlFrame item, .ok) ∧
        HtmlLink (pathOf [e.1]) href item ∧ ∀ p, LeadsTo href p ↔ p = e.2) ∧
    Reachable exW (exLinkS (lit "..")) ∧ Reaches (exLinkS (lit "..")).tree 0 [lit ".."] (.dir 1) ∧
      ∃ item href, ((htmlEndpoint exFm exWriter [47] []).run exW (exLinkS (lit ".."))).2 = (htmlFrame item, .ok) ∧
        HtmlLink (pathOf [lit ".."]) href item ∧ ∀ p, ¬ LeadsTo href p := by
  constructor
  · have h : ∀ e ∈ [(lit "a?b", lit "/a"), (lit "a#b", lit "/a"), (lit "%41", lit "/A"), (lit ".", lit "/")],
        pathOf [e.1] ≠ e.2 ∧ (exLinkS e.1).tree.resolve 0 [e.1] = some (.dir 1) ∧
        ((htmlEndpoint exFm exWriter [47] []).run exW (exLinkS e.1)).2 = (htmlFrame
          (lit "        <a href=\"" ++ esc (urlNorm (htmlLink (pathOf [e.1]))) ++ lit "\">" ++ esc (pathOf [e.1]) ++
            lit "</a><br>\n"), .ok) ∧
        (239 : UInt8) ∉ esc (urlNorm (htmlLink (pathOf [e.1]))) ∧
        unpercent (List.intercalate [47] (removeDots []
          (splitByte 47 (urlPath (urlNorm (htmlLink (pathOf [e.1]))))))) = some (lit "/metrics" ++ e.2) := by decide +kernel
    intro e he
    obtain ⟨h0, h1, h2, h3, h4⟩ := h e he
    obtain ⟨k1, k2, item, href, k3, k4, k5⟩ := exLink_page h1 h2 h3
    refine ⟨h0, k1, k2, item, href, k3, k4, fun p => ?_⟩
    rw [k5 p, h4]
    simp [eq_comm]
  · obtain ⟨k1, k2, item, href, k3, k4, k5⟩ :=
      exLink_page (n := lit "..") (by decide +kernel) (by decide +kernel) (by decide +kernel)
    refine ⟨k1, k2, item, href, k3, k4, fun p hp => ?_⟩
    have h := (k5 p).mp hp
    have h' : unpercent (List.intercalate [47] (removeDots []
      (splitByte 47 (urlPath (urlNorm (htmlLink (pathOf [lit ".."]))))))) = some (lit "/") := by decide +kernel
    rw [h'] at h
    have := congrArg (fun o : Option Str => (o.getD []).length) h
    simp [lit] at this

/-! ## examples -/

example : Typed exW exTextS ∧ Components [47] [] ∧ Reaches exTextS.tree 0 [] (.dir 0) ∧
    ((getMetricMsg false nD).run exW exTextS).2.isSome ∧
    ((htmlEndpoint exFm exWriter [47] []).run exW exTextS).2 =
    (htmlFrame (lit "        <a href=\"/metrics/a\">/a</a><br>\n" ++
      lit "      /d <span class=\"parens\">(distribution: )</span><br>\n        <table>\n            <tr>\n" ++
      lit "              <td align=\"right\">#-#:</td> <td align=\"right\">1</td>\n\t    </tr>\n\t</table>\n" ++
      lit "\t<span class=\"summary\"> min: # max: # avg: # &#126;median: # sum: # count: 1</span><br><br>\n" ++
      lit "      /l <span class=\"parens\">(list of duration: ; unit: Seconds)</span>\n      <ul>\n" ++
      lit "        <li>1.500s</li>\n        <li>-0.000000003</li>\n      </ul>\n"), .ok) := by
  exact ⟨exTextS_typed, C01_components [47], .here 0, by decide +kernel, by decide +kernel⟩

example : ((htmlEndpoint exFm exWriter (lit "/nothing") []).run exW exTextS).2 = (lit "Path does not exist.", .ok) := by
  decide +kernel

/-- markup in a description is shown, not interpreted -/
example : esc (lit "<b>&\"'+") = lit "&lt;b&gt;&amp;&#34;&#39;&#43;" ∧ Escapes (esc (lit "<b>&\"'+")) (lit "<b>&\"'+") :=
  ⟨by decide +kernel, esc_escapes _⟩

theorem plain_scan {n : Str} (h1 : ∀ b ∈ n, b ≠ 35 ∧ b ≠ 63) (h2 : n ≠ lit "." ∧ n ≠ lit "..")
    (h3 : ∀ t ∈ n.tails, match t with
      | 37 :: x :: y :: _ => hexVal x = none ∨ hexVal y = none
      | _ => True) : PlainName n := by
  refine ⟨h1, h2.1, h2.2, fun a x y b h => ?_⟩
  exact h3 (37 :: x :: y :: b) (by rw [List.mem_tails, h]; exact ⟨a, rfl⟩)

/-- unusual, but plain names -/
example : PlainName (lit "100%") ∧ PlainName [195, 164] ∧ PlainName (lit "%zz") ∧ PlainName (lit "<a b>") ∧
    esc (urlNorm (htmlLink (pathOf [lit "<a b>", lit "100%", [195, 164]]))) = lit "/metrics/%3ca%20b%3e/100%25/%c3%a4" := by
  refine ⟨plain_scan ?_ ?_ ?_, plain_scan ?_ ?_ ?_, plain_scan ?_ ?_ ?_, plain_scan ?_ ?_ ?_, ?_⟩
  all_goals first | decide +kernel | simp [lit, hexVal]

end Tricorder
