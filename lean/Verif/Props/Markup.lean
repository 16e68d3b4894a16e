import Verif.Proof.Markup
import Verif.Props.Html
/-!
# C96: the markup of a page is that of the template, whatever strings are on it

The HTML page at a path (`/repo/go/tricorder/html.go:15-181`) as a browser reads it.  `Tokens`, `ItemDoc`, `linkDoc`, `frameDoc`,
`itemTags` and `SafeMarkup` are in `Verif/Spec/Markup.lean`.
-/

namespace Tricorder
open Go Spec Tree _root_.Spec

variable {w : World} {s : State} {W : Type}

/-- **C96 (metrics)** A browser reads the page of a metric, completely and in one way only, as the frame around what `GetMetric`
reports, all strings as they are; the tags depend on no string and no number. -/
theorem C96_metric (ht : Typed w s) (fm : Fmts) (wr : Writer W) {path : Str} {c : List Str} (hc : Components path c)
    {y : Metric} (hy : ((getMetricMsg false path).run w s).2 = some (.ok y)) (x : W) :
    ∃ (chunks : List Str) (ts : List Tok), (htmlEndpoint fm wr path x).run w s = (s, wr.all x chunks) ∧ ItemDoc fm y ts ∧
      (∀ ts', Tokens chunks.flatten ts' ↔ ts' = frameDoc ts) ∧ tagsIn ts = itemTags y := by
  obtain ⟨chunks, item, h1, h2, h3⟩ := C64_metric ht fm wr hc hy x
  obtain ⟨ts, t1, t2⟩ := tokens_item h3
  have h4 : Tokens chunks.flatten (frameDoc ts) := by rw [h2]; exact tokens_frame t2
  exact ⟨chunks, ts, h1, t1, fun ts' => ⟨fun h => h.unique h4, fun h => h ▸ h4⟩, tagsIn_item t1⟩

/-- **C96 (directories)** A browser reads the page of a directory, completely and in one way only, as the frame around one item for
each child, in the order of the names: for a directory a link with its path as it is, for a metric what `GetMetric` reports, all
strings as they are. -/
theorem C96_directory (ht : Typed w s) (fm : Fmts) (wr : Writer W) {path : Str} {c : List Str} (hc : Components path c) {d : ℕ}
    (hd : Reaches s.tree 0 c (.dir d))
    (hok : ∀ n m, Reaches s.tree 0 (c ++ [n]) (.metric m) →
      ∃ y, ((getMetricMsg false (pathOf (c ++ [n]))).run w s).2 = some (.ok y)) (x : W) :
    ∃ (L : List (Str × Node)) (chunks : List Str) (tss : List (List Tok)),
      L.Pairwise (fun a b => a.1 < b.1) ∧ (∀ n node, (n, node) ∈ L ↔ Reaches s.tree 0 (c ++ [n]) node) ∧
      (htmlEndpoint fm wr path x).run w s = (s, wr.all x chunks) ∧
      (∀ ts', Tokens chunks.flatten ts' ↔ ts' = frameDoc tss.flatten) ∧
      List.Forall₂ (fun e ts => match e.2 with
        | .dir _ => ∃ href url, Escapes href url ∧ ts = linkDoc (pathOf (c ++ [e.1])) href ∧
            tagsIn ts = [linkTag href, lit "/a", lit "br"]
        | .metric _ => ∃ y, ((getMetricMsg false (pathOf (c ++ [e.1]))).run w s).2 = some (.ok y) ∧ ItemDoc fm y ts ∧
            tagsIn ts = itemTags y)
        L tss := by
  obtain ⟨L, chunks, items, h1, h2, h3, h4, h5⟩ := C64_directory ht fm wr hc hd hok x
  have key : ∀ (L : List (Str × Node)) (items : List Str),
      List.Forall₂ (fun e item => match e.2 with
        | .dir _ => ∃ href url, HtmlLink (pathOf (c ++ [e.1])) href item ∧ Escapes href url
        | .metric _ => ∃ y, ((getMetricMsg false (pathOf (c ++ [e.1]))).run w s).2 = some (.ok y) ∧ HtmlOf fm y item)
        L items →
      ∃ tss, List.Forall₂ Tokens items tss ∧ List.Forall₂ (fun e ts => match e.2 with
        | .dir _ => ∃ href url, Escapes href url ∧ ts = linkDoc (pathOf (c ++ [e.1])) href ∧
            tagsIn ts = [linkTag href, lit "/a", lit "br"]
        | .metric _ => ∃ y, ((getMetricMsg false (pathOf (c ++ [e.1]))).run w s).2 = some (.ok y) ∧ ItemDoc fm y ts ∧
            tagsIn ts = itemTags y)
        L tss := by
    intro L items h
    induction h with
    | nil => exact ⟨[], .nil, .nil⟩
    | @cons e item L items h _ ih =>
      obtain ⟨tss, i1, i2⟩ := ih
      obtain ⟨n, node⟩ := e
      cases node with
      | dir d' =>
        obtain ⟨href, url, ⟨p, p1, p2⟩, u⟩ := h
        have hq : (34 : UInt8) ∉ href := fun hm => (C64_escaped u).1 _ hm (by decide)
        refine ⟨linkDoc (pathOf (c ++ [n])) href :: tss, .cons (tokens_link hq p1 p2) i1, .cons ⟨href, url, u, rfl, ?_⟩ i2⟩
        unfold linkDoc
        simp only [tagsIn_append, tagsIn_txt]
        rfl
      | metric m =>
        obtain ⟨y, y1, y2⟩ := h
        obtain ⟨ts, t1, t2⟩ := tokens_item y2
        exact ⟨ts :: tss, .cons t2 i1, .cons ⟨y, y1, t1, tagsIn_item t1⟩ i2⟩
  obtain ⟨tss, k1, k2⟩ := key L items h5
  have h6 : Tokens chunks.flatten (frameDoc tss.flatten) := by rw [h4]; exact tokens_frame (tokens_flatten k1)
  exact ⟨L, chunks, tss, h1, h2, h3, fun ts' => ⟨fun h => h.unique h6, fun h => h ▸ h6⟩, k2⟩

/-- **C96 (safety)** Whatever is registered, whatever values, names, descriptions and formatted numbers there are, whatever else
happens meanwhile, and however the writer fails: what is written is some pieces, and a browser that reads any part of them, from
the beginning, finds only tags of the template, and links within the pages. -/
theorem C96_safe (fm : Fmts) (wr : Writer W) (path : Str) (x : W) {h : List Ev} {s' : State} {out : W} {st : Status}
    (hr : RunI w (htmlEndpoint fm wr path x) s h s' (out, st)) :
    ∃ chunks, (wr.all x chunks).1 = out ∧ (∃ ts, Tokens chunks.flatten ts) ∧
      ∀ part, part <+: chunks.flatten → SafeMarkup (Mode.data.feed part).1 := by
  obtain ⟨cs, ⟨ts, t1, t2⟩, h2⟩ := yields_run hr (safe_html fm wr path x)
  refine ⟨cs, h2, ⟨ts, t1⟩, ?_⟩
  rintro part ⟨rest, hp⟩
  have : (Mode.data.feed part).1 <+: ts := by
    unfold Tokens at t1
    rw [← hp, feed_append] at t1
    exact ⟨_, congrArg Prod.fst t1⟩
  exact ⟨fun hb => t2.1 (this.subset hb), fun t ht => t2.2 t (this.subset ht)⟩

/-! ## examples -/

/-- a metric whose name and description are markup, and a directory with markup in its name -/
def exMarkupS : State :=
  let s1 := (exec exW (.newVar (.scalar none (.string (lit "<i>")))) State.init).1
  let s2 := ((apiRegisterMetric exW.fnTy 0 (lit "/<b>") (.ptr 0) (some 0) .none (lit "\"><script>alert('&')</script>")).run exW s1).1
  ((apiRegisterMetric exW.fnTy 0 (lit "/a\"><p>/x") (.ptr 0) (some 0) .none []).run exW s2).1

/-- what a browser finds on the page, by evaluation -/
example : ∃ page, ((htmlEndpoint exFm exWriter [47] []).run exW exMarkupS).2 = (page, .ok) ∧
    Tokens page (frameDoc (txt (lit "      /<b> \"<i>\" ") ++ [tSpan] ++
      txt (lit "(string: \"><script>alert('&')</script>)") ++ [tSpanEnd, tBr] ++ txt (lit "\n") ++
      linkDoc (lit "/a\"><p>") (lit "/metrics/a%22%3e%3cp%3e"))) :=
  ⟨_, rfl, by decide +kernel⟩

/-- the tokenizer does find markup where there is some, and what is no markup -/
example : Tokens (lit "a<script>b") [.ch 97, .tag (lit "script"), .ch 98] ∧
    ¬ SafeMarkup [.ch 97, .tag (lit "script"), .ch 98] ∧ Tokens (lit "&amp;&lt;&quux;") [.ch 38, .ch 60, .bad] ∧
    Tokens (lit "<a href=\">\">") [.tag (linkTag (lit ">"))] ∧ ¬ LocalLink (linkTag (lit ">")) ∧
    LocalLink (linkTag (lit "/metrics/a%22%3e%3cp%3e")) := by
  refine ⟨by decide +kernel, ?_, by decide +kernel, by decide +kernel, ?_, ⟨lit "/a%22%3e%3cp%3e", by decide +kernel, by decide +kernel⟩⟩
  · intro h
    rcases h.2 (lit "script") (by simp) with h | ⟨p, h, -⟩
    · revert h; decide +kernel
    · exact absurd (congrArg List.head? h) (by unfold linkTag; simp [lit])
  · rintro ⟨p, h, -⟩
    have := congrArg List.length h
    simp [linkTag, lit] at this

example : Typed exW exTextS ∧ Components nD [nD] ∧ ((getMetricMsg false nD).run exW exTextS).2.isSome :=
  ⟨exTextS_typed, by
    have := C01_components nD
    rwa [show newPathSpec nD = [nD] by decide +kernel] at this, by decide +kernel⟩

end Tricorder
