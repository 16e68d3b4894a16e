import Verif.Proof.PageRun
import Verif.Props.Whole
import Verif.Props.Text
/-!
# C91: one page shows one call of each update function
-/

namespace Tricorder.Whole
open Go Spec Tree

variable {A W : Type} {w : World} {tr : List (Item A)} {s : St A} {c : ℕ}

theorem follows_page {p : Prog (W × Status)} {R : Gh → W → Prop} {x0 : W} (f : W × Status → A) (hr : Run w tr s)
    (hw : WP (fun x g => g.locks.Nodup ∧ (x.2 = .ok → R g x.1)) p Gh.none) (hc : ∃ it ∈ tr, it.lab = .spawn c (p.bind fun r => .ret (f r)))
    {a : A} {held : List (ℕ × ℕ)} (hd : s.procs[c]? = some ⟨.run (.ret a), held⟩) :
    ∃ x st, a = f (x, st) ∧ ∃ g, Past w c tr g ∧ g.locks.Nodup ∧ (st = .ok → R g x) := by
  obtain ⟨p', g, h1, h2, h3⟩ := hr.follows (Q := fun a g => ∃ x st, a = f (x, st) ∧ g.locks.Nodup ∧ (st = .ok → R g x))
    (WP_bind (q := fun r => .ret (f r)) hw fun x g h => ⟨x.1, x.2, rfl, h⟩) hc
  rw [hd] at h1
  cases h1
  cases h2 with
  | run hw hl =>
    obtain ⟨x, st, e, hn, h⟩ := hw
    exact ⟨x, st, e, g, h3, hn, h⟩

theorem Past.page {g : Gh} (hr : Run w tr s) (hp : Past w c tr g) (hn : g.locks.Nodup) {conv : MValue → Dyn → Option Str}
    {items : List PageItem} (h : ∀ i ∈ items, i.Good conv g) :
    (∀ i ∈ items, i.Seen c tr) ∧
      ∀ r, (∃ v ∈ scalars items, v.1.value.region = some r) → ShowsOneCall w c tr r conv (scalars items) := by
  refine ⟨fun i hi => (h i hi).seen hp, fun r hv => hp.showsOneCall hr hn (fun v hv => ?_) hv⟩
  obtain ⟨i, hi, e⟩ := List.mem_filterMap.mp hv
  have := h i hi
  cases i with
  | link => cases e
  | scalar mv x => cases e; exact this.2.2
  | other => cases e

/-- **C91 (HTML)** Whatever the other goroutines and the update functions do: a finished HTML page, if no write failed, says that
the path does not exist, or consists of head, items and foot.  The metrics among the items are registered metrics as they were
during the request, and for each group all its scalars show one call of its update function. -/
theorem C91_html (hr : Run w tr s) {fm : Fmts} {wr : Writer W} {path : Str} {x0 : W} {f : W × Status → A}
    (hc : ∃ it ∈ tr, it.lab = .spawn c ((htmlEndpoint fm wr path x0).bind fun r => .ret (f r))) {a : A} {held : List (ℕ × ℕ)}
    (hd : s.procs[c]? = some ⟨.run (.ret a), held⟩) :
    ∃ x st, a = f (x, st) ∧ (st = .ok → x = (wr.write x0 (lit "Path does not exist.")).1 ∨
      ∃ items, wr.all x0 (pageHead :: items.flatMap PageItem.html ++ [pageFoot]) = (x, .ok) ∧ (∀ i ∈ items, i.Seen c tr) ∧
        ∀ r, (∃ v ∈ scalars items, v.1.value.region = some r) → ShowsOneCall w c tr r (htmlConv fm) (scalars items)) := by
  obtain ⟨x, st, e, g, h1, h2, h3⟩ := follows_page (x0 := x0) f hr (htmlEndpoint_wp fm wr path x0) hc hd
  refine ⟨x, st, e, fun hst => ?_⟩
  rcases h3 hst with h | ⟨items, h4, h5⟩
  · exact .inl h
  · exact .inr ⟨items, h4, h1.page hr h2 h5⟩

/-- **C91 (text)** The text page likewise: it says that the path does not exist; or it is that of a directory, has a line for each
item, and for each group all its scalars show one call of its update function; or it is that of a single metric and shows, if that
is a scalar, one value that its source had during the request. -/
theorem C91_text (hr : Run w tr s) {fm : Fmts} {wr : Writer W} {fuel : ℕ} {path : Str} {x0 : W} {f : W × Status → A}
    (hc : ∃ it ∈ tr, it.lab = .spawn c ((textEndpoint fm wr fuel path x0).bind fun r => .ret (f r))) {a : A} {held : List (ℕ × ℕ)}
    (hd : s.procs[c]? = some ⟨.run (.ret a), held⟩) :
    ∃ x st, a = f (x, st) ∧ (st = .ok → x = (wr.write x0 (lit "*Path does not exist.*")).1 ∨
      (∃ items, wr.all x0 (items.flatMap PageItem.text) = (x, .ok) ∧ (∀ i ∈ items, i.Seen c tr) ∧
        ∀ r, (∃ v ∈ scalars items, v.1.value.region = some r) → ShowsOneCall w c tr r (textConv fm) (scalars items)) ∨
      ∃ mv, Viewed c tr mv ∧ (Scalar mv → ∃ sc d y, mv.value.src = some sc ∧ textConv fm mv.value d = some y ∧
        wr.all x0 [y ++ lit "\n"] = (x, .ok) ∧ ∃ rd ∈ tr, (∃ cmd, rd.lab = .own c cmd) ∧ current w rd.pre sc = some d)) := by
  obtain ⟨x, st, e, g, h1, h2, h3⟩ := follows_page (x0 := x0) f hr (textEndpoint_wp fm wr fuel path x0) hc hd
  refine ⟨x, st, e, fun hst => ?_⟩
  rcases h3 hst with h | ⟨items, h4, h5⟩ | ⟨m, mv, h4, h5⟩
  · exact .inl h
  · exact .inr (.inl ⟨items, h4, h1.page hr h2 h5⟩)
  · refine .inr (.inr ⟨mv, h1.viewed h4, fun hs => ?_⟩)
    obtain ⟨y, h6, sc, d, ss, h7, h8, h9⟩ := h5 hs
    obtain ⟨a1, rd, b1, rfl, k2, k3, -⟩ := h1.reads _ h8
    exact ⟨sc, d, y, h7, h9, h6, rd, by simp, k2, k3⟩

/-! ### Example: an HTML page and a text page share an update

Two variables of the default group are registered.  The update function changes both.  After the HTML page has read the first
variable, the text page takes the group as well. -/

def exPageSetup : Prog (Option (Str × Status)) := exSetup.bind fun _ => .ret none

def exHtmlCall : Prog (Option (Str × Status)) := (htmlEndpoint exFm exWriter (lit "/") []).bind fun r => .ret (some r)
def exTextCall : Prog (Option (Str × Status)) := (textEndpoint exFm exWriter 3 (lit "/") []).bind fun r => .ret (some r)

def exPages : Option (List (Item (Option (Str × Status))) × St (Option (Str × Status))) :=
  playW exW ((.spawn exPageSetup :: gos 0 6) ++ .spawn exHtmlCall :: (gos 1 2 ++
    taking 1 0 0 [.writeVar 0 (.scalar none (.int .int64 6)), .writeVar 1 (.scalar none (.int .int64 8))] ⟨100, 0⟩ ++ gos 1 1) ++
    .spawn exTextCall :: (gos 2 3 ++ sharing 2 0 1 ++ gos 1 2 ++ releasing 1 0 0 ++ gos 2 4 ++ releasing 2 0 1)) [] (start _)

def exPageText (s : St (Option (Str × Status))) (c : ℕ) : Option (Str × Bool) :=
  match s.procs[c]? with
  | some ⟨.run (.ret (some (x, .ok))), held⟩ => some (x, held.isEmpty)
  | _ => none

def exHtmlPage : Str :=
  pageHead ++ lit "      /a 6 <span class=\"parens\">(int64: )</span><br>\n      /b 8 <span class=\"parens\">(int64: )</span><br>\n" ++
    pageFoot

theorem exPages_shown : exPages.map (fun x => [exPageText x.2 1, exPageText x.2 2]) = some
    [some (exHtmlPage, true), some (lit "/a 6\n/b 8\n", true)] := by
  decide +kernel

theorem exPageText_eq {s : St (Option (Str × Status))} {c : ℕ} {x : Str} (h : exPageText s c = some (x, true)) :
    s.procs[c]? = some ⟨.run (.ret (some (x, .ok))), []⟩ := by
  unfold exPageText at h
  split at h
  · rename_i e
    simp only [Option.some.injEq, Prod.mk.injEq, List.isEmpty_iff] at h
    obtain ⟨rfl, rfl⟩ := h
    exact e
  · cases h

/-- the hypotheses of C91 hold of it -/
theorem exPages_finished : ∃ tr s, Run exW tr s ∧ (∃ it ∈ tr, it.lab = .spawn 1 exHtmlCall) ∧
    s.procs[1]? = some ⟨.run (.ret (some (exHtmlPage, .ok))), []⟩ ∧ (∃ it ∈ tr, it.lab = .spawn 2 exTextCall) ∧
    s.procs[2]? = some ⟨.run (.ret (some (lit "/a 6\n/b 8\n", .ok))), []⟩ := by
  have h := exPages_shown
  obtain ⟨⟨tr, s⟩, he⟩ : ∃ x, exPages = some x := by
    cases hp : exPages with
    | none => rw [hp] at h; cases h
    | some x => exact ⟨x, rfl⟩
  rw [he] at h
  simp only [Option.map_some, Option.some.injEq, List.cons.injEq, and_true] at h
  have hrun : Run exW tr s := playW_run .nil he
  refine ⟨tr, s, hrun, ?_, exPageText_eq h.1, ?_, exPageText_eq h.2⟩
  · unfold exPages at he
    rw [List.append_assoc] at he
    exact playW_spawn he (by decide +kernel)
  · unfold exPages at he
    exact playW_spawn he (by decide +kernel)

example : ∃ (tr : List (Item (Option (Str × Status)))) (s : St (Option (Str × Status))) (items : List PageItem), Run exW tr s ∧
    exWriter.all [] (pageHead :: items.flatMap PageItem.html ++ [pageFoot]) = (exHtmlPage, .ok) ∧
      ∀ r, (∃ v ∈ scalars items, v.1.value.region = some r) → ShowsOneCall exW 1 tr r (htmlConv exFm) (scalars items) := by
  obtain ⟨tr, s, h1, h4, h5, -⟩ := exPages_finished
  obtain ⟨x, st, e, h⟩ := C91_html h1 h4 h5
  cases e
  rcases h rfl with h | ⟨items, h, -, h'⟩
  · exact absurd h (by decide +kernel)
  · exact ⟨tr, s, items, h1, h, h'⟩

end Tricorder.Whole
