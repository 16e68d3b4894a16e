import Verif.Proof.HtmlOrder
import Verif.Props.PageWhole
/-!
# C112: the items of an HTML page are read from top to bottom
-/

namespace Tricorder.Whole
open Go _root_.Spec Tricorder.Spec Tree

variable {A W : Type} {w : World}

/-- **C112** An HTML page that begins at `x` and is finished at the end, with any status, while other goroutines and the update functions
do anything.  `S` are the states during the request.

* If the path is that of a directory, either the head of the page cannot be written, or the following holds.  `R` are the entries
  that the directory had at one moment `k0`, sorted by name.  After the head there are complete items `U`, for the first entries
  of `R`.  There are intervals `ks` of the request after `k0`, one for each item, one after the other, such that what an item says was
  true in its interval: an item further down is never older than one above it.  Either all entries have their items and the foot of
  the page is written, with the status that the writer gives; or the page has an error and breaks off at the next entry, of
  which it says nothing, or what was true, or only what comes before the value.
* If the path is that of a metric, the page says what was true of that metric, as far as the writer takes it, with the status that
  the writer gives; or it has an error and the page breaks off before the value.
* Otherwise the page says that the path does not exist. -/
theorem C112_items {a b : List (Item A)} {x : Item A} {s : St A} (hr : Run w (a ++ x :: b) s) {c : ℕ} {fm : Fmts} {wr : Writer W}
    {path : Str} {q : List Str} (hq : Components path q) {x0 : W} {f : W × Status → A}
    (hx : x.lab = .spawn c ((htmlEndpoint fm wr path x0).bind fun r => .ret (f r))) {ans : A} {held : List (ℕ × ℕ)}
    (hd : s.procs[c]? = some ⟨.run (.ret ans), held⟩) :
    let S := During b s.mem;
    ∃ x1 st, ans = f (x1, st) ∧
      ((∃ d, SeenDir S 0 q d ∧ ((wr.all x0 [pageHead] = (x1, st) ∧ st ≠ .ok) ∨
        ∃ (k0 : ℕ) (it0 : Item A) (R : List (Str × Node)) (U : List ((Str × Node) × List Str)) (ks : List (ℕ × ℕ)) (x2 : W),
          b[k0]? = some it0 ∧ Entries it0.pre.tree d R ∧ wr.all x0 (pageHead :: U.flatMap Prod.snd) = (x2, .ok) ∧
          (∀ k ∈ ks, k0 ≤ k.1) ∧ ks.Pairwise (fun k k' => k.2 ≤ k'.1) ∧
          List.Forall₂ (fun u k => k.1 ≤ k.2 ∧ k.2 < b.length ∧ HtmlRow w fm (MomentsIn b k) q u.1.1 u.1.2 u.2) U ks ∧
          ((U.map Prod.fst = R ∧ wr.all x2 [pageFoot] = (x1, st)) ∨
           (st ≠ .ok ∧ ∃ y cs, U.map Prod.fst ++ [y] <+: R ∧ HtmlLast w fm S q y.1 y.2 cs ∧ (wr.all x2 cs).1 = x1)))) ∨
      (∃ m, Seen S 0 q m ∧ ((wr.all x0 [pageHead] = (x1, st) ∧ st ≠ .ok) ∨
        (∃ mv cs, (∃ σ, S σ ∧ metricView σ.tree m = some mv) ∧ HtmlTells w fm S mv cs ∧
          wr.all x0 (pageHead :: cs ++ [pageFoot]) = (x1, st)) ∨
        (st ≠ .ok ∧ ∃ cs, (cs = [] ∨ ∃ mv, (∃ σ, S σ ∧ metricView σ.tree m = some mv) ∧ HtmlLead S mv cs) ∧
          (wr.all x0 (pageHead :: cs)).1 = x1))) ∨
      x1 = (wr.write x0 (lit "Path does not exist.")).1) := by
  intro S
  have hqq := C01_components_unique hq
  subst hqq
  obtain ⟨hre, -, h3⟩ := hr.call hx (notTick_reads (ProgAll_bind (htmlEndpoint_reads ..) fun _ => trivial)) hd
  obtain ⟨⟨x1, st⟩, hrun, h5⟩ := RunI_map h3
  refine ⟨x1, st, h5, ?_⟩
  have hS : ∀ τ, τ ∈ statesOf (image c 0 b) (code (answers c b).length s.mem) → ∃ τ' j, S τ' ∧ τ = code j τ' :=
    fun τ hτ => image_states hτ
  rcases htmlEndpoint_items hre hrun with ⟨d, a1, h⟩ | ⟨m, a1, h⟩ | a1
  · refine .inl ⟨d, seenDir_code hS a1, h.imp (fun h => h) ?_⟩
    rintro ⟨e0, R, U, Es, x2, g1, g2, g3, g4, g5⟩
    have hne : ∀ E ∈ [e0] :: Es, E ≠ [] := by
      intro E hE
      rcases List.mem_cons.mp hE with rfl | hE
      · simp
      · obtain ⟨u, -, hu, -⟩ := forall₂_left g3.flip E hE
        exact hu
    obtain ⟨xs, y1, y2⟩ := image_parts hne g4
    cases y2 with
    | @cons _ z _ ks hz y2 =>
    obtain ⟨-, -, hz⟩ := hz
    obtain ⟨τ, j, ⟨k0, it0, k1, k2, k3, rfl⟩, k4⟩ := hz e0.pre ⟨e0, by simp, rfl⟩
    obtain ⟨y3, y4⟩ := List.pairwise_cons.mp y1
    refine ⟨k0, it0, R, U, ks, x2, k3, ?_, g2, fun k hk => k2.trans (y3 k hk), y4, ?_, ?_⟩
    · rw [k4] at g1
      exact g1
    · clear y1 y3 y4 g5 g4 hne g2
      induction g3 generalizing ks with
      | nil => cases y2; exact .nil
      | cons hq _ ih =>
        cases y2 with
        | cons hk y2 => exact .cons ⟨hk.1, hk.2.1, hq.2.code hk.2.2⟩ (ih y2)
    · refine g5.imp (fun h => h) ?_
      rintro ⟨hn, y, cs, l1, l2, l3⟩
      exact ⟨hn, y, cs, l1, l2.code hS, l3⟩
  · refine .inr (.inl ⟨m, seen_code hS a1, h.imp (fun h => h) (Or.imp ?_ ?_)⟩)
    · rintro ⟨mv, cs, ⟨σ, hσ, hm⟩, h1, h2⟩
      obtain ⟨σ', j, hσ', rfl⟩ := hS σ hσ
      exact ⟨mv, cs, ⟨σ', hσ', hm⟩, h1.code hS, h2⟩
    · rintro ⟨hn, cs, h1, h2⟩
      refine ⟨hn, cs, h1.imp (fun h => h) ?_, h2⟩
      rintro ⟨mv, ⟨σ, hσ, hm⟩, h3⟩
      obtain ⟨σ', j, hσ', rfl⟩ := hS σ hσ
      exact ⟨mv, ⟨σ', hσ', hm⟩, h3.code hS⟩
  · exact .inr (.inr a1)

/-! ### Example: a page that breaks off

The page of two variables of the default group, on a connection that fails in the middle of the second item. -/

def exShortHtml : Writer Str := ⟨fun x y => if x.length < pageHead.length + 60 then (x ++ y, none) else (x, some 7)⟩

def exCutHtmlCall : Prog (Option (Str × Status)) := (htmlEndpoint exFm exShortHtml (lit "/") []).bind fun r => .ret (some r)

def exCutHtml : Option (List (Item (Option (Str × Status))) × St (Option (Str × Status))) :=
  playW exW ((.spawn exPageSetup :: gos 0 6) ++ .spawn exCutHtmlCall :: (gos 1 2 ++
    taking 1 0 0 [.writeVar 0 (.scalar none (.int .int64 6)), .writeVar 1 (.scalar none (.int .int64 8))] ⟨100, 0⟩ ++ gos 1 2 ++
    releasing 1 0 0)) [] (start _)

def exCutPage : Str :=
  pageHead ++ lit "      /a 6 <span class=\"parens\">(int64: )</span><br>\n      /b"

def exCutHtmlText (s : St (Option (Str × Status))) (c : ℕ) : Option (Str × Bool) :=
  match s.procs[c]? with
  | some ⟨.run (.ret (some (x, .err 7))), held⟩ => some (x, held.isEmpty)
  | _ => none

theorem exCutHtml_shown : exCutHtml.map (fun x => exCutHtmlText x.2 1) = some (some (exCutPage, true)) := by
  decide +kernel

theorem exCutHtmlText_eq {s : St (Option (Str × Status))} {c : ℕ} {x : Str} (h : exCutHtmlText s c = some (x, true)) :
    s.procs[c]? = some ⟨.run (.ret (some (x, .err 7))), []⟩ := by
  unfold exCutHtmlText at h
  split at h
  · rename_i e
    simp only [Option.some.injEq, Prod.mk.injEq, List.isEmpty_iff] at h
    obtain ⟨rfl, rfl⟩ := h
    exact e
  · cases h

theorem exCutHtml_finished : ∃ tr s, Run exW tr s ∧ (∃ it ∈ tr, it.lab = .spawn 1 exCutHtmlCall) ∧
    s.procs[1]? = some ⟨.run (.ret (some (exCutPage, .err 7))), []⟩ := by
  have h := exCutHtml_shown
  obtain ⟨⟨tr, s⟩, he⟩ : ∃ x, exCutHtml = some x := by
    cases hp : exCutHtml with
    | none => rw [hp] at h; cases h
    | some x => exact ⟨x, rfl⟩
  rw [he] at h
  simp only [Option.map_some, Option.some.injEq] at h
  refine ⟨tr, s, playW_run .nil he, ?_, exCutHtmlText_eq h⟩
  unfold exCutHtml at he
  exact playW_spawn he (by decide +kernel)

/-- the hypotheses of C112 hold of it; it breaks off at an entry -/
example : ∃ (a b : List (Item (Option (Str × Status)))) (x : Item (Option (Str × Status))) (s : St (Option (Str × Status)))
    (U : List ((Str × Node) × List Str)) (x2 : Str) (y : Str × Node) (cs : List Str), Run exW (a ++ x :: b) s ∧
      x.lab = .spawn 1 exCutHtmlCall ∧ exShortHtml.all [] (pageHead :: U.flatMap Prod.snd) = (x2, .ok) ∧
      HtmlLast exW exFm (During b s.mem) [] y.1 y.2 cs ∧ (exShortHtml.all x2 cs).1 = exCutPage := by
  obtain ⟨tr, s, h1, ⟨x, hx, h2⟩, h3⟩ := exCutHtml_finished
  obtain ⟨a, b, rfl⟩ := List.append_of_mem hx
  have hc : Components (lit "/") [] := C01_components (lit "/")
  obtain ⟨x1, st, e, h⟩ := C112_items h1 hc h2 h3
  cases e
  rcases h with ⟨d, -, h⟩ | ⟨m, k, -⟩ | k
  · rcases h with ⟨k, -⟩ | ⟨k0, it0, R, U, ks, x2, -, -, u1, -, -, -, u2⟩
    · exact absurd k (by decide +kernel)
    · rcases u2 with ⟨-, k⟩ | ⟨-, y, cs, -, u2, u3⟩
      · have k' : ∀ z : Str, (exShortHtml.all z [pageFoot]).2 = .err 7 → (exShortHtml.all z [pageFoot]).1 = z := by
          intro z
          by_cases hz : z.length < pageHead.length + 60
          · simp [Writer.all, exShortHtml, hz]
          · simp [Writer.all, exShortHtml, hz]
        have h4 := k' x2 (by rw [k])
        rw [k] at h4
        refine ⟨a, b, x, s, U, x2, ([], .dir 0), [], h1, h2, u1, .inl rfl, h4.symm⟩
      · exact ⟨a, b, x, s, U, x2, y, cs, h1, h2, u1, u2, u3⟩
  · cases k
  · exact absurd k (by decide +kernel)

/-- the complete page of C91 has an interval for each item -/
example : ∃ (a b : List (Item (Option (Str × Status)))) (x : Item (Option (Str × Status))) (s : St (Option (Str × Status)))
    (U : List ((Str × Node) × List Str)) (ks : List (ℕ × ℕ)), Run exW (a ++ x :: b) s ∧
      exWriter.all [] (pageHead :: U.flatMap Prod.snd ++ [pageFoot]) = (exHtmlPage, .ok) ∧ U ≠ [] ∧
      ks.Pairwise (fun k k' => k.2 ≤ k'.1) ∧ U.length = ks.length := by
  obtain ⟨tr, s, h1, ⟨x, hx, h2⟩, h3, -⟩ := exPages_finished
  obtain ⟨a, b, rfl⟩ := List.append_of_mem hx
  have hc : Components (lit "/") [] := C01_components (lit "/")
  obtain ⟨x1, st, e, h⟩ := C112_items h1 hc h2 h3
  cases e
  rcases h with ⟨d, -, h⟩ | ⟨m, k, -⟩ | k
  · rcases h with ⟨-, k⟩ | ⟨k0, it0, R, U, ks, x2, -, -, u1, -, u3, u4, u2⟩
    · exact absurd rfl k
    · rcases u2 with ⟨-, k⟩ | ⟨k, -⟩
      · have h5 : exWriter.all [] (pageHead :: U.flatMap Prod.snd ++ [pageFoot]) = (exHtmlPage, .ok) := all_ok_app u1 k
        refine ⟨a, b, x, s, U, ks, h1, h5, ?_, u3, u4.length_eq⟩
        rintro rfl
        exact absurd h5 (by decide +kernel)
      · exact absurd rfl k
  · cases k
  · exact absurd k (by decide +kernel)

end Tricorder.Whole
