import Verif.Proof.PageWhole2
import Verif.Props.Embed
import Verif.Props.PageRun
/-!
# C109: the pages for people while everything else runs
-/

namespace Tricorder.Whole
open Go Spec Tree

variable {A W : Type} {w : World}

/-- **C109 (text)** A text page that begins at `x` and is finished without an error at the end, while other goroutines and the update
functions do anything.  `S` are the states during the request.

* If the path is that of a directory, the page has one line per metric.  The paths are strictly ascending and lie under the
  requested one.  Each metric was found under its path during the request, and what its line says was true at a moment during the
  request.  A metric that is registered at one path all the time has its line, unless it is found infinite or NaN.
* If the path is that of a metric, the page says what was true of that metric, which was found there, at a moment during the request.
  In this case nothing else was registered under the path all the time.
* If the page says that the path does not exist, no metric was registered at or under the path all the time. -/
theorem C109_text {a b : List (Item A)} {x : Item A} {s : St A} (hr : Run w (a ++ x :: b) s) {c fuel : ℕ} {fm : Fmts} {wr : Writer W}
    {path : Str} {q : List Str} (hq : Components path q) {x0 : W} {f : W × Status → A}
    (hx : x.lab = .spawn c ((textEndpoint fm wr fuel path x0).bind fun r => .ret (f r))) {ans : A} {held : List (ℕ × ℕ)}
    (hd : s.procs[c]? = some ⟨.run (.ret ans), held⟩) :
    let S := During b s.mem;
    ∃ x1 st, ans = f (x1, st) ∧ (st = .ok →
      (∃ d, SeenDir S 0 q d ∧ ∃ U : List ((List Str × ℕ) × List Str),
        wr.all x0 (U.flatMap fun u => textLine u.1.1 u.2) = (x1, .ok) ∧
        U.Pairwise (fun x y => x.1.1 < y.1.1) ∧
        (∀ u ∈ U, q <+: u.1.1 ∧ Seen S 0 u.1.1 u.1.2 ∧
          (∃ mv, (∃ σ, S σ ∧ metricView σ.tree u.1.2 = some mv) ∧ TextTells w fm S mv u.2) ∧ ¬ AlwaysInfNaN w S u.1.2) ∧
        ∀ p m, q <+: p → Stable S 0 p m → NeverInfNaN w S m → ∃ y, ((p, m), y) ∈ U) ∨
      (∃ m mv cs, Seen S 0 q m ∧ (∃ σ, S σ ∧ metricView σ.tree m = some mv) ∧ TextTells w fm S mv cs ∧ wr.all x0 cs = (x1, .ok) ∧
        ∀ p m', q <+: p → Stable S 0 p m' → p = q ∧ m' = m) ∨
      (x1 = (wr.write x0 (lit "*Path does not exist.*")).1 ∧ ∀ p m, q <+: p → ¬ Stable S 0 p m)) := by
  intro S
  have hqq := C01_components_unique hq
  obtain ⟨hre, -, h3⟩ := hr.call hx (notTick_reads (ProgAll_bind (textEndpoint_reads ..) fun _ => trivial)) hd
  obtain ⟨⟨x1, st⟩, hrun, h5⟩ := RunI_map h3
  refine ⟨x1, st, h5, ?_⟩
  rintro rfl
  have hS : ∀ τ, τ ∈ statesOf (image c 0 b) (code (answers c b).length s.mem) → ∃ τ' j, S τ' ∧ τ = code j τ' :=
    fun τ hτ => image_states hτ
  rcases textEndpoint_run hre hrun with ⟨d, a1, U, a2, a3, a4, a5⟩ | ⟨m, mv, cs, a1, ⟨σ, hσ, hm⟩, a3, a4, a5⟩ | ⟨a1, a2⟩
  · refine .inl ⟨d, hqq ▸ seenDir_code hS a1, U.map fun u => (u.1, u.2.tail), ?_, ?_, ?_, ?_⟩
    · rw [← a2, List.flatMap_map]
      congr 1
      refine List.flatMap_congr fun u hu => ?_
      obtain ⟨-, -, ⟨mv, ds, ⟨σ, hσ, hm⟩, e, -⟩, k4⟩ := a4 u hu
      rw [e, k4 σ mv hσ hm]
      rfl
    · rw [List.pairwise_map]
      exact a3
    · intro u' hu'
      obtain ⟨u, hu, rfl⟩ := List.mem_map.mp hu'
      obtain ⟨k1, k2, ⟨mv, ds, ⟨σ, hσ, hm⟩, e, k5, k6⟩, -⟩ := a4 u hu
      obtain ⟨σ', j, hσ', rfl⟩ := hS σ hσ
      refine ⟨hqq ▸ k1, seen_code hS k2, ⟨mv, ⟨σ', hσ', hm⟩, ?_⟩, ?_⟩
      · rw [e]
        exact k5.code hS
      · intro hal
        obtain ⟨c1, c2⟩ := alwaysInfNaN_code hS hal _ hσ mv hm
        obtain ⟨sc, d, τ, d1, d2, d3, d4⟩ := k6 c1
        exact d4 (c2 τ d2 sc d d1 d3)
    · intro p m hp hst hnever
      rcases a5 p m (hqq ▸ hp) (stable_code hS hst) with ⟨y, hy⟩ | ⟨mv, sc, d, σ, τ, b1, b2, b3, b4, b5, b6, b7⟩
      · exact ⟨_, List.mem_map.mpr ⟨_, hy, rfl⟩⟩
      · obtain ⟨σ', j, hσ', rfl⟩ := hS σ b1
        obtain ⟨τ', j', hτ', rfl⟩ := hS τ b5
        rw [current_code] at b6
        exact absurd b7 (hnever σ' hσ' mv b2 b3 τ' hτ' sc d b4 b6)
  · obtain ⟨σ', j, hσ', rfl⟩ := hS σ hσ
    exact .inr (.inl ⟨m, mv, cs, hqq ▸ seen_code hS a1, ⟨σ', hσ', hm⟩, a3.code hS, a4,
      fun p m' hp hst => hqq ▸ a5 p m' (hqq ▸ hp) (stable_code hS hst)⟩)
  · exact .inr (.inr ⟨a1, fun p m hp hst => a2 p m (hqq ▸ hp) (stable_code hS hst)⟩)

/-- **C109 (HTML)** An HTML page that begins at `x` and is finished without an error at the end.

* If the path is that of a directory, the page has, between head and foot, one item for each entry that the directory had at one
  moment `σ` during the request, sorted by name.  The item of a directory is the link with its path; that of a metric says, under
  its path, what was true at a moment during the request.  A metric that is registered directly in the directory all the time has
  its item.
* If the path is that of a metric, the page says what was true of that metric, which was found there, at a moment during the request.
* If the page says that the path does not exist, no metric was registered at or under the path all the time. -/
theorem C109_html {a b : List (Item A)} {x : Item A} {s : St A} (hr : Run w (a ++ x :: b) s) {c : ℕ} {fm : Fmts} {wr : Writer W}
    {path : Str} {q : List Str} (hq : Components path q) {x0 : W} {f : W × Status → A}
    (hx : x.lab = .spawn c ((htmlEndpoint fm wr path x0).bind fun r => .ret (f r))) {ans : A} {held : List (ℕ × ℕ)}
    (hd : s.procs[c]? = some ⟨.run (.ret ans), held⟩) :
    let S := During b s.mem;
    ∃ x1 st, ans = f (x1, st) ∧ (st = .ok →
      (∃ d σ, SeenDir S 0 q d ∧ S σ ∧ ∃ U : List ((Str × Node) × List Str),
        wr.all x0 (pageHead :: U.flatMap Prod.snd ++ [pageFoot]) = (x1, .ok) ∧
        U.Pairwise (fun x y => x.1.1 < y.1.1) ∧
        (∀ name nd, (∃ cs, ((name, nd), cs) ∈ U) ↔ Reaches σ.tree d [name] nd) ∧
        (∀ u ∈ U, HtmlRow w fm S q u.1.1 u.1.2 u.2) ∧
        ∀ name m, Stable S 0 (q ++ [name]) m → ∃ cs, ((name, .metric m), cs) ∈ U) ∨
      (∃ m mv cs, Seen S 0 q m ∧ (∃ σ, S σ ∧ metricView σ.tree m = some mv) ∧ HtmlTells w fm S mv cs ∧
        wr.all x0 (pageHead :: cs ++ [pageFoot]) = (x1, .ok) ∧ ∀ p m', q <+: p → Stable S 0 p m' → p = q ∧ m' = m) ∨
      (x1 = (wr.write x0 (lit "Path does not exist.")).1 ∧ ∀ p m, q <+: p → ¬ Stable S 0 p m)) := by
  intro S
  have hqq := C01_components_unique hq
  obtain ⟨hre, -, h3⟩ := hr.call hx (notTick_reads (ProgAll_bind (htmlEndpoint_reads ..) fun _ => trivial)) hd
  obtain ⟨⟨x1, st⟩, hrun, h5⟩ := RunI_map h3
  refine ⟨x1, st, h5, ?_⟩
  rintro rfl
  have hS : ∀ τ, τ ∈ statesOf (image c 0 b) (code (answers c b).length s.mem) → ∃ τ' j, S τ' ∧ τ = code j τ' :=
    fun τ hτ => image_states hτ
  rcases htmlEndpoint_run hre hrun with ⟨d, a1, a2, σ, hσ, U, u1, u2, u3, u4⟩ | ⟨m, mv, cs, a1, ⟨σ, hσ, hm⟩, a3, a4, a5⟩ | ⟨a1, a2⟩
  · have hin := hσ
    obtain ⟨σ', j, hσ', rfl⟩ := hS σ hσ
    refine .inl ⟨d, σ', hqq ▸ seenDir_code hS a1, hσ', U, u1, u2, u3, fun u hu => ?_, fun name m hst => ?_⟩
    · have := (u4 u hu).code hS
      exact hqq ▸ this
    · refine (u3 name (.metric m)).mpr ?_
      exact a2 [name] m (hqq ▸ stable_code hS hst) _ hin
  · obtain ⟨σ', j, hσ', rfl⟩ := hS σ hσ
    exact .inr (.inl ⟨m, mv, cs, hqq ▸ seen_code hS a1, ⟨σ', hσ', hm⟩, a3.code hS, a4,
      fun p m' hp hst => hqq ▸ a5 p m' (hqq ▸ hp) (stable_code hS hst)⟩)
  · exact .inr (.inr ⟨a1, fun p m hp hst => a2 p m (hqq ▸ hp) (stable_code hS hst)⟩)

/-! ### Example: the pages of C91 -/

/-- the text page of the example of C91 has two lines -/
example : ∃ (a b : List (Item (Option (Str × Status)))) (x : Item (Option (Str × Status))) (s : St (Option (Str × Status)))
    (U : List ((List Str × ℕ) × List Str)), Run exW (a ++ x :: b) s ∧ x.lab = .spawn 2 exTextCall ∧ Components (lit "/") [] ∧
      exWriter.all [] (U.flatMap fun u => textLine u.1.1 u.2) = (lit "/a 6\n/b 8\n", .ok) ∧ U ≠ [] ∧
      ∀ u ∈ U, Seen (During b s.mem) 0 u.1.1 u.1.2 ∧ ∃ mv, TextTells exW exFm (During b s.mem) mv u.2 := by
  obtain ⟨tr, s, h1, -, -, ⟨x, hx, h2⟩, h3⟩ := exPages_finished
  obtain ⟨a, b, rfl⟩ := List.append_of_mem hx
  have hc : Components (lit "/") [] := C01_components (lit "/")
  obtain ⟨x1, st, e, h⟩ := C109_text h1 hc h2 h3
  cases e
  rcases h rfl with ⟨d, -, U, u1, -, u2, -⟩ | ⟨m, mv, cs, k, -⟩ | ⟨k, -⟩
  · refine ⟨a, b, x, s, U, h1, h2, hc, u1, ?_, fun u hu => ⟨(u2 u hu).2.1, ?_⟩⟩
    · rintro rfl
      exact absurd u1 (by decide +kernel)
    · obtain ⟨-, -, ⟨mv, -, k⟩, -⟩ := u2 u hu
      exact ⟨mv, k⟩
  · cases k
  · exact absurd k (by decide +kernel)

/-- the HTML page has two items -/
example : ∃ (a b : List (Item (Option (Str × Status)))) (x : Item (Option (Str × Status))) (s : St (Option (Str × Status)))
    (U : List ((Str × Node) × List Str)), Run exW (a ++ x :: b) s ∧ x.lab = .spawn 1 exHtmlCall ∧ Components (lit "/") [] ∧
      exWriter.all [] (pageHead :: U.flatMap Prod.snd ++ [pageFoot]) = (exHtmlPage, .ok) ∧ U ≠ [] ∧
      ∀ u ∈ U, HtmlRow exW exFm (During b s.mem) [] u.1.1 u.1.2 u.2 := by
  obtain ⟨tr, s, h1, ⟨x, hx, h2⟩, h3, -⟩ := exPages_finished
  obtain ⟨a, b, rfl⟩ := List.append_of_mem hx
  have hc : Components (lit "/") [] := C01_components (lit "/")
  obtain ⟨x1, st, e, h⟩ := C109_html h1 hc h2 h3
  cases e
  rcases h rfl with ⟨d, σ, -, -, U, u1, -, -, u2, -⟩ | ⟨m, mv, cs, k, -⟩ | ⟨k, -⟩
  · refine ⟨a, b, x, s, U, h1, h2, hc, u1, ?_, u2⟩
    rintro rfl
    exact absurd u1 (by decide +kernel)
  · cases k
  · exact absurd k (by decide +kernel)

end Tricorder.Whole
