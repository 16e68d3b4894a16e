import Verif.Proof.TextOrder
import Verif.Props.PageWhole
/-!
# C111: the lines of a text page are read from top to bottom
-/

namespace Tricorder.Whole
open Go _root_.Spec Tricorder.Spec Tree

variable {A W : Type} {w : World}

/-- **C111** A text page that begins at `x` and is finished at the end, with any status, while other goroutines and the update functions
do anything.  `S` are the states during the request.

* If the path is that of a directory, the page consists of complete lines `L` and, if it breaks off, of a last one `cs`.  There are
  moments `ks` of the request, one for each line and in the order of the lines, such that what each line says was true at its moment:
  a line further down is never older than one above it.  The last line of a page that breaks off is a path, or a path and what
  was true of that metric.  A page without an error has no such line.
* If the path is that of a metric, the page says what was true of that metric, as far as the writer takes it, and its status is what
  the writer says; or there was a panic and nothing is written.
* Otherwise the page says that the path does not exist. -/
theorem C111_lines {a b : List (Item A)} {x : Item A} {s : St A} (hr : Run w (a ++ x :: b) s) {c fuel : ℕ} {fm : Fmts} {wr : Writer W}
    {path : Str} {q : List Str} (hq : Components path q) {x0 : W} {f : W × Status → A}
    (hx : x.lab = .spawn c ((textEndpoint fm wr fuel path x0).bind fun r => .ret (f r))) {ans : A} {held : List (ℕ × ℕ)}
    (hd : s.procs[c]? = some ⟨.run (.ret ans), held⟩) :
    let S := During b s.mem;
    ∃ x1 st, ans = f (x1, st) ∧
      ((∃ d, SeenDir S 0 q d ∧ ∃ (L : List (List Str)) (ks : List ℕ) (x2 : W) (cs : List Str), ks.Pairwise (· ≤ ·) ∧
        List.Forall₂ (fun l k => k < b.length ∧
          LineIn w fm s.mem.tree (after w ((a ++ x :: b.take k).filterMap memStep) State.init) l) L ks ∧
        wr.all x0 L.flatten = (x2, .ok) ∧ LastLine w fm s.mem.tree S cs ∧ (wr.all x2 cs).1 = x1 ∧ (st = .ok → cs = [])) ∨
      (∃ m cs, Seen S 0 q m ∧ (wr.all x0 cs).1 = x1 ∧
        (cs = [] ∧ st = .panic ∨ ∃ mv, metricView s.mem.tree m = some mv ∧ TextTells w fm S mv cs ∧ (wr.all x0 cs).2 = st)) ∨
      x1 = (wr.write x0 (lit "*Path does not exist.*")).1) := by
  intro S
  have hqq := C01_components_unique hq
  obtain ⟨hre, -, h3⟩ := hr.call hx (notTick_reads (ProgAll_bind (textEndpoint_reads ..) fun _ => trivial)) hd
  obtain ⟨⟨x1, st⟩, hrun, h5⟩ := RunI_map h3
  refine ⟨x1, st, h5, ?_⟩
  have hS : ∀ τ, τ ∈ statesOf (image c 0 b) (code (answers c b).length s.mem) → ∃ τ' j, S τ' ∧ τ = code j τ' :=
    fun τ hτ => image_states hτ
  rcases textEndpoint_lines hre hrun with ⟨d, a1, L, es, x2, cs, a2, a3, a4, a5, a6, a7⟩ | ⟨m, cs, a1, a2, a3⟩ | a1
  · obtain ⟨ks, k1, k2⟩ := lines_moments hr a2 a3
    exact .inl ⟨d, hqq ▸ seenDir_code hS a1, L, ks, x2, cs, k1, k2, a4, a5.code hS, a6, a7⟩
  · refine .inr (.inl ⟨m, cs, hqq ▸ seen_code hS a1, a2, a3.imp (fun h => h) ?_⟩)
    rintro ⟨mv, h1, h2, h3⟩
    exact ⟨mv, h1, h2.code hS, h3⟩
  · exact .inr (.inr a1)

/-! ### Example: a page that breaks off

The page of two variables of the default group, on a connection that takes no more than three writes. -/

def exShort : Writer Str := ⟨fun x y => if x.length < 6 then (x ++ y, none) else (x, some 7)⟩

def exCutCall : Prog (Option (Str × Status)) := (textEndpoint exFm exShort 3 (lit "/") []).bind fun r => .ret (some r)

def exCut : Option (List (Item (Option (Str × Status))) × St (Option (Str × Status))) :=
  playW exW ((.spawn exPageSetup :: gos 0 6) ++ .spawn exCutCall :: (gos 1 3 ++
    taking 1 0 0 [.writeVar 0 (.scalar none (.int .int64 6)), .writeVar 1 (.scalar none (.int .int64 8))] ⟨100, 0⟩ ++ gos 1 4 ++
    releasing 1 0 0)) [] (start _)

def exCutText (s : St (Option (Str × Status))) (c : ℕ) : Option (Str × Bool) :=
  match s.procs[c]? with
  | some ⟨.run (.ret (some (x, .err 7))), held⟩ => some (x, held.isEmpty)
  | _ => none

theorem exCut_shown : exCut.map (fun x => exCutText x.2 1) = some (some (lit "/a 6\n/b ", true)) := by
  decide +kernel

theorem exCutText_eq {s : St (Option (Str × Status))} {c : ℕ} {x : Str} (h : exCutText s c = some (x, true)) :
    s.procs[c]? = some ⟨.run (.ret (some (x, .err 7))), []⟩ := by
  unfold exCutText at h
  split at h
  · rename_i e
    simp only [Option.some.injEq, Prod.mk.injEq, List.isEmpty_iff] at h
    obtain ⟨rfl, rfl⟩ := h
    exact e
  · cases h

theorem exCut_finished : ∃ tr s, Run exW tr s ∧ (∃ it ∈ tr, it.lab = .spawn 1 exCutCall) ∧
    s.procs[1]? = some ⟨.run (.ret (some (lit "/a 6\n/b ", .err 7))), []⟩ := by
  have h := exCut_shown
  obtain ⟨⟨tr, s⟩, he⟩ : ∃ x, exCut = some x := by
    cases hp : exCut with
    | none => rw [hp] at h; cases h
    | some x => exact ⟨x, rfl⟩
  rw [he] at h
  simp only [Option.map_some, Option.some.injEq] at h
  refine ⟨tr, s, playW_run .nil he, ?_, exCutText_eq h⟩
  unfold exCut at he
  exact playW_spawn he (by decide +kernel)

/-- the hypotheses of C111 hold of it; the page is that of a directory -/
example : ∃ (a b : List (Item (Option (Str × Status)))) (x : Item (Option (Str × Status))) (s : St (Option (Str × Status)))
    (L : List (List Str)) (x2 : Str) (cs : List Str), Run exW (a ++ x :: b) s ∧ x.lab = .spawn 1 exCutCall ∧
      exShort.all [] L.flatten = (x2, .ok) ∧ LastLine exW exFm s.mem.tree (During b s.mem) cs ∧
      (exShort.all x2 cs).1 = lit "/a 6\n/b " := by
  obtain ⟨tr, s, h1, ⟨x, hx, h2⟩, h3⟩ := exCut_finished
  obtain ⟨a, b, rfl⟩ := List.append_of_mem hx
  have hc : Components (lit "/") [] := C01_components (lit "/")
  obtain ⟨x1, st, e, h⟩ := C111_lines h1 hc h2 h3
  cases e
  rcases h with ⟨d, -, L, ks, x2, cs, -, -, u1, u2, u3, -⟩ | ⟨m, cs, k, -⟩ | k
  · exact ⟨a, b, x, s, L, x2, cs, h1, h2, u1, u2, u3⟩
  · cases k
  · exact absurd k (by decide +kernel)

/-- the complete page of C91 has moments for its lines -/
example : ∃ (a b : List (Item (Option (Str × Status)))) (x : Item (Option (Str × Status))) (s : St (Option (Str × Status)))
    (L : List (List Str)) (ks : List ℕ), Run exW (a ++ x :: b) s ∧ exWriter.all [] L.flatten = (lit "/a 6\n/b 8\n", .ok) ∧
      L ≠ [] ∧ ks.Pairwise (· ≤ ·) ∧ L.length = ks.length := by
  obtain ⟨tr, s, h1, -, -, ⟨x, hx, h2⟩, h3⟩ := exPages_finished
  obtain ⟨a, b, rfl⟩ := List.append_of_mem hx
  have hc : Components (lit "/") [] := C01_components (lit "/")
  obtain ⟨x1, st, e, h⟩ := C111_lines h1 hc h2 h3
  cases e
  rcases h with ⟨d, -, L, ks, x2, cs, k1, k2, u1, u2, u3, u4⟩ | ⟨m, cs, k, -⟩ | k
  · rw [u4 rfl] at u3
    change x2 = _ at u3
    subst u3
    refine ⟨a, b, x, s, L, ks, h1, u1, ?_, k1, k2.length_eq⟩
    rintro rfl
    exact absurd u1 (by decide +kernel)
  · cases k
  · exact absurd k (by decide +kernel)

end Tricorder.Whole
