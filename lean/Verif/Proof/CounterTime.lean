import Verif.Spec.CounterTime
import Verif.Props.CounterHtml
import Verif.Props.PrettyOrder
import Verif.Proof.Html
/-!
# Running totals of time on HTML pages: proofs
-/

namespace Tricorder.Whole
open Go _root_.Spec Tricorder.Spec Tree

variable {A W : Type} {w : World} {fm : Fmts} {wr : Writer W}

theorem html_time {x : ℤ} (hx : InI64 x) {u : MUnit} {y : Str}
    (h : valueToHtmlString fm (.scalar none (.duration x)) .goDuration u false = some y) : ShowsTime u x y := by
  obtain ⟨y', h1, h2⟩ := html_duration fm hx u
  rw [h] at h1
  cases h1
  exact h2

/-- the text of an item is made of `x` nanoseconds -/
def TimeGen (fm : Fmts) (T : Tree MValue) (m : ℕ) (x : ℤ) (cs : List Str) : Prop :=
  ∃ mv y, metricView T m = some mv ∧ InI64 x ∧
    valueToHtmlString fm (.scalar none (.duration x)) .goDuration mv.value.unit false = some y ∧ cs = PageItem.html (.scalar mv y)

theorem TimeGen.item {T : Tree MValue} {m : ℕ} {x : ℤ} {cs : List Str} (h : TimeGen fm T m x cs) : TimeItem T m x cs := by
  obtain ⟨mv, y, h1, h2, h3, h4⟩ := h
  exact ⟨mv, y, h1, html_time h2 h3, h4⟩

theorem time_plain {x : ℤ} {u : MUnit} {p : Bool} {y : Str}
    (h : valueToHtmlString fm (.scalar none (.duration x)) .goDuration u p = some y) : p = false := by
  cases p with
  | true => simp [valueToHtmlString, valueToTextString, Ty.isInt, Ty.isUint] at h
  | false => rfl

theorem times_notFalling {fm' : Fmts} {sc : Src} {T T' : Tree MValue} {u v : (Str × Node) × List Str}
    (h : ∀ m n, u.1.2 = .metric m → v.1.2 = .metric n → TotalIs T m sc → TotalIs T' n sc →
      ∃ i j, TimeGen fm T m i u.2 ∧ TimeGen fm' T' n j v.2 ∧ i ≤ j) : TimesNotFalling T T' sc u v := by
  intro m n h1 h2 h3 h4
  obtain ⟨i, j, ⟨mv, y, a1, a2, a3, a4⟩, ⟨mv', y', b1, b2, b3, b4⟩, hij⟩ := h m n h1 h2 h3 h4
  have c1 := html_time a2 a3
  have c2 := html_time b2 b3
  refine ⟨mv, mv', y, y', i, j, a1, b1, a4, b4, c1, c2, hij, fun h0 => ?_⟩
  unfold ShowsTime at c1 c2
  rw [if_neg (by omega)] at c1 c2
  exact ⟨_, _, pretty_of c1, pretty_of c2, prettyShown_mono (by omega)⟩

theorem html_tells_time {S : State → Prop} {mv : MetricView} {cs : List Str} {sc : Src} (h : HtmlTells w fm S mv cs)
    (hs : mv.value.src = some sc) (hk : mv.value.valType = .goDuration)
    (hc : ∀ σ d, S σ → current w σ sc = some d → ∃ x, d = .scalar none (.duration x) ∧ InI64 x) :
    ∃ σ x y, S σ ∧ current w σ sc = some (.scalar none (.duration x)) ∧ InI64 x ∧
      valueToHtmlString fm (.scalar none (.duration x)) (.goDuration) mv.value.unit false = some y ∧ cs = PageItem.html (.scalar mv y) := by
  cases h with
  | dist a => rw [hk] at a; cases a
  | list a => rw [hk] at a; cases a
  | scalar a b c d e f =>
    rw [hs] at b; cases b
    obtain ⟨x, rfl, hx⟩ := hc _ _ c d
    unfold htmlConv at e
    rw [hk] at e
    rw [time_plain e] at e
    exact ⟨_, x, _, c, d, hx, e, f⟩

/-- what an item says of a total was true at one of the moments of its interval -/
theorem row_time {a b q : List (Item A)} {x : Item A} {s : St A} (hr : Run w (a ++ x :: b) s) {sc : Src}
    (hc : TimeTotal w sc (a ++ x :: b ++ q)) {i : ℕ × ℕ} {p : List Str} {name : Str} {m : ℕ} {cs : List Str}
    (h : HtmlRow w fm (MomentsIn b i) p name (.metric m) cs) (hk : TotalIs s.mem.tree m sc) :
    ∃ j z, i.1 ≤ j ∧ j ≤ i.2 ∧ GivesTime w sc (a ++ x :: b.take j) z ∧ TimeGen fm s.mem.tree m z cs := by
  obtain ⟨mv, ⟨σ, ⟨l, it, -, -, h3, rfl⟩, h4⟩, -, h5⟩ := h
  have hv : metricView s.mem.tree m = some mv := hr.view (it := it) (by simp [List.mem_of_getElem? h3]) h4
  obtain ⟨k1, k2⟩ := hk mv hv
  have cut : ∀ {j : ℕ} {it : Item A}, b[j]? = some it →
      it.pre = after w ((a ++ x :: b.take j).filterMap memStep) State.init := by
    intro j it hj
    obtain ⟨hlt, hj⟩ := List.getElem?_eq_some_iff.mp hj
    refine hr.after_pre (B := a ++ x :: b.take j) (C := b.drop (j + 1)) ?_
    rw [List.append_assoc, List.cons_append, ← hj, List.cons_getElem_drop_succ, List.take_append_drop]
  obtain ⟨σ, z, y, ⟨j, it', u1, u2, u3, rfl⟩, v1, v2, v3, v4⟩ := html_tells_time h5 k1 k2 (by
    rintro σ d ⟨j, it', -, -, u3, rfl⟩ hd
    rw [cut u3] at hd
    exact hc.time (a ++ x :: b.take j) (b.drop j ++ q) d (by
      have e : b.take j ++ (b.drop j ++ q) = b ++ q := by rw [← List.append_assoc, List.take_append_drop]
      rw [List.append_assoc, List.append_assoc, List.cons_append, List.cons_append, e]) hd)
  rw [cut u3] at v1
  exact ⟨j, z, u1, u2, v1, mv, y, hv, v2, v3, v4⟩

/-- the total had the value that the item shows at a moment of the request -/
def TimeTrue (w : World) (fm : Fmts) (sc : Src) (T : Tree MValue) (pre b : List (Item A)) (u : (Str × Node) × List Str) : Prop :=
  ∀ m, u.1.2 = .metric m → TotalIs T m sc → ∃ p p' z, b = p ++ p' ∧ GivesTime w sc (pre ++ p) z ∧ TimeGen fm T m z u.2

theorem time_items {a b q' : List (Item A)} {x : Item A} {s : St A} (hr : Run w (a ++ x :: b) s) {c : ℕ} {path : Str} {q : List Str}
    (hq : Components path q) {x0 : W} {f : W × Status → A}
    (hx : x.lab = .spawn c ((htmlEndpoint fm wr path x0).bind fun r => .ret (f r))) {ans : A} {held : List (ℕ × ℕ)}
    (hd : s.procs[c]? = some ⟨.run (.ret ans), held⟩) {sc : Src} (hc : TimeTotal w sc (a ++ x :: b ++ q')) :
    ∃ x1 st, ans = f (x1, st) ∧ ((∃ U, HtmlPage w fm wr (During b s.mem) q x0 x1 st U ∧
        U.Pairwise (TimesNotFalling s.mem.tree s.mem.tree sc) ∧ ∀ u ∈ U, TimeTrue w fm sc s.mem.tree (a ++ [x]) b u) ∨
      x1 = (wr.write x0 (lit "Path does not exist.")).1) := by
  obtain ⟨x1, st, e, h⟩ := C112_items hr hq hx hd
  refine ⟨x1, st, e, ?_⟩
  rcases h with ⟨d, g1, ⟨h1, h2⟩ | ⟨k0, it0, R, U, ks, x2, h1, h2, h3, -, h5, h6, h7⟩⟩ | ⟨m, g1, h⟩ | h
  · exact .inl ⟨[], .head (by rw [h1]) (by rw [h1]; exact h2) h2, .nil, by simp⟩
  · refine .inl ⟨U, .dir g1 (.inl ⟨it0, List.mem_of_getElem? h1, rfl⟩) h2 h3 (h7.imp (fun h => h) ?_), forall₂_pairwise h6 h5 ?_, ?_⟩
    · rintro ⟨l1, y, cs, l2, l3, l4⟩
      exact ⟨l1, y, cs, l2, .of_last l3, l4⟩
    · rintro ⟨⟨n1, nd⟩, cs⟩ ⟨⟨n1', nd'⟩, cs'⟩ i i' ⟨-, -, hu⟩ ⟨-, -, hu'⟩ hij
      refine times_notFalling (fm := fm) (fm' := fm) ?_
      intro m n hm hn hk hk'
      dsimp only at hm hn hu hu'
      subst hm hn
      obtain ⟨j, z, u1, u2, u3, u4⟩ := row_time hr hc hu hk
      obtain ⟨j', z', v1, v2, v3, v4⟩ := row_time hr hc hu' hk'
      have hjj : j ≤ j' := by omega
      have hj : b.take j' = b.take j ++ (b.drop j).take (j' - j) := by
        rw [← List.take_add]; congr 1; omega
      refine ⟨z, z', u4, v4, hc.grows (a ++ x :: b.take j) ((b.drop j).take (j' - j)) (b.drop j' ++ q') z z' ?_ u3 ?_⟩
      · have : b = b.take j ++ ((b.drop j).take (j' - j) ++ b.drop j') := by
          rw [← List.append_assoc, ← hj, List.take_append_drop]
        conv_lhs => rw [this]
        simp
      · rw [List.append_assoc, List.cons_append, ← hj]
        exact v3
    · rintro ⟨⟨n1, nd⟩, cs⟩ hu m hm hk
      dsimp only at hm
      subst hm
      obtain ⟨i, -, -, -, hi⟩ := forall₂_left h6 _ hu
      obtain ⟨j, z, u1, u2, u3, u4⟩ := row_time hr hc hi hk
      exact ⟨b.take j, b.drop j, z, (List.take_append_drop _ _).symm, by simpa using u3, u4⟩
  · rcases h with ⟨h1, h2⟩ | ⟨mv, cs, ⟨σ, h1, h1'⟩, h2, h3⟩ | ⟨h1, cs, h2, h3⟩
    · exact .inl ⟨[], .head (by rw [h1]) (by rw [h1]; exact h2) h2, .nil, by simp⟩
    · have hv : metricView s.mem.tree m = some mv := by
        rcases h1 with ⟨it, hit, rfl⟩ | rfl
        · exact hr.view (it := it) (by simp [hit]) h1'
        · exact h1'
      rw [show pageHead :: cs ++ [pageFoot] = [pageHead] ++ (cs ++ [pageFoot]) from rfl] at h3
      obtain ⟨⟨y1, t1⟩, hy1⟩ : ∃ r, wr.all x0 [pageHead] = r := ⟨_, rfl⟩
      obtain ⟨⟨y2, t2⟩, hy2⟩ : ∃ r, wr.all y1 cs = r := ⟨_, rfl⟩
      by_cases n1 : t1 = .ok
      · subst n1
        rw [all_then hy1 rfl] at h3
        by_cases n2 : t2 = .ok
        · subst n2
          rw [all_then hy2 rfl] at h3
          refine .inl ⟨[(([], .metric m), cs)], .metric g1 (x2 := y2) (by simpa using all_ok_app hy1 hy2) (.inl ⟨⟨[], rfl⟩, h3⟩),
            List.pairwise_singleton _ _, ?_⟩
          intro u hu m' hm hk
          rw [List.mem_singleton.mp hu] at hm ⊢
          cases hm
          obtain ⟨k1, k2⟩ := hk mv hv
          obtain ⟨σ, z, y, e1, e2, e3, e4, e5⟩ := html_tells_time h2 k1 k2 (by
            intro σ d hσ hd
            obtain ⟨p, p', rfl, rfl⟩ := during_cut hr hσ
            exact hc.time (a ++ x :: p) (p' ++ q') d (by simp) hd)
          obtain ⟨p, p', rfl, rfl⟩ := during_cut hr e1
          exact ⟨p, p', z, rfl, by simpa [GivesTime] using e2, mv, y, hv, e3, e4, e5⟩
        · rw [all_prefix wr y1 (by rw [hy2]; exact n2), hy2] at h3
          cases h3
          exact .inl ⟨[], .metric g1 (x2 := y1) hy1 (.inr ⟨n2, rfl, cs, .inr (.inr (.inl ⟨mv, h2⟩)), by rw [hy2]⟩), .nil, by simp⟩
      · rw [all_prefix wr x0 (by rw [hy1]; exact n1), hy1] at h3
        cases h3
        exact .inl ⟨[], .head (by rw [hy1]) (by rw [hy1]; exact n1) n1, .nil, by simp⟩
    · rw [show pageHead :: cs = [pageHead] ++ cs from rfl] at h3
      obtain ⟨⟨y1, t1⟩, hy1⟩ : ∃ r, wr.all x0 [pageHead] = r := ⟨_, rfl⟩
      by_cases n1 : t1 = .ok
      · subst n1
        rw [all_then hy1 rfl] at h3
        exact .inl ⟨[], .metric g1 (x2 := y1) hy1 (.inr ⟨h1, rfl, cs, h2.imp (fun h => h) (fun ⟨mv, _, h⟩ => .inr (.inr ⟨mv, h⟩)), h3⟩),
          .nil, by simp⟩
      · rw [all_prefix wr x0 (by rw [hy1]; exact n1), hy1] at h3
        exact .inl ⟨[], .head (by rw [hy1]; exact h3) (by rw [hy1]; exact n1) h1, .nil, by simp⟩
  · exact .inr h

end Tricorder.Whole
