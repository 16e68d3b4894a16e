import Verif.Spec.TextOrder
import Verif.Proof.PageWhole
import Verif.Proof.Order
/-!
# The order in which a text page is read: proofs
-/

namespace Tricorder.Whole
open Go _root_.Spec Tricorder.Spec Tree

variable {A W : Type} {w : World} {fm : Fmts} {wr : Writer W}

theorem textEmit_any {mv : MetricView} {s s' : Option Session} {a a' : W} {st : Status} {σ σ' h}
    (hr : RunI w (textEmitMetric fm wr mv s a) σ h σ' (s', a', st)) :
    (a' = a ∧ st = .panic) ∨ ∃ cs, TextTells w fm (fun τ => ∃ e ∈ h, e.pre = τ) mv cs ∧ wr.all a cs = (a', st) := by
  unfold textEmitMetric at hr
  split at hr
  · rename_i hv
    cases hi : mv.value.dist with
    | none => rw [hi] at hr; cases (RunI_ret hr).1; exact .inl ⟨rfl, rfl⟩
    | some i =>
      rw [hi] at hr
      obtain ⟨h1, s1, h2, rfl, r1, r2⟩ := RunI_op hr
      cases hx : (exec w (.snapshot i) s1).2 with
      | none => rw [hx] at r2; cases (RunI_ret r2).1; exact .inl ⟨rfl, rfl⟩
      | some v =>
        rw [hx] at r2
        have he := (RunI_ret r2).1
        simp only [Prod.mk.injEq] at he
        change (match s1.dists[i]? with
          | none => none
          | some d => d.snapshot.map fun x => (⟨x, d.groupId⟩ : DistView)) = some v at hx
        cases hd : s1.dists[i]? with
        | none => rw [hd] at hx; cases hx
        | some d =>
          rw [hd] at hx
          cases hsn : d.snapshot with
          | none => simp only [hsn] at hx; cases hx
          | some sn =>
            simp only [hsn, Option.map_some, Option.some.injEq] at hx
            subst hx
            exact .inr ⟨_, .dist hv hi ⟨⟨true, .snapshot i, s1⟩, by simp, rfl⟩ hd hsn rfl, he.2⟩
  · rename_i hv
    split at hr
    · rename_i hv2
      cases hi : mv.value.alist with
      | none => rw [hi] at hr; cases (RunI_ret hr).1; exact .inl ⟨rfl, rfl⟩
      | some i =>
        rw [hi] at hr
        obtain ⟨h1, s1, h2, rfl, r1, r2⟩ := RunI_op hr
        cases hx : (exec w (.getList i) s1).2 with
        | none => rw [hx] at r2; cases (RunI_ret r2).1; exact .inl ⟨rfl, rfl⟩
        | some lv =>
          rw [hx] at r2
          simp only at r2
          cases hren : renderAll (fun d => valueToTextString fm d lv.subType mv.value.unit false) (elemsOf lv.val) with
          | none => rw [hren] at r2; cases (RunI_ret r2).1; exact .inl ⟨rfl, rfl⟩
          | some xs =>
            rw [hren] at r2
            have he := (RunI_ret r2).1
            simp only [Prod.mk.injEq] at he
            exact .inr ⟨_, .list hv2 hi ⟨⟨true, .getList i, s1⟩, by simp, rfl⟩ hx (renderAll_forall hren) rfl,
              by rw [show lit "|" = [124] from rfl, ← joinByte_eq]; exact he.2⟩
    · rename_i hv2
      obtain ⟨h1, s1, x, h2, rfl, r1, r2⟩ := RunI_bind hr
      obtain ⟨so, ox⟩ := x
      cases ox with
      | panic => cases (RunI_ret r2).1; exact .inl ⟨rfl, rfl⟩
      | ok x =>
        have he := (RunI_ret r2).1
        simp only [Prod.mk.injEq] at he
        unfold asTextString at r1
        cases hsrc : mv.value.src with
        | none => rw [hsrc] at r1; cases (RunI_ret r1).1
        | some sc0 =>
          rw [hsrc] at r1
          obtain ⟨sc, d, b1, ⟨e, he1, -, b2⟩, b3⟩ := readAs_any r1
          exact .inr ⟨_, .scalar ⟨hv, hv2⟩ b1 ⟨e, by simp [he1], rfl⟩ b2 b3 rfl, he.2⟩

theorem collect_text_any {S : State → Prop} {T : Tree MValue} (hT : IsTree T)
    (hS : ∀ τ, S τ → IsTree τ.tree ∧ Ext τ.tree T) {m : ℕ} {s s' : Session} {a a' : W} {st : Status} {σ σ' h}
    (hr : RunI w (collect (textColl fm wr) m s a) σ h σ' (s', a', st)) (hh : ∀ e ∈ h, S e.pre) :
    ∃ cs, LastLine w fm T S cs ∧ (wr.all a cs).1 = a' := by
  obtain ⟨h1, s1, h2, rfl, r1, r2⟩ := RunI_op hr
  cases hm : (exec w (.metric m) s1).2 with
  | none =>
    rw [hm] at r2
    cases (RunI_ret r2).1
    exact ⟨[], .inl rfl, rfl⟩
  | some mv =>
    rw [hm] at r2
    obtain ⟨h3, s3, x, h4, rfl, r3, r4⟩ := RunI_bind r2
    obtain ⟨so, ox⟩ := x
    obtain ⟨s'', rfl, a1, a2⟩ := isInfNaN_run r3
    cases ox with
    | panic => cases (RunI_ret r4).1; exact ⟨[], .inl rfl, rfl⟩
    | ok b =>
      cases b with
      | true => cases (RunI_ret r4).1; exact ⟨[], .inl rfl, rfl⟩
      | false =>
        change RunI w (textColl fm wr m s'' a) s3 h4 σ' (s', a', st) at r4
        obtain ⟨h5, s5, h6, rfl, r5, r6⟩ := RunI_op r4
        have hs5 : S s5 := hh ⟨true, .metric m, s5⟩ (by simp)
        cases hm2 : (exec w (.metric m) s5).2 with
        | none =>
          rw [hm2] at r6
          cases (RunI_ret r6).1
          exact ⟨[], .inl rfl, rfl⟩
        | some mv2 =>
          rw [hm2] at r6
          change metricView s5.tree m = some mv2 at hm2
          have x2 := metricView_ext (hS s5 hs5).1 hT (hS s5 hs5).2 hm2
          simp only at r6
          cases hw : wr.write a (mv2.path ++ [32]) with
          | mk a1 oe =>
            rw [hw] at r6
            cases oe with
            | some e =>
              cases (RunI_ret r6).1
              exact ⟨[mv2.path ++ [32]], .inr ⟨m, mv2, [], x2, rfl, .inl rfl⟩, by simp only [Writer.all, hw]⟩
            | none =>
              obtain ⟨h7, s7, y, h8, rfl, r7, r8⟩ := RunI_bind r6
              have hy := (RunI_ret r8).1
              obtain ⟨sy, ay, sty⟩ := y
              simp only [Prod.mk.injEq] at hy
              obtain ⟨-, rfl, rfl⟩ := hy
              rcases textEmit_any r7 with ⟨rfl, -⟩ | ⟨cs, c1, c2⟩
              · exact ⟨[mv2.path ++ [32]], .inr ⟨m, mv2, [], x2, rfl, .inl rfl⟩, by simp only [Writer.all, hw]⟩
              · refine ⟨(mv2.path ++ [32]) :: cs, .inr ⟨m, mv2, cs, x2, rfl, .inr (c1.mono ?_)⟩, by simp only [Writer.all, hw, c2]⟩
                rintro τ ⟨e, he, rfl⟩
                exact hh e (by simp [he])

/-- the lines of a page are parts of the history, one after the other -/
theorem calls_lines {S : State → Prop} {T : Tree MValue} (hT : IsTree T)
    (hS : ∀ τ, S τ → IsTree τ.tree ∧ Ext τ.tree T) {H : List Ev} (hh : ∀ e ∈ H, S e.pre)
    {V : List ℕ} {s s' : Session} {a a' : W} {st} (hc : Calls w (textColl fm wr) H V s a s' a' st) :
    ∃ (P : List (List Str × List Ev)) (a2 : W) (cs : List Str), wr.all a (P.map Prod.fst).flatten = (a2, .ok) ∧
      (P.flatMap Prod.snd).Sublist H ∧ (∀ x ∈ P, ∃ e ∈ x.2, LineIn w fm T e.pre x.1) ∧
      LastLine w fm T S cs ∧ (wr.all a2 cs).1 = a' ∧ (st = .ok → cs = []) := by
  induction hc with
  | @done _ _ a => exact ⟨[], a, [], rfl, by simp, by simp, .inl rfl, rfl, fun _ => rfl⟩
  | @timeout _ _ a => exact ⟨[], a, [], rfl, by simp, by simp, .inl rfl, rfl, fun _ => rfl⟩
  | @more b h H m ms s a s1 a1 s2 a2 st σ σ' _ hr _ ih =>
    have hS' : ∀ τ, (∃ e ∈ h, e.pre = τ) → IsTree τ.tree ∧ Ext τ.tree T := by
      rintro τ ⟨e, he, rfl⟩
      exact hS _ (hh e (by simp [he]))
    obtain ⟨P, x2, cs, b1, b2, b3, b4, b5, b6⟩ := ih (fun e he => hh e (by simp [he]))
    have b2' : (P.flatMap Prod.snd).Sublist (b ++ (h ++ H)) :=
      b2.trans ((List.sublist_append_right h H).trans (List.sublist_append_right b _))
    rcases collect_text_run hT hS' hr (fun e he => ⟨e, he, rfl⟩) with ⟨rfl, -⟩ | ⟨l, h1, h2⟩
    · exact ⟨P, x2, cs, b1, b2', b3, b4, b5, b6⟩
    · refine ⟨(l, h) :: P, x2, cs, by simpa using all_ok_app h2 b1, ?_, ?_, b4, b5, b6⟩
      · rw [List.flatMap_cons]
        exact (List.Sublist.append (.refl h) b2).trans (List.sublist_append_right b _)
      · intro z hz
        rcases List.mem_cons.mp hz with rfl | hz
        · obtain ⟨mv, ds, ⟨τ, ⟨e0, he0, rfl⟩, hm⟩, e, ht, -⟩ := h1
          have hm' := metricView_ext (hS' _ ⟨e0, he0, rfl⟩).1 hT (hS' _ ⟨e0, he0, rfl⟩).2 hm
          cases ht with
          | dist a b c d g f => obtain ⟨e1, he1, rfl⟩ := c; exact ⟨e1, he1, m, mv, ds, hm', e, .dist a b rfl d g f⟩
          | list a b c d g f => obtain ⟨e1, he1, rfl⟩ := c; exact ⟨e1, he1, m, mv, ds, hm', e, .list a b rfl d g f⟩
          | scalar a b c d g f => obtain ⟨e1, he1, rfl⟩ := c; exact ⟨e1, he1, m, mv, ds, hm', e, .scalar a b rfl d g f⟩
        · exact b3 z hz
  | @stop b h e m s a s1 a1 st σ σ' _ hr _ hn =>
    obtain ⟨cs, c1, c2⟩ := collect_text_any hT hS hr (fun e he => hh e (by simp [he]))
    exact ⟨[], a, cs, rfl, by simp, by simp, c1, c2, fun h => absurd h hn⟩

theorem LastLine.code {S S' : State → Prop} {U : ℕ → Time} (h : ∀ τ, S τ → ∃ τ' j, S' τ' ∧ τ = code j τ') {T : Tree MValue} {cs}
    (hl : LastLine (timed w U) fm T S cs) : LastLine w fm T S' cs := by
  rcases hl with h1 | ⟨id, mv, ds, h1, h2, h3⟩
  · exact .inl h1
  · exact .inr ⟨id, mv, ds, h1, h2, h3.imp (fun h => h) fun h3 => h3.code h⟩

/-- the moments of the lines in the run -/
theorem lines_moments {a b : List (Item A)} {x : Item A} {s : St A} (hr : Run w (a ++ x :: b) s) {c : ℕ} {U : ℕ → Time} {T : Tree MValue}
    {L : List (List Str)} {es : List Ev} (h1 : es.Sublist (image c 0 b))
    (h2 : List.Forall₂ (fun l (e : Ev) => LineIn (timed w U) fm T e.pre l) L es) :
    ∃ ks : List ℕ, ks.Pairwise (· ≤ ·) ∧ List.Forall₂ (fun l k => k < b.length ∧
      LineIn w fm T (after w ((a ++ x :: b.take k).filterMap memStep) State.init) l) L ks := by
  obtain ⟨ks, h7, h8⟩ := image_order h1
  refine ⟨ks, h7, ?_⟩
  clear h1 h7
  induction h2 generalizing ks with
  | nil => cases h8; exact .nil
  | cons hq _ ih =>
    cases h8 with
    | cons hk h8 =>
      refine .cons ?_ (ih _ h8)
      obtain ⟨it, j, k1, k2⟩ := hk
      obtain ⟨hlt, k3⟩ := List.getElem?_eq_some_iff.mp k1
      refine ⟨hlt, ?_⟩
      have hpre : it.pre = after w ((a ++ x :: b.take _).filterMap memStep) State.init :=
        hr.after_pre (C := b.drop (_ + 1)) (by
          rw [List.append_assoc, List.cons_append, ← k3, ← List.drop_eq_getElem_cons hlt, List.take_append_drop])
      obtain ⟨id, mv, ds, g1, g2, g3⟩ := hq
      refine ⟨id, mv, ds, g1, g2, ?_⟩
      rw [← hpre]
      refine g3.code fun τ hτ => ?_
      exact ⟨it.pre, j, rfl, by rw [hτ, k2]⟩

/-- the text page, whatever its status -/
theorem textEndpoint_lines {s s' : State} (hs : Reachable w s) {fuel path h} {a a' : W} {st : Status}
    (hr : RunI w (textEndpoint fm wr fuel path a) s h s' (a', st)) :
    let S := fun τ => τ ∈ statesOf h s'
    (∃ d, SeenDir S 0 (newPathSpec path) d ∧ ∃ (L : List (List Str)) (es : List Ev) (a2 : W) (cs : List Str), es.Sublist h ∧
      List.Forall₂ (fun l (e : Ev) => LineIn w fm s'.tree e.pre l) L es ∧ wr.all a L.flatten = (a2, .ok) ∧
      LastLine w fm s'.tree S cs ∧ (wr.all a2 cs).1 = a' ∧ (st = .ok → cs = [])) ∨
    (∃ m cs, Seen S 0 (newPathSpec path) m ∧ (wr.all a cs).1 = a' ∧
      (cs = [] ∧ st = .panic ∨ ∃ mv, metricView s'.tree m = some mv ∧ TextTells w fm S mv cs ∧ (wr.all a cs).2 = st)) ∨
    a' = (wr.write a (lit "*Path does not exist.*")).1 := by
  intro S
  have hre := (RunI_reads (textEndpoint_reads ..) hr hs).1
  obtain ⟨hT, hS⟩ := states_tree hr hre
  have hh : ∀ e ∈ h, S e.pre := fun e he => List.mem_append_left _ (List.mem_map.mpr ⟨e, he, rfl⟩)
  obtain ⟨h1, s1, x, h2, rfl, r1, r2⟩ := RunI_bind hr
  have hh1 : ∀ e ∈ h1, S e.pre := fun e he => hh e (by simp [he])
  have hh2 : ∀ e ∈ h2, S e.pre := fun e he => hh e (by simp [he])
  rcases lookup_seen hT hS r1 hh1 with ⟨d, rfl, a1, a2⟩ | ⟨m, rfl, a1, a2⟩ | ⟨rfl, a1⟩
  · obtain ⟨se, h3, h4, σ1, rfl, r3, hb⟩ := withSession_run r2
    have hh3 : ∀ e ∈ h3, S e.pre := fun e he => hh2 e (by simp [he])
    obtain ⟨V, hV⟩ := traverse_visit hT hS r3 hh3
    obtain ⟨P, x2, cs, b1, b2, b3, b4, b5, b6⟩ := calls_lines hT hS hh3 hV.calls
    obtain ⟨es, h5, h6⟩ := picks (Q := fun l (e : Ev) => LineIn w fm s'.tree e.pre l) b2 b3
    exact .inl ⟨d, a1, P.map Prod.fst, es, x2, cs,
      h5.trans ((List.sublist_append_left h3 h4).trans (List.sublist_append_right h1 _)), h6, b1, b4, b5, b6⟩
  · obtain ⟨h3, s3, h4, rfl, r3, r4⟩ := RunI_op r2
    have hs3 : S s3 := hh2 ⟨true, .metric m, s3⟩ (by simp)
    cases hm : (exec w (.metric m) s3).2 with
    | none =>
      rw [hm] at r4
      cases (RunI_ret r4).1
      exact .inr (.inl ⟨m, [], a1, rfl, .inl ⟨rfl, rfl⟩⟩)
    | some mv =>
      rw [hm] at r4
      change metricView s3.tree m = some mv at hm
      obtain ⟨h7, s7, y, h8, rfl, r7, r8⟩ := RunI_bind r4
      have hy := (RunI_ret r8).1
      obtain ⟨sy, ay, sty⟩ := y
      simp only [Prod.mk.injEq] at hy
      obtain ⟨rfl, rfl⟩ := hy
      rcases textEmit_any r7 with ⟨rfl, rfl⟩ | ⟨cs, c1, c2⟩
      · exact .inr (.inl ⟨m, [], a1, rfl, .inl ⟨rfl, rfl⟩⟩)
      · refine .inr (.inl ⟨m, cs, a1, by rw [c2], .inr ⟨mv, metricView_ext (hS s3 hs3).1 hT (hS s3 hs3).2 hm, c1.mono ?_, by rw [c2]⟩⟩)
        rintro τ ⟨e, he, rfl⟩
        exact hh2 e (by simp [he])
  · have := (RunI_ret r2).1
    simp only [Prod.mk.injEq] at this
    exact .inr (.inr this.1.symm)

end Tricorder.Whole
