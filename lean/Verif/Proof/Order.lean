import Verif.Spec.Order
import Verif.Proof.Flow
import Verif.Props.ListAgain
/-!
# The order in which the metrics of one listing are read: proofs
-/

namespace Tricorder
open Go _root_.Spec Tricorder.Spec Tree

variable {w : World}

/-- the runs of the collector are parts of the history, one after the other -/
theorem calls_parts {json : Bool} {S : State → Prop} {T : Tree MValue} (hT : IsTree T)
    (hS : ∀ τ, S τ → IsTree τ.tree ∧ Ext τ.tree T) {H : List Ev} (hh : ∀ e ∈ H, S e.pre)
    {V : List ℕ} {s s' : Session} {a a' : List Metric} {st}
    (hc : Calls w (msgColl json) H V s a s' a' st) :
    ∃ P : List (Metric × List Ev), a' = a ++ P.map Prod.fst ∧ (P.flatMap Prod.snd).Sublist H ∧
      ∀ x ∈ P, ∃ sess v, Reported w json (fun τ => ∃ e ∈ x.2, e.pre = τ) sess v x.1 := by
  induction hc with
  | done => exact ⟨[], by simp, by simp, by simp⟩
  | timeout => exact ⟨[], by simp, by simp, by simp⟩
  | @more b h H m ms s a s1 a1 s2 a2 st σ σ' _ hr _ ih =>
    have hS' : ∀ τ, (∃ e ∈ h, e.pre = τ) → IsTree τ.tree ∧ Ext τ.tree T := by
      rintro τ ⟨e, he, rfl⟩
      exact hS _ (hh e (by simp [he]))
    obtain ⟨-, a2⟩ := collect_msg_run hT hS' hr (fun e he => ⟨e, he, rfl⟩)
    obtain ⟨P, b1, b2, b3⟩ := ih (fun e he => hh e (by simp [he]))
    have b2' : (P.flatMap Prod.snd).Sublist (b ++ (h ++ H)) :=
      b2.trans ((List.sublist_append_right h H).trans (List.sublist_append_right b _))
    rcases a2 with ⟨_, h⟩ | ⟨rfl, _, h⟩ | ⟨x, rfl, _, hx⟩
    · cases h
    · exact ⟨P, b1, b2', b3⟩
    · refine ⟨(x, h) :: P, by simpa using b1, ?_, ?_⟩
      · rw [List.flatMap_cons]
        exact (List.Sublist.append (.refl h) b2).trans (List.sublist_append_right b _)
      · intro z hz
        rcases List.mem_cons.mp hz with rfl | hz
        · exact ⟨_, _, hx⟩
        · exact b3 z hz
  | @stop b h e m s a s1 a1 st σ σ' _ hr _ hn =>
    have hS' : ∀ τ, (∃ e ∈ h, e.pre = τ) → IsTree τ.tree ∧ Ext τ.tree T := by
      rintro τ ⟨e, he, rfl⟩
      exact hS _ (hh e (by simp [he]))
    obtain ⟨-, a2⟩ := collect_msg_run hT hS' hr (fun e he => ⟨e, he, rfl⟩)
    rcases a2 with ⟨rfl, h⟩ | ⟨_, h, _⟩ | ⟨_, _, h, _⟩
    · exact ⟨[], by simp, by simp, by simp⟩
    · exact absurd h hn
    · exact absurd h hn

theorem picks {X Y : Type} {Q : X → Y → Prop} {P : List (X × List Y)} {H : List Y} (hs : (P.flatMap Prod.snd).Sublist H)
    (h : ∀ x ∈ P, ∃ e ∈ x.2, Q x.1 e) : ∃ es : List Y, es.Sublist H ∧ List.Forall₂ Q (P.map Prod.fst) es := by
  suffices hP : ∃ es : List Y, es.Sublist (P.flatMap Prod.snd) ∧ List.Forall₂ Q (P.map Prod.fst) es by
    obtain ⟨es, h1, h2⟩ := hP
    exact ⟨es, h1.trans hs, h2⟩
  clear hs
  induction P with
  | nil => exact ⟨[], by simp, .nil⟩
  | cons x P ih =>
    obtain ⟨es, h1, h2⟩ := ih (fun x hx => h x (List.mem_cons_of_mem _ hx))
    obtain ⟨e, he, hq⟩ := h x List.mem_cons_self
    refine ⟨e :: es, ?_, .cons hq h2⟩
    rw [List.flatMap_cons]
    exact List.Sublist.append (l₁ := [e]) (List.singleton_sublist.mpr he) h1

theorem forall₂_cut {X Y : Type} {R : X → Y → Prop} {A B : List X} {L : List Y} (h : List.Forall₂ R (A ++ B) L) :
    ∃ L1 L2, List.Forall₂ R A L1 ∧ List.Forall₂ R B L2 ∧ L = L1 ++ L2 := by
  induction A generalizing L with
  | nil => exact ⟨[], L, .nil, h, rfl⟩
  | cons x A ih =>
    cases h with
    | cons hx h =>
      obtain ⟨L1, L2, h1, h2, rfl⟩ := ih h
      exact ⟨_ :: L1, L2, .cons hx h1, h2, rfl⟩

namespace Whole

theorem image_cons {A : Type} {c : ℕ} (k : ℕ) (it : Item A) (l : List (Item A)) :
    ∃ evs k', image c k (it :: l) = evs ++ image c k' l ∧ ∀ e ∈ evs, ∃ j, e.pre = code j it.pre := by
  rw [image.eq_def]
  simp only
  split
  · exact ⟨[_], _, rfl, by simp only [List.mem_singleton]; rintro e rfl; exact ⟨k, rfl⟩⟩
  · exact ⟨[_], _, rfl, by simp only [List.mem_singleton]; rintro e rfl; exact ⟨k, rfl⟩⟩
  · split
    · refine ⟨[_, _], _, rfl, ?_⟩
      intro e he
      rcases List.mem_cons.mp he with rfl | he
      · exact ⟨k, rfl⟩
      · rw [List.mem_singleton.mp he]; exact ⟨k + 1, rfl⟩
    · exact ⟨[], _, rfl, by simp⟩
  · split
    · exact ⟨[_], _, rfl, by simp only [List.mem_singleton]; rintro e rfl; exact ⟨k, rfl⟩⟩
    · exact ⟨[], _, rfl, by simp⟩
  · exact ⟨[], _, rfl, by simp⟩

/-- what is in order in the history is in order in the run -/
theorem image_order {A : Type} {c : ℕ} {b : List (Item A)} {k : ℕ} {es : List Ev} (h : es.Sublist (image c k b)) :
    ∃ ks : List ℕ, ks.Pairwise (· ≤ ·) ∧
      List.Forall₂ (fun e k => ∃ it j, b[k]? = some it ∧ e.pre = code j it.pre) es ks := by
  induction b generalizing k es with
  | nil =>
    rw [show image c k ([] : List (Item A)) = [] by rfl, List.sublist_nil] at h
    subst h; exact ⟨[], .nil, .nil⟩
  | cons it l ih =>
    obtain ⟨evs, k', h1, h2⟩ := image_cons (c := c) k it l
    rw [h1] at h
    obtain ⟨e1, e2, rfl, h3, h4⟩ := List.sublist_append_iff.mp h
    obtain ⟨ks, h5, h6⟩ := ih h4
    refine ⟨List.replicate e1.length 0 ++ ks.map (· + 1), ?_, ?_⟩
    · rw [List.pairwise_append]
      refine ⟨List.pairwise_replicate.mpr (.inr (le_refl _)), ?_, ?_⟩
      · rw [List.pairwise_map]; exact h5.imp (by intro a b h; omega)
      · intro a ha b _
        rw [List.eq_of_mem_replicate ha]; exact Nat.zero_le _
    · have f1 : List.Forall₂ (fun e k => ∃ it' j, (it :: l)[k]? = some it' ∧ e.pre = code j it'.pre) e1 (List.replicate e1.length 0) := by
        have := fun e he => h2 e (h3.subset he)
        clear h h3
        induction e1 with
        | nil => exact .nil
        | cons e e1 ih1 =>
          obtain ⟨j, hj⟩ := this e List.mem_cons_self
          exact .cons ⟨it, j, rfl, hj⟩ (ih1 fun e he => this e (List.mem_cons_of_mem _ he))
      have f2 : List.Forall₂ (fun e k => ∃ it' j, (it :: l)[k]? = some it' ∧ e.pre = code j it'.pre) e2 (ks.map (· + 1)) := by
        clear h h4 h5
        induction h6 with
        | nil => exact .nil
        | cons hx _ ih2 => exact .cons hx ih2
      exact List.rel_append f1 f2

theorem listing_order {a b : List (Item Answer)} {x : Item Answer} {s : St Answer} (hr : Run w (a ++ x :: b) s) {c fuel : ℕ}
    {json : Bool} {path : Str} (hx : x.lab = .spawn c (listCall json fuel path)) {ms : List Metric} {st : Status}
    {held : List (ℕ × ℕ)} (hd : s.procs[c]? = some ⟨.run (.ret (.listing ms st)), held⟩) :
    ∃ ks : List ℕ, ks.Pairwise (· ≤ ·) ∧ List.Forall₂ (fun m k => k < b.length ∧
      ReadIn w json s.mem.tree (after w ((a ++ x :: b.take k).filterMap memStep) State.init) m) ms ks := by
  obtain ⟨hre, -, hrun⟩ := listCall_run hr rfl hx hd
  generalize hw : timed w (timesOf (answers c b)) = w' at *
  have hre' := (RunI_reads (listMetrics_reads _ _ _) hrun hre).1
  obtain ⟨hT, hS⟩ := states_tree hrun hre'
  have hh : ∀ e ∈ image c 0 b, (fun τ => τ ∈ statesOf (image c 0 b) (code (answers c b).length s.mem)) e.pre := fun e he =>
    List.mem_append_left _ (List.mem_map.mpr ⟨e, he, rfl⟩)
  obtain ⟨⟨V, ⟨sess, hc⟩, -⟩, -⟩ := byPath_listing hT hS hrun hh
  obtain ⟨P, h1, h2, h3⟩ := calls_parts hT hS hh hc
  rw [List.nil_append] at h1
  subst h1
  have hsub : ∀ z ∈ P, ∀ e ∈ z.2, e ∈ image c 0 b := fun z hz e he =>
    h2.subset (List.mem_flatMap.mpr ⟨z, hz, he⟩)
  have h4 : ∀ z ∈ P, ∃ e ∈ z.2, ReadIn w' json s.mem.tree e.pre z.1 := by
    intro z hz
    obtain ⟨sess, v, mv, y, ⟨σ, ⟨e, he, rfl⟩, hm⟩, g1, g2, g3, -⟩ := h3 z hz
    have hm' := metricView_ext (hS _ (hh e (hsub z hz e he))).1 hT (hS _ (hh e (hsub z hz e he))).2 hm
    change metricView s.mem.tree v = some mv at hm'
    cases g3 with
    | dist a1 a2 a3 a4 a5 a6 a7 a8 =>
      obtain ⟨e', he', rfl⟩ := a3
      exact ⟨e', he', v, mv, y, hm', g1, g2, .dist a1 a2 a4 a5 a6 a7 a8⟩
    | list a1 a2 a3 a4 a5 a6 a7 a8 =>
      obtain ⟨e', he', rfl⟩ := a3
      exact ⟨e', he', v, mv, y, hm', g1, g2, .list a1 a2 a4 a5 a6 a7 a8⟩
    | scalar a1 a2 a3 a4 a5 a6 =>
      obtain ⟨e', he', rfl⟩ := a4
      exact ⟨e', he', v, mv, y, hm', g1, g2, .scalar a1 a2 a3 a5 a6⟩
  obtain ⟨es, h5, h6⟩ := picks (Q := fun m (e : Ev) => ReadIn w' json s.mem.tree e.pre m) h2 h4
  obtain ⟨ks, h7, h8⟩ := image_order h5
  refine ⟨ks, h7, ?_⟩
  clear h5 h7 h2 h3 h4 hsub hd hc hrun
  generalize P.map Prod.fst = ms at *
  clear P
  induction h6 generalizing ks with
  | nil => cases h8; exact .nil
  | cons hq _ ih =>
    cases h8 with
    | cons hk h8 =>
      refine .cons ?_ (ih _ h8)
      obtain ⟨it, j, k1, k2⟩ := hk
      obtain ⟨hlt, k3⟩ := List.getElem?_eq_some_iff.mp k1
      refine ⟨hlt, ?_⟩
      have hpre : it.pre = after w ((a ++ x :: b.take _).filterMap memStep) State.init :=
        hr.after_pre (C := b.drop (_ + 1)) (by
          rw [List.append_assoc, List.cons_append, ← k3, ← List.drop_eq_getElem_cons hlt, List.take_append_drop])
      obtain ⟨id, mv, y, g1, g2, g3, g4⟩ := hq
      refine ⟨id, mv, y, g1, g2, g3, ?_⟩
      rw [← hpre]
      rw [k2] at g4
      subst hw
      cases g4 with
      | dist a1 a2 a4 a5 a6 a7 a8 => exact .dist a1 a2 a4 a5 a6 a7 a8
      | list a1 a2 a4 a5 a6 a7 a8 => exact .list a1 a2 a4 a5 a6 a7 a8
      | scalar a1 a2 a3 a5 a6 => exact .scalar a1 a2 a3 (by rwa [current_code] at a5) a6

theorem readIn_shows {json : Bool} {T : Tree MValue} {tr : List (Item Answer)} {m : Metric}
    (h : ReadIn w json T (after w (tr.filterMap memStep) State.init) m) (hk : m.kind = .dist) : ∃ i d, Shows w json tr i d m := by
  obtain ⟨id, mv, y, -, h2, h3, h4⟩ := h
  obtain ⟨hy, f2, f3, f4⟩ := encode_dist h2 hk
  have hv : mv.value.valType = .dist := h3.2.2.2.1.symm.trans hy
  cases h4 with
  | dist a1 a2 a4 a5 a6 a7 a8 => exact ⟨_, _, a4, _, a5, f2.trans a6, f4 _ a7, f3.trans a8⟩
  | list a1 => rw [hv] at a1; cases a1
  | scalar a1 => exact absurd hv a1

/-- two metrics of one answer -/
theorem listed_cut {json : Bool} {a b : List (Item Answer)} {x : Item Answer} {m n : Metric} {s : St Answer} {c fuel : ℕ} {path : Str}
    {st : Status} {held : List (ℕ × ℕ)} {A B C : List Metric} (hr : Run w (a ++ x :: b) s)
    (hx : x.lab = .spawn c (listCall json fuel path))
    (hd : s.procs[c]? = some ⟨.run (.ret (.listing (A ++ m :: B ++ n :: C) st)), held⟩) :
    ∃ p l q, b = p ++ l ++ q ∧ ReadIn w json s.mem.tree (after w ((a ++ x :: p).filterMap memStep) State.init) m ∧
      ReadIn w json s.mem.tree (after w ((a ++ x :: p ++ l).filterMap memStep) State.init) n := by
  obtain ⟨ks, h1, h2⟩ := listing_order hr hx hd
  rw [List.append_assoc, List.cons_append] at h2
  obtain ⟨k1, k2, -, h4, rfl⟩ := forall₂_cut h2
  cases h4 with
  | @cons _ i _ k2 g1 h4 =>
  obtain ⟨k3, k4, -, h5, rfl⟩ := forall₂_cut h4
  cases h5 with
  | @cons _ j _ k4 g2 _ =>
  have hij : i ≤ j := by
    have := (List.pairwise_append.mp h1).2.1
    exact (List.pairwise_cons.mp this).1 j (by simp)
  have hj : b.take j = b.take i ++ (b.drop i).take (j - i) := by
    rw [← List.take_add]; congr 1; omega
  refine ⟨b.take i, (b.drop i).take (j - i), b.drop j, by rw [← hj, List.take_append_drop], g1.2, ?_⟩
  have := g2.2
  rw [hj] at this
  simpa using this

theorem listed_twice {json : Bool} {a b : List (Item Answer)} {x : Item Answer} {m n : Metric} (h : ListedTwice w json a x b m n) :
    ∃ p l q i d1 sn1 sn2, b = p ++ l ++ q ∧ Looks w json (a ++ x :: p) l m n i d1 sn1 sn2 := by
  obtain ⟨s, c, fuel, path, ms, st, held, A, B, C, hr, hx, hd, rfl⟩ := h.listed
  obtain ⟨p, l, q, rfl, g1, g2⟩ := listed_cut hr hx hd
  obtain ⟨i1, d1, s1⟩ := readIn_shows g1 h.kinds.1
  obtain ⟨i2, d2, s2⟩ := readIn_shows g2 h.kinds.2
  have hs := h.short
  simp only [List.length_append, List.length_cons] at hs
  obtain ⟨sn1, sn2, hL⟩ := shows_looks (q := q) (s := s) (by simpa using hr)
    (by simp only [List.length_append, List.length_cons]; omega)
    (fun it hit => h.made it (by simp only [List.mem_append, List.mem_cons] at hit ⊢; tauto)) s1 s2 h.same
  exact ⟨_, _, _, i1, d1, sn1, sn2, rfl, hL⟩

theorem readIn_list {json : Bool} {T : Tree MValue} {tr : List (Item Answer)} {m : Metric}
    (h : ReadIn w json T (after w (tr.filterMap memStep) State.init) m) (hk : m.kind = .list) :
    ∃ i y lv, ShowsList w json tr i y lv m := by
  obtain ⟨id, mv, y, -, h2, h3, h4⟩ := h
  obtain ⟨hy, f2, -, f4⟩ := encode_list h2 hk
  have hv : mv.value.valType = .list := h3.2.2.2.1.symm.trans hy
  cases h4 with
  | list a1 a2 a4 a5 a6 a7 a8 => exact ⟨_, y, _, a4, h2, hy, a5, a6, f2.trans a7, a8⟩
  | dist a1 => rw [hv] at a1; cases a1
  | scalar a1 a2 => exact absurd hv a2

end Whole
end Tricorder
