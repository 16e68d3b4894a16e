import Verif.Proof.Snap
import Verif.Proof.Group4
import Verif.Proof.Group5
import Verif.Proof.Group6
import Verif.Spec.Whole
/-!
# The whole library: lemmas
-/

namespace Tricorder.Whole
open Go Spec

variable {A : Type} {w : World} {tr : List (Item A)} {s s' : St A} {it : Item A}

/-! ### The groups by themselves -/

/-- the events in the groups -/
def evsOf (tr : List (Item A)) : List (Group.Ev Time) := .newGroup 0 0 0 :: (tr.map Item.evs).flatten

theorem evsOf_snoc (tr : List (Item A)) (it : Item A) : evsOf (tr ++ [it]) = evsOf tr ++ it.evs := by
  simp [evsOf]

theorem Step.group (h : Step w s it s') : Group.Run s.grp it.evs s'.grp := by
  cases h with
  | spawn p => exact .nil
  | own c held cmd k h1 h2 h3 => exact .nil
  | newGroup c held k h1 => exact .one (.newGroup _ _)
  | upd r g cmd h1 h2 h3 => exact .nil
  | asks c r held k h1 h2 =>
    refine Group.Run.snoc (tr := [_]) (es := []) (.one (.openSession _)) ?_
    have := Group.Step.visitNew (τ := Time) { s.grp with clients := s.grp.clients ++ [⟨[], .user⟩] } s.grp.clients.length
      ⟨[], .user⟩ r (by simp) rfl h2 rfl
    have e : Group.State.setC (τ := Time) { s.grp with clients := s.grp.clients ++ [⟨[], .user⟩] } s.grp.clients.length
        (Group.Client.visit ⟨[], .user⟩ r).1 = { s.grp with clients := s.grp.clients ++ [⟨[], .lockSend r⟩] } := by
      simp [Group.State.setC, Group.Client.visit]
    rw [e] at this
    exact this
  | took c r cl t held k h1 h2 => exact .nil
  | gives c r cl client held k h1 h2 h3 h4 => exact .one (.closeBegin _ _ _ h3 h4)
  | gave c r cl client held k h1 h2 h3 => exact .nil
  | loop es g h1 h2 h3 => exact .one h1

theorem Run.group (h : Run w tr s) : Group.Run (Group.init Time) (evsOf tr) s.grp := by
  induction h with
  | nil => exact .one (.newGroup _ _)
  | snoc hr hs ih =>
    rw [evsOf_snoc]
    exact ih.trans hs.group

theorem Run.inv (h : Run w tr s) : Group.Inv (evsOf tr) s.grp := Group.inv_of_run h.group

/-- one step in the groups, or none -/
theorem Step.evs_le (h : Step w s it s') : it.evs.length ≤ 1 := by
  cases h with
  | loop es g h1 h2 h3 => exact h1.events_le
  | _ => simp

theorem Step.mem (h : Step w s it s') : it.pre = s.mem ∧ it.post = s'.mem := by
  cases h <;> exact ⟨rfl, rfl⟩

/-! ### Each goroutine has its own clients -/

structure Own (s : St A) : Prop where
  nodup : ∀ {c : ℕ} {p : Proc A}, s.procs[c]? = some p → p.clients.Nodup
  lt : ∀ {c : ℕ} {p : Proc A}, s.procs[c]? = some p → ∀ cl ∈ p.clients, cl < s.grp.clients.length
  disj : ∀ {c c' : ℕ} {p p' : Proc A}, c ≠ c' → s.procs[c]? = some p → s.procs[c']? = some p' → ∀ cl ∈ p.clients, cl ∉ p'.clients

theorem Own.grp (h : Own s) {m : State} {G : Group.State Time} (hG : s.grp.clients.length ≤ G.clients.length) :
    Own { s with grp := G, mem := m } :=
  ⟨h.nodup, fun hp cl hcl => (h.lt hp cl hcl).trans_le hG, h.disj⟩

theorem Own.set (h : Own s) {c : ℕ} {p p' : Proc A} (hp : s.procs[c]? = some p) (hn : p'.clients.Nodup)
    (hs : ∀ cl ∈ p'.clients, cl ∈ p.clients ∨ cl = s.grp.clients.length) {m : State} {G : Group.State Time}
    (hG : s.grp.clients.length ≤ G.clients.length) (hlt : ∀ cl ∈ p'.clients, cl < G.clients.length) :
    Own { s.setP c p' with grp := G, mem := m } := by
  have get : ∀ {c' : ℕ} {q : Proc A}, (s.procs.set c p')[c']? = some q → (c' = c ∧ q = p') ∨ (c' ≠ c ∧ s.procs[c']? = some q) := by
    intro c' q hq
    rw [List.getElem?_set] at hq
    split at hq
    · rename_i e
      split at hq <;> cases hq
      exact .inl ⟨e.symm, rfl⟩
    · rename_i e
      exact .inr ⟨fun h => e h.symm, hq⟩
  refine ⟨fun {c'} {q} hq => ?_, fun {c'} {q} hq cl hcl => ?_, fun {c'} {c''} {q} {q'} hne hq hq' cl hcl hcl' => ?_⟩
  · rcases get hq with ⟨rfl, rfl⟩ | ⟨hc, hq⟩
    · exact hn
    · exact h.nodup hq
  · rcases get hq with ⟨rfl, rfl⟩ | ⟨hc, hq⟩
    · exact hlt cl hcl
    · exact (h.lt hq cl hcl).trans_le hG
  · rcases get hq with ⟨rfl, rfl⟩ | ⟨hc, hq1⟩ <;> rcases get hq' with ⟨rfl, rfl⟩ | ⟨hc', hq2⟩
    · exact hne rfl
    · rcases hs cl hcl with h1 | rfl
      · exact h.disj hne hp hq2 cl h1 hcl'
      · exact absurd (h.lt hq2 _ hcl') (by omega)
    · rcases hs cl hcl' with h1 | rfl
      · exact h.disj hne hq1 hp cl hcl h1
      · exact absurd (h.lt hq1 _ hcl) (by omega)
    · exact h.disj hne hq1 hq2 cl hcl hcl'

theorem clients_le {s s' : Group.State Time} {es} (h : Group.Run s es s') : s.clients.length ≤ s'.clients.length := by
  induction h with
  | nil => exact le_rfl
  | snoc _ hs ih =>
    refine ih.trans ?_
    rename_i s1 es1 s2 _
    by_contra hlt
    rw [not_le] at hlt
    obtain ⟨cl', h1, -⟩ := hs.client s2.clients.length s1.clients[s2.clients.length] (by simp [hlt])
    simp at h1

theorem erase_clients {l : List (ℕ × ℕ)} (x : ℕ × ℕ) : ((l.erase x).map Prod.snd).Sublist (l.map Prod.snd) :=
  (List.erase_sublist).map _

theorem Step.own_inv (h : Own s) (hs : Step w s it s') : Own s' := by
  have hle := clients_le hs.group
  cases hs with
  | spawn p =>
    have get : ∀ {c' : ℕ} {q : Proc A}, (s.procs ++ [⟨.run p, []⟩])[c']? = some q → s.procs[c']? = some q ∨ q.clients = [] := by
      intro c' q hq
      rw [List.getElem?_append] at hq
      split at hq
      · exact .inl hq
      · have := List.mem_of_getElem? hq
        simp only [List.mem_singleton] at this
        subst this
        exact .inr rfl
    refine ⟨fun hq => ?_, fun hq cl hcl => ?_, fun hne hq hq' cl hcl hcl' => ?_⟩
    · rcases get hq with hq | hq
      · exact h.nodup hq
      · rw [hq]; exact List.nodup_nil
    · rcases get hq with hq | hq
      · exact h.lt hq cl hcl
      · rw [hq] at hcl; cases hcl
    · rcases get hq with hq | hq
      · rcases get hq' with hq' | hq'
        · exact h.disj hne hq hq' cl hcl hcl'
        · rw [hq'] at hcl'; cases hcl'
      · rw [hq] at hcl; cases hcl
  | own c held cmd k h1 h2 h3 =>
    have hn := h.nodup h1
    exact h.set h1 (p' := ⟨.run (k (exec w cmd s.mem).2), held⟩) hn (fun cl hcl => .inl hcl) le_rfl (fun cl hcl => h.lt h1 cl hcl)
  | newGroup c held k h1 =>
    have hn := h.nodup h1
    exact h.set h1 (p' := ⟨.run (k s.mem.regions.length), held⟩) hn (fun cl hcl => .inl hcl) hle (fun cl hcl => h.lt h1 cl hcl)
  | upd r g cmd h1 h2 h3 => exact h.grp le_rfl
  | asks c r held k h1 h2 =>
    have h0 : ∀ cl ∈ held.map Prod.snd, cl < s.grp.clients.length := fun cl hcl => h.lt h1 cl hcl
    refine h.set h1 (p' := ⟨.lock _ _ _, held⟩) ?_ ?_ hle ?_
    · refine List.nodup_cons.mpr ⟨fun hm => absurd (h0 _ hm) (by omega), h.nodup h1⟩
    · intro cl hcl
      rcases List.mem_cons.mp hcl with rfl | hcl
      · exact .inr rfl
      · exact .inl hcl
    · intro cl hcl
      simp only [List.length_append, List.length_singleton]
      rcases List.mem_cons.mp hcl with rfl | hcl
      · omega
      · have := h0 cl hcl; omega
  | took c r cl t held k h1 h2 =>
    have hn := h.nodup h1
    exact h.set h1 (p' := ⟨.run _, (r, cl) :: held⟩) hn (fun cl hcl => .inl hcl) le_rfl (fun cl hcl => h.lt h1 cl hcl)
  | gives c r cl client held k h1 h2 h3 h4 =>
    have hn := h.nodup h1
    exact h.set h1 (p' := ⟨.unlock _ _ _, held⟩) hn (fun cl hcl => .inl hcl) hle
      (fun cl hcl => (h.lt h1 cl hcl).trans_le hle)
  | gave c r cl client held k h1 h2 h3 =>
    have hsub := erase_clients (l := held) (r, cl)
    exact h.set h1 (p' := ⟨.run _, held.erase (r, cl)⟩) ((h.nodup h1).sublist hsub)
      (fun cl hcl => .inl (hsub.subset hcl)) le_rfl (fun cl hcl => h.lt h1 cl (hsub.subset hcl))
  | loop es g h1 h2 h3 => exact h.grp hle

theorem Run.own_inv (h : Run w tr s) : Own s := by
  induction h with
  | nil => exact ⟨fun h => by simp [start] at h, fun h => by simp [start] at h, fun _ h => by simp [start] at h⟩
  | snoc _ hs ih => exact hs.own_inv ih

/-! ### Updates -/

/-- after its last update, a group that is not being updated has been left alone -/
theorem Run.settled (h : Run w tr s) {r : ℕ} {t : Time} (hl : Group.lastUpdate r (evsOf tr) = some t)
    (hc : ∀ g, s.grp.regions[r]? = some g → g.loop ≠ .calling) :
    ∃ a u b, tr = a ++ u :: b ∧ Updated r t u ∧ Quiet r b := by
  induction h with
  | nil => simp [evsOf, Group.lastUpdate] at hl
  | @snoc tr s it s' hr hs ih =>
    rw [evsOf_snoc] at hl
    -- a step without an update of `r`
    have easy : (∀ cmd, it.lab ≠ .upd r cmd) → (∀ e ∈ it.evs, Group.isUpdate r e = false) →
        (∀ g, s.grp.regions[r]? = some g → g.loop ≠ .calling) →
        ∃ a u b, tr ++ [it] = a ++ u :: b ∧ Updated r t u ∧ Quiet r b := by
      intro h1 h2 h3
      rw [Group.lastUpdate_append h2] at hl
      obtain ⟨a, u, b, rfl, hu, hq⟩ := ih hl h3
      refine ⟨a, u, b ++ [it], by simp, hu, fun x hx => ?_⟩
      rcases List.mem_append.mp hx with hx | hx
      · exact hq x hx
      · obtain rfl : x = it := by simpa using hx
        exact ⟨h1, h2⟩
    cases hs with
    | spawn p => exact easy (fun _ h => nomatch h) (fun _ h => nomatch h) hc
    | own c held cmd k h1 h2 h3 => exact easy (fun _ h => nomatch h) (fun _ h => nomatch h) hc
    | newGroup c held k h1 =>
      refine easy (fun _ h => nomatch h) (fun e he => ?_) (fun g hg => ?_)
      · rw [List.mem_singleton.mp he]; rfl
      · refine hc g ?_
        rw [List.getElem?_append_left (List.getElem?_eq_some_iff.mp hg).1]
        exact hg
    | upd r' g cmd h1 h2 h3 =>
      refine easy (fun _ h => ?_) (fun _ h => nomatch h) hc
      cases h
      exact hc g h1 h2
    | asks c r held k h1 h2 =>
      refine easy (fun _ h => nomatch h) (fun e he => ?_) hc
      rw [List.mem_singleton.mp he]; rfl
    | took c r cl t held k h1 h2 => exact easy (fun _ h => nomatch h) (fun _ h => nomatch h) hc
    | gives c r cl client held k h1 h2 h3 h4 =>
      refine easy (fun _ h => nomatch h) (fun e he => ?_) hc
      rw [List.mem_singleton.mp he]; rfl
    | gave c r cl client held k h1 h2 h3 => exact easy (fun _ h => nomatch h) (fun _ h => nomatch h) hc
    | loop es G h1 h2 h3 =>
      dsimp only at *
      cases hg : s.grp.regions[r]? with
      | none =>
        have hn := (hr.inv.i3.fut r (List.getElem?_eq_none_iff.mp hg)).1
        refine easy (fun _ h => nomatch h) (fun e he => ?_) (fun g h => by rw [hg] at h; cases h)
        have hle := h1.events_le
        obtain rfl : es = [e] := by
          match es, hle, he with
          | [x], _, he => rw [List.mem_singleton.1 he]
        have ht := h1.told
        cases e with
        | updBegin r' f =>
          obtain ⟨g, n, hg', -⟩ := ht
          simp only [Group.isUpdate, decide_eq_false_iff_not]
          rintro rfl
          rw [hg] at hg'; cases hg'
        | updEnd r' f t =>
          obtain ⟨g, hg', -⟩ := ht
          simp only [Group.isUpdate, decide_eq_false_iff_not]
          rintro rfl
          rw [hg] at hg'; cases hg'
        | _ => rfl
      | some g =>
        obtain ⟨g', k1, -, k2⟩ := h1.region r g hg
        have fine : ∀ {x : Group.Loop Time}, g.loop = x → x ≠ .calling → ∀ g1, s.grp.regions[r]? = some g1 → g1.loop ≠ .calling := by
          intro x h1 h2 g1 h3
          rw [hg] at h3
          cases h3
          rw [h1]; exact h2
        rcases k2 with ⟨rfl, k⟩ | ⟨c, n, k, rfl, -⟩ | ⟨n, k, rfl, rfl⟩ | ⟨t', k, rfl, rfl⟩ | ⟨c, t', k, -, rfl⟩ |
          ⟨c, f, k, rfl, -⟩ | ⟨f, k, rfl, -⟩ | ⟨c, k, rfl, -⟩
        · exact easy (fun _ h => nomatch h) (fun e he => (k e he).1) (fun g1 h => by rw [hg] at h; cases h; exact hc _ k1)
        · exact easy (fun _ h => nomatch h) (fun e he => by rw [List.mem_singleton.mp he]; rfl)
            (fine k (by simp))
        · have hn := hc _ k1
          have he : g.handleEvents r n = [] := by
            unfold Group.Region.handleEvents
            split
            · exact absurd ‹_› hn
            · rfl
          rw [he]
          rw [he] at easy
          exact easy (fun _ h => nomatch h) (fun e he => nomatch he) (fine k (by simp))
        · refine ⟨tr, _, [], rfl, ⟨g.updateFunc, ?_⟩, fun _ h => nomatch h⟩
          rw [Group.lastUpdate_snoc] at hl
          simp only [if_true, Option.some.injEq] at hl
          subst hl
          exact List.mem_singleton_self _
        · exact easy (fun _ h => nomatch h) (fun e he => by rw [List.mem_singleton.mp he]; rfl)
            (fine k (by simp))
        · exact easy (fun _ h => nomatch h) (fun e he => by rw [List.mem_singleton.mp he]; rfl)
            (fine k (by simp))
        · exact easy (fun _ h => nomatch h) (fun e he => nomatch he) (fine k (by simp))
        · exact easy (fun _ h => nomatch h) (fun e he => by rw [List.mem_singleton.mp he]; rfl)
            (fine k (by simp))

/-- `x.1` is held, for the time `x.2`, as client `y.2` -/
def Linked (G : Group.State Time) (x : ℕ × Time) (y : ℕ × ℕ) : Prop :=
  y.1 = x.1 ∧ G.clients[y.2]? = some ⟨[x], .user⟩

theorem seen_user (x : ℕ × Time) : Group.seen (⟨[x], .user⟩ : Group.Client Time) x.1 x.2 :=
  ⟨rfl, .inl (List.mem_singleton_self _)⟩

/-- while a group is held, it is not updated -/
theorem Step.quiet (hr : Run w tr s) (hs : Step w s it s') {x : ℕ × Time} {y : ℕ × ℕ} (h : Linked s.grp x y)
    (h' : Linked s'.grp x y) : Quiet x.1 [it] := by
  intro z hz
  obtain rfl : z = it := by simpa using hz
  obtain ⟨-, hn⟩ := hr.inv.i4 _ _ _ _ h.2 (seen_user x)
  cases hs with
  | upd r g cmd h1 h2 h3 =>
    refine ⟨fun _ h => ?_, fun _ h => nomatch h⟩
    cases h
    exact hn g h1 h2
  | loop es G h1 h2 h3 =>
    refine ⟨fun _ h => (nomatch h), h1.no_update hr.inv h.2 (seen_user x) fun hm => ?_⟩
    have hle := h1.events_le
    obtain rfl : es = [.closeBegin y.2] := by
      match es, hle, hm with
      | [x], _, he => rw [List.mem_singleton.1 he]
    obtain ⟨cl, hc, -, e⟩ := h1.told
    have h2 := h'.2
    dsimp only at h2
    rw [e] at h2
    have hlt := (List.getElem?_eq_some_iff.mp hc).1
    simp [Group.State.setC, List.getElem?_set, hlt] at h2
  | newGroup c held k h1 =>
    exact ⟨fun _ h => (nomatch h), fun e he => by rw [List.mem_singleton.mp he]; rfl⟩
  | asks c r held k h1 h2 =>
    exact ⟨fun _ h => (nomatch h), fun e he => by rw [List.mem_singleton.mp he]; rfl⟩
  | gives c r cl client held k h1 h2 h3 h4 =>
    exact ⟨fun _ h => (nomatch h), fun e he => by rw [List.mem_singleton.mp he]; rfl⟩
  | spawn p => exact ⟨fun _ h => (nomatch h), fun _ h => nomatch h⟩
  | own c held cmd k h1 h2 h3 => exact ⟨fun _ h => (nomatch h), fun _ h => nomatch h⟩
  | took c r cl t held k h1 h2 => exact ⟨fun _ h => (nomatch h), fun _ h => nomatch h⟩
  | gave c r cl client held k h1 h2 h3 => exact ⟨fun _ h => (nomatch h), fun _ h => nomatch h⟩

/-- what a goroutine holds stays held, unless it gives it up -/
theorem Step.linked (ho : Own s) (hs : Step w s it s') {c : ℕ} {p : Proc A} (hp : s.procs[c]? = some p)
    {x : ℕ × Time} {y : ℕ × ℕ} (hy : y.2 ∈ p.clients) (hno : ∀ r, it.lab ≠ .gives c r y.2) (h : Linked s.grp x y) :
    Linked s'.grp x y := by
  refine ⟨h.1, ?_⟩
  have hlt := (List.getElem?_eq_some_iff.mp h.2).1
  cases hs with
  | asks c r held k h1 h2 =>
    dsimp only
    rw [List.getElem?_append_left hlt]
    exact h.2
  | gives c' r cl client held k h1 h2 h3 h4 =>
    have hne : cl ≠ y.2 := by
      rintro rfl
      by_cases hc : c' = c
      · subst hc
        exact hno r rfl
      · have : y.2 ∈ held.map Prod.snd := by
          obtain ⟨l1, l2, e, -⟩ := List.lookup_eq_some_iff.mp h2
          rw [e]; simp
        exact ho.disj (Ne.symm hc) hp h1 _ hy this
    show (s.grp.clients.set cl _)[y.2]? = _
    rw [List.getElem?_set_ne hne]
    exact h.2
  | loop es G h1 h2 h3 => exact h3 p (List.mem_of_getElem? hp) _ hy _ h.2 (.inl rfl)
  | _ => exact h.2

end Tricorder.Whole
