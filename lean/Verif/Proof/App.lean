import Verif.Spec.App
import Verif.Proof.Wait2
/-!
# Applications stay within the reachable states
-/

namespace Tricorder.App
open Go Spec Tree

variable {α β : Type} {w : World}

/-- directories that the step returned are among the first `m` -/
def NewH : (c : Cmd) → c.Resp → ℕ → Prop
  | .createDir _ _, r, m => ∀ d', r = .ok d' → d' < m
  | .getEntry _ _, r, m => ∀ x d', r = some x → x.2.dir = some d' → d' < m
  | _, _, _ => True

theorem newH_exec {c : Cmd} {s : State} (ht : IsTree s.tree) : NewH c (exec w c s).2 (exec w c s).1.tree.dirs.length := by
  cases c <;> first | trivial | exact fun d' h => createDir_handle ht h | skip
  rintro ⟨e, en⟩ d' h hd
  simp only [exec] at h ⊢
  split at h
  · cases h
  · rename_i e' _
    obtain ⟨en', he, heq⟩ := Option.map_eq_some_iff.mp h
    cases heq
    exact (entry_dir ht he hd).2.2.1

/-- all steps of the program are possible if there are `n` directories now, and then `Q` holds of the result -/
def SafeQ : Prog α → ℕ → (α → ℕ → Prop) → Prop
  | .ret a, n, Q => Q a n
  | .op c k, n, Q => OkN n c ∧ ∀ r m, n ≤ m → NewH c r m → SafeQ (k r) m Q

/-- all steps of the goroutine are possible if there are `n` directories now -/
def SafeG : G → ℕ → Prop
  | .done, _ => True
  | .gets k, n => ∀ d m, n ≤ m → d < m → SafeG (k d) m
  | .op c k, n => OkN n c ∧ ∀ r m, n ≤ m → NewH c r m → SafeG (k r) m

theorem OkN_mono {c : Cmd} {n m : ℕ} (h : OkN n c) (hm : n ≤ m) : OkN m c := by
  cases c <;> first | trivial | exact ⟨by have := h.1; omega, h.2⟩

theorem SafeG.mono {g : G} {n m : ℕ} (h : SafeG g n) (hm : n ≤ m) : SafeG g m := by
  cases g with
  | done => trivial
  | gets k => exact fun d m' hm' hd => h d m' (by omega) hd
  | op c k => exact ⟨OkN_mono h.1 hm, fun r m' hm' hn => h.2 r m' (by omega) hn⟩

theorem SafeQ_call {p : Prog α} {f : α → G} {n : ℕ} {Q : α → ℕ → Prop} (hp : SafeQ p n Q) (hf : ∀ a m, n ≤ m → Q a m → SafeG (f a) m) :
    SafeG (call p f) n := by
  induction p generalizing n with
  | ret a => exact hf a n le_rfl hp
  | op c k ih => exact ⟨hp.1, fun r m hm hn => ih r (hp.2 r m hm hn) fun a m' hm' => hf a m' (by omega)⟩

theorem SafeQ_of_safeP {p : Prog α} {n : ℕ} (hp : SafeP p n) : SafeQ p n fun _ _ => True := by
  induction p generalizing n with
  | ret a => trivial
  | op c k ih => exact ⟨hp.1, fun r m hm hn => ih r (hp.2 r m hm (by cases c <;> first | trivial | exact hn))⟩

theorem SafeQ_looks {p : Prog α} (hp : OnlyLooks p) (n : ℕ) : SafeQ p n fun _ _ => True := by
  induction p generalizing n with
  | ret a => trivial
  | op c k ih => exact ⟨(by have := hp.1; cases c <;> first | trivial | cases this), fun r m _ _ => ih r (hp.2 r) m⟩

/-- a directory that is returned exists -/
def OkDir (r : Except RegErr ℕ) (m : ℕ) : Prop := ∀ d', r = .ok d' → d' < m

theorem registerDirectory_safeQ {d n : ℕ} {p : List Str} (hp : ∀ x ∈ p, GoodName x) (hd : d < n) : SafeQ (registerDirectory d p) n OkDir := by
  induction p generalizing d n with
  | nil => rintro _ ⟨⟩; exact hd
  | cons name p ih =>
    refine ⟨⟨hd, okName.mpr (hp name List.mem_cons_self)⟩, fun r m hm hn => ?_⟩
    cases r with
    | error er => rintro _ ⟨⟩
    | ok d' => exact ih (fun x hx => hp x (List.mem_cons_of_mem _ hx)) (hn d' rfl)

theorem getDirectoryAndError_safeQ {d n : ℕ} {p : List Str} (hd : d < n) : SafeQ (getDirectoryAndError d p) n OkDir := by
  induction p generalizing d n with
  | nil => rintro _ ⟨⟩; exact hd
  | cons name p ih =>
    refine ⟨trivial, fun (r : Option (ℕ × Entry)) m hm hn => ?_⟩
    cases r with
    | none => rintro _ ⟨⟩
    | some y =>
      cases hy : y.2.dir with
      | none => simp only [hy]; rintro _ ⟨⟩
      | some d' => simp only [hy]; exact ih (hn y d' rfl hy)

theorem calls_safe {g : G} {n : ℕ} (h : Calls w.fnTy n g) (hn : 0 < n) : SafeG g n := by
  induction h with
  | done => trivial
  | gets _ ih => exact fun d m hm hd => ih d m hm hd (by omega)
  | registerMetric d path spec group unit desc hd _ ih =>
    exact SafeQ_call (SafeQ_of_safeP (Whole.registerMetric_safeP (w := w) d path spec group unit desc hd)) fun r m hm _ => ih r m hm (by omega)
  | registerDirectory d path hd _ ih =>
    exact SafeQ_call (registerDirectory_safeQ (fun x hx => newPathSpec_comp hx) hd) fun r m hm hq => ih r m hm hq (by omega)
  | unregisterPath d path hd _ ih =>
    exact SafeQ_call (SafeQ_of_safeP (Whole.SafeP_reads (Whole.unregisterPath_reads _ _) _)) fun r m hm _ => ih r m hm (by omega)
  | unregisterDirectory d hd _ ih => exact ⟨trivial, fun r m hm _ => ih () m hm (by omega)⟩
  | getDirectory path _ ih => exact SafeQ_call (getDirectoryAndError_safeQ hn) fun r m hm hq => ih r m hm hq (by omega)
  | single c hc _ ih => exact ⟨(by cases c <;> first | trivial | cases hc), fun r m hm _ => ih r m hm (by omega)⟩
  | request p hp _ ih => exact SafeQ_call (SafeQ_looks hp _) fun r m hm _ => ih r m hm (by omega)

/-- everything in order -/
def Good (w : World) (x : St) : Prop := Reachable w x.mem ∧ ∀ g ∈ x.gs, SafeG g x.mem.tree.dirs.length

theorem good_start : Good w start := ⟨.init, fun g hg => nomatch hg⟩

theorem mem_set {l : List α} {i : ℕ} {a x : α} (h : x ∈ l.set i a) : x = a ∨ x ∈ l := by
  rcases List.mem_or_eq_of_mem_set h with h | h
  · exact .inr h
  · exact .inl h

theorem good_start_g {x : St} {g : G} (hx : Good w x) (hg : Calls w.fnTy 1 g) : Good w ⟨x.mem, x.gs ++ [g]⟩ := by
  refine ⟨hx.1, fun g' h => ?_⟩
  rcases List.mem_append.mp h with h | h
  · exact hx.2 g' h
  · cases List.mem_singleton.mp h
    have : 0 < x.mem.tree.dirs.length := (reachable_isTree hx.1).rootIn
    exact (calls_safe hg Nat.one_pos).mono this

theorem good_gets {x : St} {i d : ℕ} {k : ℕ → G} (hx : Good w x) (hi : x.gs[i]? = some (.gets k)) (hd : d < x.mem.tree.dirs.length) :
    Good w ⟨x.mem, x.gs.set i (k d)⟩ := by
  refine ⟨hx.1, fun g h => ?_⟩
  rcases mem_set h with rfl | h
  · exact hx.2 _ (List.mem_of_getElem? hi) d _ le_rfl hd
  · exact hx.2 g h

theorem good_ok {x : St} {i : ℕ} {c : Cmd} {k : c.Resp → G} (hx : Good w x) (hi : x.gs[i]? = some (.op c k)) : c.Ok x.mem :=
  OkN_ok (hx.2 _ (List.mem_of_getElem? hi)).1

theorem good_go {x : St} {i : ℕ} {c : Cmd} {k : c.Resp → G} (hx : Good w x) (hi : x.gs[i]? = some (.op c k)) :
    Good w ⟨(exec w c x.mem).1, x.gs.set i (k (exec w c x.mem).2)⟩ := by
  have hlen : x.mem.tree.dirs.length ≤ (exec w c x.mem).1.tree.dirs.length := (exec_ext c x.mem).dirs
  refine ⟨.step c hx.1 (good_ok hx hi), fun g h => ?_⟩
  rcases mem_set h with rfl | h
  · exact (hx.2 _ (List.mem_of_getElem? hi)).2 _ _ hlen (newH_exec (reachable_isTree hx.1))
  · exact (hx.2 g h).mono hlen

theorem run_good {x y : St} {H : List Item} (hr : Run w x H y) (hx : Good w x) :
    Good w y ∧ ∀ e ∈ H, Reachable w e.pre ∧ e.cmd.Ok e.pre := by
  induction hr with
  | nil x => exact ⟨hx, fun e he => nomatch he⟩
  | start g hg _ ih => exact ih (good_start_g hx hg)
  | gets i k d hi hd _ ih => exact ih (good_gets hx hi hd)
  | go i c k hi _ ih =>
    obtain ⟨h1, h2⟩ := ih (good_go hx hi)
    refine ⟨h1, fun e he => ?_⟩
    rcases List.mem_cons.mp he with rfl | he
    · exact ⟨hx.1, good_ok hx hi⟩
    · exact h2 e he

/-- a call is a run among the steps of the other goroutines -/
theorem run_call {x y : St} {H : List Item} (hr : Run w x H y) (hx : Good w x) {i : ℕ} {p : Prog α} {f : α → G}
    (hi : x.gs[i]? = some (call p f)) :
    (∃ p', y.gs[i]? = some (call p' f) ∧
      ∀ h s r, RunI w p' y.mem h s r → RunI w p x.mem (H.map (Item.seen i) ++ h) s r) ∨
    ∃ H1 H2 z r, H = H1 ++ H2 ∧ Run w x H1 z ∧ Run w z H2 y ∧ z.gs[i]? = some (f r) ∧
      RunI w p x.mem (H1.map (Item.seen i)) z.mem r := by
  induction hr generalizing p with
  | nil x => exact .inl ⟨p, hi, fun h s r h1 => by simpa using h1⟩
  | @start x H y g hg hr ih =>
    have hlt : i < x.gs.length := (List.getElem?_eq_some_iff.mp hi).1
    rcases ih (good_start_g hx hg) (by rw [List.getElem?_append_left hlt]; exact hi) with h | ⟨H1, H2, z, r, e, h1, h2⟩
    · exact .inl h
    · exact .inr ⟨H1, H2, z, r, e, .start g hg h1, h2⟩
  | @gets x H y j k d hj hd hr ih =>
    by_cases hij : j = i
    · subst hij
      cases p with
      | op c k => rw [hj] at hi; cases hi
      | ret a => exact .inr ⟨[], H, x, a, rfl, .nil _, .gets j k d hj hd hr, hi, .ret _ _⟩
    · rcases ih (good_gets hx hj hd) (by rw [List.getElem?_set_ne hij]; exact hi) with h | ⟨H1, H2, z, r, e, h1, h2⟩
      · exact .inl h
      · exact .inr ⟨H1, H2, z, r, e, .gets j k d hj hd h1, h2⟩
  | @go x H y j c k hj hr ih =>
    by_cases hij : j = i
    · subst hij
      cases p with
      | ret a => exact .inr ⟨[], _, x, a, rfl, .nil _, .go j c k hj hr, hi, .ret _ _⟩
      | op c' k' =>
        have hop : G.op c k = G.op c' fun r => call (k' r) f := Option.some.inj (hj.symm.trans hi)
        cases hop
        have hlt : j < x.gs.length := (List.getElem?_eq_some_iff.mp hi).1
        have hseen : Item.seen j ⟨j, c, x.mem⟩ = ⟨true, c, x.mem⟩ := by simp [Item.seen]
        rcases ih (good_go hx hj) (p := k' (exec w c x.mem).2) (by simp [hlt]) with ⟨p', h1, h2⟩ | ⟨H1, H2, z, r, e, h1, h2, h3, h4⟩
        · refine .inl ⟨p', h1, fun h s r h3 => ?_⟩
          rw [List.map_cons, hseen]
          exact .op (h2 h s r h3)
        · refine .inr ⟨_ :: H1, H2, z, r, by rw [e]; rfl, .go j c _ hj h1, h2, h3, ?_⟩
          rw [List.map_cons, hseen]
          exact .op h4
    · have hseen : Item.seen i ⟨j, c, x.mem⟩ = ⟨false, c, x.mem⟩ := by simp [Item.seen, hij]
      rcases ih (good_go hx hj) (p := p) (by rw [List.getElem?_set_ne hij]; exact hi) with ⟨p', h1, h2⟩ | ⟨H1, H2, z, r, e, h1, h2, h3, h4⟩
      · refine .inl ⟨p', h1, fun h s r h3 => ?_⟩
        rw [List.map_cons, hseen]
        exact .env c (good_ok hx hj) (h2 h s r h3)
      · refine .inr ⟨_ :: H1, H2, z, r, by rw [e]; rfl, .go j c k hj h1, h2, h3, ?_⟩
        rw [List.map_cons, hseen]
        exact .env c (good_ok hx hj) h4

end Tricorder.App
