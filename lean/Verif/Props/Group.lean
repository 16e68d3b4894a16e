import Verif.Proof.Group6
/-!
# C14–C22: groups

`Run (init τ) tr s`: some schedule of any number of groups and requests, with events `tr`, ends in
`s`.  Statements cut `tr` at events.  `τ` is the type of timestamps.
-/

namespace Tricorder.Group
open Go

variable {τ : Type} [Inhabited τ]

/-! ### A schedule used in the examples

Group 0 with update function 7; requests 0 and 1.  Request 0 takes the group (update returns 100);
request 1 joins; update function 8 is registered by goroutine 2; request 0 closes, request 1 closes;
request 3 takes the group again (update returns 200). -/

/-- request `c` takes group 0, whose update function returns `t` -/
def exTake (c : ℕ) (t : ℕ) : List (Act ℕ) :=
  [.visit c 0, .send c 0, .handle 0, .updated 0 t, .receive c 0, .visitDone c]

def exSchedule : List (Act ℕ) :=
  [.newGroup 7, .openSession, .openSession, .openSession, .openSession] ++ exTake 0 100 ++
  [.visit 1 0, .fnBegin 2 0 8, .send 1 0, .handle 0, .receive 1 0, .visitDone 1] ++
  [.fnSend 2, .fnHandle 0, .fnReceive 2, .visit 1 0] ++
  [.closeBegin 0, .closeNext 0 0, .send 0 0, .handle 0, .receive 0 0, .closeEnd 0] ++
  [.closeBegin 1, .closeNext 1 0, .send 1 0, .handle 0, .receive 1 0, .closeEnd 1] ++
  exTake 3 200

def exEvents : List (Ev ℕ) :=
  [.newGroup 0 7 0, .opened 0, .opened 1, .opened 2, .opened 3,
   .accept 0 0 1, .updBegin 0 7, .updEnd 0 7 100, .answer 0 0 100, .visit 0 0 100,
   .accept 1 0 1, .answer 1 0 100, .visit 1 0 100,
   .acceptFn 2 0 8, .answerFn 2 0, .visit 1 0 100,
   .closeBegin 0, .accept 0 0 (-1), .answer 0 0 100, .closeEnd 0,
   .closeBegin 1, .accept 1 0 (-1), .answer 1 0 100, .closeEnd 1,
   .accept 3 0 1, .updBegin 0 8, .updEnd 0 8 200, .answer 3 0 200, .visit 3 0 200]

def exFinal : State ℕ :=
  ⟨[⟨0, 1, 8, 200, .select⟩], [⟨[], .closed⟩, ⟨[], .closed⟩, ⟨[], .user⟩, ⟨[(0, 200)], .user⟩], 1⟩

theorem exRun : Run (init ℕ) exEvents exFinal :=
  play_run (as := exSchedule) (by decide)

/-! ## C14 -/

/-- **C14 (lock and unlock)** In every schedule, when a request takes a reply `t` of group `r` then the
last thing the group accepted was that request's own increment (nothing was accepted or answered by
the group in between), and `t` is the group's current timestamp. -/
theorem C14_own_reply {tr pre post : List (Ev τ)} {s : State τ} {c : Cid} {r : Rid} {t : τ}
    (hr : Run (init τ) tr s) (e : tr = pre ++ .answer c r t :: post) :
    ∃ p mid n, pre = p ++ .accept c r n :: mid ∧ (∀ x ∈ mid, isTraffic r x = false) ∧
      t = (lastUpdate r pre).getD default := by
  subst e
  obtain ⟨-, s2, s3, -, h2, hst, -, -⟩ := hr.cut
  have hi := inv_of_run h2
  obtain ⟨cl, g, hc, hg, hl, hcase⟩ := hst.told
  have ht : t = (lastUpdate r pre).getD default := by
    have h1 := hi.i2.loop r g hg
    simp only [loopOK, hl] at h1
    rw [h1.2]; exact hi.i3.last r g hg
  have hw : ∃ k, waitsFor cl.pc = some (r, k) ∧ k ≠ .fn := by
    rcases hcase with ⟨hp, -⟩ | ⟨todo, hp, -⟩
    · exact ⟨.lock, by simp [hp, waitsFor], by simp⟩
    · exact ⟨.unlock, by simp [hp, waitsFor], by simp⟩
  obtain ⟨k, hw, hk⟩ := hw
  obtain ⟨p, mid, h, hq⟩ := pend_split (hi.i2.waits c cl r k hc hw)
  rcases h with ⟨n, -, h⟩ | ⟨f, h, -⟩
  · exact ⟨p, mid, n, h, hq, ht⟩
  · exact absurd h hk

/-- **C14 (new update functions)** likewise the confirmation of `registerUpdateFunc` goes to the caller
whose function was taken. -/
theorem C14_own_confirmation {tr pre post : List (Ev τ)} {s : State τ} {c : Cid} {r : Rid}
    (hr : Run (init τ) tr s) (e : tr = pre ++ .answerFn c r :: post) :
    ∃ p mid f, pre = p ++ .acceptFn c r f :: mid ∧ ∀ x ∈ mid, isTraffic r x = false := by
  subst e
  obtain ⟨-, s2, s3, -, h2, hst, -, -⟩ := hr.cut
  have hi := inv_of_run h2
  obtain ⟨cl, g, hc, hg, hl, hp⟩ := hst.told
  obtain ⟨p, mid, h, hq⟩ := pend_split (hi.i2.waits c cl r .fn hc (by simp [hp, waitsFor]))
  rcases h with ⟨n, h, -⟩ | ⟨f, -, h⟩
  · split at h <;> cases h
  · exact ⟨p, mid, f, h, hq⟩

/-- **C14 (one at a time)** After accepting an increment from `c` a group accepts and answers nothing
until `c` is answered. -/
theorem C14_one_at_a_time {tr p mid post : List (Ev τ)} {s : State τ} {c : Cid} {r : Rid} {n : ℤ}
    (hr : Run (init τ) tr s) (e : tr = p ++ .accept c r n :: mid ++ post) (hno : ∀ t, .answer c r t ∉ mid) :
    ∀ x ∈ mid, isTraffic r x = false := by
  subst e
  rw [List.append_assoc, List.cons_append] at hr
  obtain ⟨-, s2, s3, -, -, hst, h3, h4⟩ := hr.cut
  obtain ⟨s4, h5, -⟩ := h4.split mid post rfl
  have hi := inv_of_run h3
  have hp : pend r (p ++ [.accept c r n]) = some (c, if n = 1 then .lock else .unlock) := by simp [pendStep]
  by_contra hne
  push Not at hne
  obtain ⟨x, hx, hxt⟩ := hne
  -- the first confirmation to `c` cannot come either
  by_cases hf : .answerFn c r ∈ mid
  · obtain ⟨a, b, rfl, hfa⟩ := List.eq_append_cons_of_mem hf
    obtain ⟨s5, h6, h7⟩ := h5.split a _ rfl
    have h8 := serving hi hp h6 (fun t ht => hno t (List.mem_append_left _ ht)) hfa
    obtain ⟨-, s6, s7, -, h9, hst2, -, -⟩ := (h3.trans h5 : Run (init τ) ((p ++ [.accept c r n]) ++ (a ++ .answerFn c r :: b)) s4)
      |> (fun h => by rw [← List.append_assoc] at h; exact h.cut)
    obtain ⟨cl, g, hc, -, -, hpc⟩ := hst2.told
    have := (inv_of_run h9).i2.waits c cl r .fn hc (by simp [hpc, waitsFor])
    rw [h8.1] at this
    simp only [Option.some.injEq, Prod.mk.injEq, true_and] at this
    split at this <;> cases this
  · have := (serving hi hp h5 hno hf).2 x hx
    exact hxt this

example : exEvents = exEvents.take 11 ++ .answer 1 0 100 :: exEvents.drop 12 := by decide

/-! ## C15 -/

/-- **C15** From the return of a visit of `c` to `r` until `c` begins to close, the update function of
`r` is neither called nor does it return. -/
theorem C15_no_update_while_reading {tr pre mid post : List (Ev τ)} {s : State τ} {c : Cid} {r : Rid} {t : τ}
    (hr : Run (init τ) tr s) (e : tr = pre ++ .visit c r t :: (mid ++ post)) (hno : .closeBegin c ∉ mid) :
    ∀ x ∈ mid, isUpdate r x = false := by
  subst e
  obtain ⟨-, s2, s3, -, -, hst, h3, h4⟩ := hr.cut
  obtain ⟨s4, h5, -⟩ := h4.split mid post rfl
  obtain ⟨cl, -, -, cl', hc', hse⟩ := hst.told
  exact (Run.stays_seen (inv_of_run h3) h5 hc' hse hno).2

example : exEvents = exEvents.take 9 ++ .visit 0 0 100 :: ((exEvents.drop 10).take 6 ++ exEvents.drop 16) ∧
    .closeBegin 0 ∉ (exEvents.drop 10).take 6 ∧ (exEvents.drop 16).head? = some (.closeBegin 0) := by decide

/-! ## C16 -/

/-- **C16 (latest)** A visit returns what the group's update function returned last. -/
theorem C16_latest {tr pre post : List (Ev τ)} {s : State τ} {c : Cid} {r : Rid} {t : τ}
    (hr : Run (init τ) tr s) (e : tr = pre ++ .visit c r t :: post) : lastUpdate r pre = some t := by
  subst e
  obtain ⟨-, s2, s3, -, h2, hst, -, -⟩ := hr.cut
  obtain ⟨cl, hc, hse, -⟩ := hst.told
  exact ((inv_of_run h2).i4 c cl r t hc hse).1

/-- **C16 (one timestamp)** All visits of one request to one group return the same timestamp. -/
theorem C16_same_timestamp {tr : List (Ev τ)} {s : State τ} {c : Cid} {r : Rid} {t t' : τ}
    (hr : Run (init τ) tr s) (h1 : .visit c r t ∈ tr) (h2 : .visit c r t' ∈ tr) : t = t' := by
  have key : ∀ {pre mid post : List (Ev τ)} {t t' : τ}, tr = pre ++ .visit c r t :: (mid ++ .visit c r t' :: post) → t = t' := by
    intro pre mid post t t' e
    subst e
    obtain ⟨-, s2, s3, -, g2, hst, g3, g4⟩ := hr.cut
    obtain ⟨cl, -, -, cl', hc', hse⟩ := hst.told
    obtain ⟨-, s5, s6, -, g5, hst2, -, -⟩ := g4.cut
    obtain ⟨cl2, hc2, hse2, -⟩ := hst2.told
    by_cases hno : .closeBegin c ∈ mid
    · exfalso
      obtain ⟨a, b, rfl⟩ := List.append_of_mem hno
      obtain ⟨-, u2, u3, -, -, hst3, -, u4⟩ := g5.cut
      obtain ⟨cl3, hc3, -, rfl⟩ := hst3.told
      have hlt : c < u2.clients.length := (List.getElem?_eq_some_iff.1 hc3).1
      obtain ⟨cl4, hc4, ho⟩ := u4.stays_closed (c := c) (cl := { cl3 with pc := .closing (cl3.visited.map Prod.fst) })
        (by simp [State.setC, hlt]) (by simp [isOpen])
      rw [hc2] at hc4; cases hc4
      rw [hse2.1] at ho; cases ho
    · obtain ⟨⟨cl4, hc4, hse4⟩, -⟩ := Run.stays_seen (inv_of_run g3) g5 hc' hse hno
      rw [hc2] at hc4; cases hc4
      have hi := inv_of_run (g3.trans g5)
      have e1 := (hi.i4 c cl2 r t hc2 hse4).1
      have e2 := (hi.i4 c cl2 r t' hc2 hse2).1
      rw [e1] at e2; exact Option.some.inj e2
  obtain ⟨a, b, rfl⟩ := List.append_of_mem h1
  rcases List.mem_append.1 h2 with h | h
  · obtain ⟨a1, a2, rfl⟩ := List.append_of_mem h
    exact (key (pre := a1) (mid := a2) (post := b) (by simp)).symm
  · rcases List.mem_cons.1 h with h | h
    · cases h; rfl
    · obtain ⟨b1, b2, rfl⟩ := List.append_of_mem h
      exact key rfl

example : (.visit 1 0 100 : Ev ℕ) ∈ exEvents ∧ exEvents.count (.visit 1 0 100) = 2 := by decide

/-! ## C17 -/

/-- **C17 (both reading)** If at some time two requests both have visited `r` and neither has begun to
close, they got the same timestamp, and the update function was not active since either visit. -/
theorem C17_overlap {tr p1 q1 p2 q2 : List (Ev τ)} {s : State τ} {c1 c2 : Cid} {r : Rid} {t1 t2 : τ}
    (hr : Run (init τ) tr s) (e1 : tr = p1 ++ .visit c1 r t1 :: q1) (e2 : tr = p2 ++ .visit c2 r t2 :: q2)
    (h1 : .closeBegin c1 ∉ q1) (h2 : .closeBegin c2 ∉ q2) :
    t1 = t2 ∧ (∀ x ∈ q1, isUpdate r x = false) ∧ ∀ x ∈ q2, isUpdate r x = false := by
  have u1 := C15_no_update_while_reading (post := []) hr (by simpa using e1) h1
  have u2 := C15_no_update_while_reading (post := []) hr (by simpa using e2) h2
  refine ⟨?_, u1, u2⟩
  have l1 := C16_latest hr e1
  have l2 := C16_latest hr e2
  have m1 : lastUpdate r tr = some t1 := by
    rw [e1, lastUpdate_append (by intro x hx; rcases List.mem_cons.1 hx with rfl | hx; exacts [rfl, u1 x hx])]; exact l1
  have m2 : lastUpdate r tr = some t2 := by
    rw [e2, lastUpdate_append (by intro x hx; rcases List.mem_cons.1 hx with rfl | hx; exacts [rfl, u2 x hx])]; exact l2
  rw [m1] at m2; exact Option.some.inj m2

/-- **C17 (joining)** A request whose increment is accepted while another is reading gets the same
timestamp, even if the other has closed by the time its visit returns, and no update happens in
between. -/
theorem C17_join {tr p1 q1 mid post : List (Ev τ)} {s : State τ} {c1 c2 : Cid} {r : Rid} {t1 t2 : τ}
    (hr : Run (init τ) tr s)
    (e : tr = p1 ++ .visit c1 r t1 :: (q1 ++ .accept c2 r 1 :: (mid ++ .visit c2 r t2 :: post)))
    (h1 : .closeBegin c1 ∉ q1) :
    t1 = t2 ∧ ∀ x ∈ q1 ++ mid, isUpdate r x = false := by
  have l1 := C16_latest hr e
  have u1 := C15_no_update_while_reading (post := .accept c2 r 1 :: (mid ++ .visit c2 r t2 :: post)) hr e h1
  have e2 : tr = (p1 ++ .visit c1 r t1 :: q1 ++ .accept c2 r 1 :: mid) ++ .visit c2 r t2 :: post := by rw [e]; simp
  have l2 := C16_latest hr e2
  obtain ⟨p, m, f, hpm, -, hcalls, -⟩ := visit_updates hr e2
  -- the acceptance is unique
  have huniq : p = p1 ++ .visit c1 r t1 :: q1 ∧ m = mid := by
    have hr2 : ∃ s', Run (init τ) (p1 ++ .visit c1 r t1 :: q1 ++ .accept c2 r 1 :: mid) s' := by
      subst e2
      obtain ⟨s1, h, -⟩ := hr.split _ _ rfl
      exact ⟨s1, h⟩
    obtain ⟨s', hr2⟩ := hr2
    have h1 := (takes_inv hr2 c2 r).1
    rcases List.append_eq_append_iff.1 hpm.symm with ⟨as, ha, hb⟩ | ⟨as, ha, hb⟩
    · cases as with
      | nil => simp at hb ha; exact ⟨ha.symm, hb⟩
      | cons x as =>
        exfalso
        rw [List.cons_append, List.cons.injEq] at hb
        rw [ha, ← hb.1] at h1
        simp [takes] at h1
        omega
    · cases as with
      | nil => simp at hb ha; exact ⟨ha, hb.symm⟩
      | cons x as =>
        exfalso
        rw [List.cons_append, List.cons.injEq] at hb
        rw [hb.2] at h1
        simp [takes] at h1
        omega
  obtain ⟨rfl, rfl⟩ := huniq
  -- the first request holds the group at the acceptance
  subst e
  have hr3 : Run (init τ) ((p1 ++ .visit c1 r t1 :: q1) ++ .accept c2 r 1 :: (m ++ .visit c2 r t2 :: post)) s := by simpa using hr
  obtain ⟨-, s2, s3, -, g2, hst, g3, g4⟩ := hr3.cut
  obtain ⟨-, v2, v3, -, -, vst, v4, v5⟩ := g2.cut
  obtain ⟨-, -, -, cl', hc', hse⟩ := vst.told
  obtain ⟨⟨cl2, hc2, hse2⟩, -⟩ := Run.stays_seen (inv_of_run v4) v5 hc' hse h1
  have hi := inv_of_run g2
  have hh := hi.i3.hold c1 cl2 r hc2
  rw [seen_holding hse2] at hh
  have hpos := accepted_pos hi (c := c1) (r := r) (by omega)
  rw [if_neg (by omega)] at hcalls
  obtain ⟨cl0, g0, hc0, hg0, hl0, hcase⟩ := hst.told
  have hrl : r < s2.regions.length := (List.getElem?_eq_some_iff.1 hg0).1
  obtain ⟨s4, g5, -⟩ := g4.split m _ rfl
  have hq : ∀ x ∈ m, isUpdate r x = false := by
    rcases hcase with ⟨-, -, rfl⟩ | ⟨hbad, -⟩
    · refine (no_end (r := r) (g0 := { g0 with loop := .handle 1 }) ?_ (by simp) g5 hcalls).2
      simp [State.setC, State.setR, hrl]
    · omega
  refine ⟨?_, ?_⟩
  · rw [List.append_assoc, lastUpdate_append] at l2
    · rw [l1] at l2; exact Option.some.inj l2
    · intro x hx
      rcases List.mem_append.1 hx with hx | hx
      · rcases List.mem_cons.1 hx with rfl | hx
        exacts [rfl, u1 x hx]
      · rcases List.mem_cons.1 hx with rfl | hx
        exacts [rfl, hq x hx]
  · intro x hx
    rcases List.mem_append.1 hx with hx | hx
    exacts [u1 x hx, hq x hx]

example : exEvents = exEvents.take 9 ++ .visit 0 0 100 :: ([] ++ .accept 1 0 1 :: ([.answer 1 0 100] ++ .visit 1 0 100 :: exEvents.drop 13)) := by
  decide

/-! ## C18 -/

/-- **C18** Every visit of `c` to `r` is preceded by exactly one acceptance of an increment of `c` by
`r`.  If no request held the group then, exactly one call of the update function registered then is
made from there to the visit, and it returned the timestamp of the visit; if some request held it, no
call is made. -/
theorem C18_one_update {tr pre post : List (Ev τ)} {s : State τ} {c : Cid} {r : Rid} {t : τ}
    (hr : Run (init τ) tr s) (e : tr = pre ++ .visit c r t :: post) :
    takes c r pre = 1 ∧ ∃ p mid f, pre = p ++ .accept c r 1 :: mid ∧ currentFn r p = some f ∧
      ((∀ c', holds c' r p = 0) → updateCalls r mid = [f] ∧ .updEnd r f t ∈ mid) ∧
      ((∃ c', holds c' r p = 1) → updateCalls r mid = []) := by
  obtain ⟨p, mid, f, hp, hf, hcalls, hend⟩ := visit_updates hr e
  subst e
  obtain ⟨s1, h1, -⟩ := hr.split _ _ rfl
  refine ⟨?_, p, mid, f, hp, hf, ?_⟩
  · have := (takes_inv h1 c r).1
    have h2 : 0 < takes c r pre := by rw [hp]; simp [takes]
    omega
  · subst hp
    obtain ⟨s2, h2, -⟩ := h1.split _ _ rfl
    have hi := inv_of_run h2
    constructor
    · intro h
      have h0 := accepted_zero hi h
      rw [hcalls, if_pos h0]
      exact ⟨rfl, hend h0⟩
    · rintro ⟨c', h⟩
      have := accepted_pos hi (c := c') (r := r) (by omega)
      rw [hcalls, if_neg (by omega)]

example : exEvents = exEvents.take 28 ++ .visit 3 0 200 :: [] ∧ holds 0 0 (exEvents.take 24) = 0 ∧
    exEvents.take 28 = exEvents.take 24 ++ .accept 3 0 1 :: [.updBegin 0 8, .updEnd 0 8 200, .answer 3 0 200] := by decide

/-! ## C19 -/

/-- **C19** In every reachable configuration the lock count of a group, together with the increment the
loop has taken but not yet added, is the number of requests holding the group; it is not negative; the
loop has not panicked; every request holds each group at most once. -/
theorem C19_accounting {tr : List (Ev τ)} {s : State τ} (hr : Run (init τ) tr s) :
    (∀ (r : Rid) (g : Region τ), s.regions[r]? = some g →
      g.lockCount + (match g.loop with | .handle n => n | _ => 0) = (holders s.clients.length r tr : ℤ) ∧
      0 ≤ g.lockCount ∧ g.loop ≠ .crashed) ∧
    ∀ c r, holds c r tr = 0 ∨ holds c r tr = 1 := by
  have hi := inv_of_run hr
  refine ⟨fun r g hg => ⟨?_, hi.i3.alive r g hg⟩, holds_cases hi⟩
  rw [← accepted_eq_holders hi, ← hi.i3.count r g hg]; rfl

/-- **C19 (zero again)** When every request has closed and the loop is idle the lock count is zero, so
that the next request to take the group makes it update (`C18_one_update`). -/
theorem C19_zero_again {tr : List (Ev τ)} {s : State τ} (hr : Run (init τ) tr s)
    (hd : ∀ cl ∈ s.clients, isDone cl = true) (r : Rid) (g : Region τ) (hg : s.regions[r]? = some g)
    (hl : g.loop = .select) : g.lockCount = 0 ∧ ∀ c, holds c r tr = 0 := by
  have hi := inv_of_run hr
  have hz : ∀ c, holds c r tr = 0 := by
    intro c
    cases hc : s.clients[c]? with
    | none => exact hi.i3.hold0 c r (by simpa using hc)
    | some cl =>
      rw [hi.i3.hold c cl r hc]
      have := hd cl (List.mem_of_getElem? hc)
      unfold isDone at this
      unfold holding
      cases hp : cl.pc <;> rw [hp] at this <;> simp_all
  refine ⟨?_, hz⟩
  have h1 := hi.i3.count r g hg
  rw [accepted_zero hi hz] at h1
  simp only [pendingInc, hl] at h1
  omega

example : Run (init ℕ) exEvents exFinal ∧ holders 4 0 exEvents = 1 ∧ holders 4 0 (exEvents.take 13) = 2 ∧
    holders 4 0 (exEvents.take 24) = 0 := ⟨exRun, by decide, by decide, by decide⟩

/-! ## C20 -/

/-- **C20 (no deadlock)** As long as a request has not closed or a group's loop is busy, a step is
possible that does not depend on anybody starting anything new. -/
theorem C20_no_deadlock {tr : List (Ev τ)} {s : State τ} (hr : Run (init τ) tr s)
    (h : (∃ cl ∈ s.clients, isDone cl = false) ∨ ∃ g ∈ s.regions, g.loop ≠ .select) :
    ∃ es s', Step s es s' ∧ total s' < total s ∧ s'.clients.length = s.clients.length := by
  have hi := inv_of_run hr
  by_cases hl : ∀ (r : Rid) (g : Region τ), s.regions[r]? = some g → g.loop = .select
  · rcases h with ⟨cl, hcl, hd⟩ | ⟨g, hg, hne⟩
    · obtain ⟨c, hc⟩ := List.mem_iff_getElem?.1 hcl
      exact client_progress hi hl c cl hc hd
    · obtain ⟨r, hr'⟩ := List.mem_iff_getElem?.1 hg
      exact absurd (hl r g hr') hne
  · push Not at hl
    obtain ⟨r, g, hg, hne⟩ := hl
    exact loop_progress hi r g hg hne

/-- **C20 (no livelock)** Every step that does not start anything new uses up some of a finite amount
of work: together with `C20_no_deadlock` every schedule that keeps taking such steps ends with all
requests closed. -/
theorem C20_terminates {tr es : List (Ev τ)} {s s' : State τ} (hr : Run (init τ) tr s) (h : Step s es s') :
    NewCall s es s' ∨ total s' < total s :=
  step_work (inv_of_run hr) h

/-- **C20 (completion)** Every reachable configuration can be driven to one in which all requests have
closed and all loops are idle. -/
theorem C20_all_can_close {tr : List (Ev τ)} {s : State τ} (hr : Run (init τ) tr s) :
    ∃ tr' s', Run s tr' s' ∧ s'.clients.length = s.clients.length ∧
      (∀ cl ∈ s'.clients, isDone cl = true) ∧ (∀ g ∈ s'.regions, g.loop = .select) :=
  finish_all (inv_of_run hr)

/-- **C20 (finding)** What the theorems above leave out: an update function that itself needs its own
group.  While the update function of `r` runs, a request that wants to take `r` waits, whatever else
happens; so an update function that waits for such a request (for instance one that lists its own
group's metrics) never returns, and the group is blocked for ever. -/
theorem C20_update_reading_own_group_blocks {tr es : List (Ev τ)} {s s' : State τ} {c : Cid} {r : Rid} {g : Region τ} {cl : Client τ}
    (_ : Run (init τ) tr s) (hg : s.regions[r]? = some g) (hl : g.loop = .calling)
    (hc : s.clients[c]? = some cl) (hp : cl.pc = .lockSend r) (h : Run s es s') (hno : ∀ f t, .updEnd r f t ∉ es) :
    s'.regions[r]? = some g ∧ s'.clients[c]? = some cl :=
  blocked hg hl hc hp h hno

/-- such a configuration is reachable -/
example : ∃ tr s, Run (init ℕ) tr s ∧ s.regions[0]? = some ⟨0, 1, 7, 0, .calling⟩ ∧ s.clients[1]? = some ⟨[], .lockSend 0⟩ :=
  ⟨_, _, play_run (as := [.newGroup 7, .openSession, .openSession, .visit 0 0, .send 0 0, .handle 0, .visit 1 0]) rfl, by decide, by decide⟩

/-! ## C21 -/

/-- **C21 (used from then on)** Every call of an update function is of the one registered last. -/
theorem C21_latest_function {tr pre post : List (Ev τ)} {s : State τ} {r : Rid} {f : Fn}
    (hr : Run (init τ) tr s) (e : tr = pre ++ .updBegin r f :: post) : currentFn r pre = some f := by
  subst e
  obtain ⟨-, s2, s3, -, h2, hst, -, -⟩ := hr.cut
  obtain ⟨g, n, hg, hl, rfl, -⟩ := hst.told
  rw [(inv_of_run h2).i3.fnc r g hg, hl]

/-- **C21 (no disturbance)** While the group's loop serves `registerUpdateFunc` it makes no call of an
update function, accepts and answers nobody else, and changes neither lock count nor timestamp. -/
theorem C21_undisturbed {a b : List (Ev τ)} {s0 s1 s2 : State τ} {c : Cid} {r : Rid} {f : Fn}
    (h0 : Run (init τ) a s0) (h1 : Step s0 [.acceptFn c r f] s1) (h2 : Run s1 b s2) (hno : .answerFn c r ∉ b) :
    (∀ x ∈ b, isUpdate r x = false ∧ isTraffic r x = false) ∧
    ∃ g0 g2, s0.regions[r]? = some g0 ∧ s2.regions[r]? = some g2 ∧ g2.lockCount = g0.lockCount ∧ g2.updateTime = g0.updateTime := by
  have hi := inv_of_run (.snoc h0 h1)
  obtain ⟨cl, g, hc, hg, hl, -, rfl⟩ := h1.told
  have hrl : r < s0.regions.length := (List.getElem?_eq_some_iff.1 hg).1
  obtain ⟨⟨g2, hg2, e1, e2, -⟩, hq⟩ := fn_phase (c := c) (r := r) (f := f) (g0 := { g with loop := .handleFn f }) hi
    (by simp [pendStep]) (by simp [State.setC, State.setR, hrl]) rfl h2 hno
  exact ⟨hq, g, g2, hg, hg2, e1, e2⟩

/-- **C21 (confirmation)** The step that confirms changes neither lock count nor timestamp. -/
theorem C21_confirmed {tr : List (Ev τ)} {s s' : State τ} {c : Cid} {r : Rid} {g : Region τ}
    (_ : Run (init τ) tr s) (h : Step s [.answerFn c r] s') (hg : s.regions[r]? = some g) :
    ∃ g', s'.regions[r]? = some g' ∧ g'.lockCount = g.lockCount ∧ g'.updateTime = g.updateTime := by
  obtain ⟨g', hg', -, hreg⟩ := h.region r g hg
  refine ⟨g', hg', ?_⟩
  rcases hreg with ⟨rfl, -⟩ | ⟨c1, n, hl, he, -⟩ | ⟨n, hl, rfl, he⟩ | ⟨t, hl, rfl, he⟩ | ⟨c1, t, hl, rfl, he⟩ | ⟨c1, f, hl, he, -⟩ | ⟨f, hl, he, -⟩ | ⟨c1, hl, -, rfl⟩
  · exact ⟨rfl, rfl⟩
  · cases he
  · rcases handleEvents_cases g r n with ⟨h1, -⟩ | ⟨h1, -⟩ <;> rw [h1] at he <;> cases he
  · cases he
  · cases he
  · cases he
  · cases he
  · exact ⟨rfl, rfl⟩

example : exEvents = exEvents.take 25 ++ .updBegin 0 8 :: exEvents.drop 26 ∧ currentFn 0 (exEvents.take 25) = some 8 ∧
    currentFn 0 (exEvents.take 13) = some 7 := by decide

/-! ## C22 -/

/-- **C22** The ids of the first 2^64 groups, distributions and lists created are all different. -/
theorem C22_unique_ids {tr : List (Ev τ)} {s : State τ} (hr : Run (init τ) tr s) (hlen : (ids tr).length ≤ 2 ^ 64) :
    (ids tr).Nodup := by
  rw [(ids_inv hr).1]
  refine List.Nodup.map_on ?_ List.nodup_range
  intro a ha b hb h
  rw [List.mem_range] at ha hb
  unfold i64 at h
  omega

/-- **C22 (limit)** The counter is an `int64`: creation number 2^64 + n gets the id of number n. -/
theorem C22_ids_wrap {tr : List (Ev τ)} {s : State τ} (hr : Run (init τ) tr s) (n : ℕ) (hn : n + 2 ^ 64 < (ids tr).length) :
    (ids tr)[n + 2 ^ 64]? = (ids tr)[n]? := by
  have h1 := (ids_inv hr).1
  generalize ids tr = l at h1 hn
  have hlen : ∀ i, i < l.length → l[i]? = some (i64 (i : ℤ)) := by
    intro i hi
    rw [h1]; simp [hi]
  have hw : i64 ((n + 2 ^ 64 : ℕ) : ℤ) = i64 (n : ℤ) := by
    rw [Nat.cast_add, Nat.cast_pow]; unfold i64; norm_num; omega
  rw [hlen _ hn, hlen n (by omega), hw]

example : ∃ tr s, Run (init ℕ) tr s ∧ ids tr = [0, 1, 2] :=
  ⟨_, _, play_run (as := [.newGroup 7, .newOther, .newGroup 7]) rfl, by decide⟩

/-! ## C24, the groups' side -/

/-- **C24 (groups)** When `Close` has returned the request has released every group it took, exactly
once, and it took each at most once. -/
theorem C24_close_releases {tr : List (Ev τ)} {s : State τ} {c : Cid} (hr : Run (init τ) tr s)
    (h : .closeEnd c ∈ tr) (r : Rid) : takes c r tr ≤ 1 ∧ releases c r tr = takes c r tr := by
  refine ⟨(takes_inv hr c r).1, ?_⟩
  have hz : holds c r tr = 0 := by
    obtain ⟨a, b, rfl⟩ := List.append_of_mem h
    obtain ⟨-, s2, s3, -, -, hst, -, h4⟩ := hr.cut
    obtain ⟨cl, hc, -, rfl⟩ := hst.told
    have hlt : c < s2.clients.length := (List.getElem?_eq_some_iff.1 hc).1
    have key : ∀ {u v : State τ} {es : List (Ev τ)}, Run u es v →
        (∃ cl : Client τ, u.clients[c]? = some cl ∧ (cl.pc = .closed ∨ cl.pc = .panicked)) →
        ∃ cl : Client τ, v.clients[c]? = some cl ∧ (cl.pc = .closed ∨ cl.pc = .panicked) := by
      intro u v es hr hu
      induction hr with
      | nil => exact hu
      | snoc _ hs ih => obtain ⟨cl, hc, hd⟩ := ih; exact hs.stays_done hc hd
    obtain ⟨cl', hc', hd⟩ := key h4 ⟨⟨[], .closed⟩, by simp [State.setC, hlt], .inl rfl⟩
    rw [(inv_of_run hr).i3.hold c cl' r hc']
    rcases hd with hd | hd <;> simp [holding, hd]
  have := holds_eq_takes (c := c) (r := r) (accept_unit hr)
  omega

example : (.closeEnd 0 : Ev ℕ) ∈ exEvents ∧ takes 0 0 exEvents = 1 ∧ releases 0 0 exEvents = 1 := by decide

end Tricorder.Group
