import Verif.Proof.Sim
import Verif.Model.Http
/-!
# The same page through another writer

`SameWr R wv wx`: `wv` and `wx` fail alike and keep their states related by `R`.  Then the same page through either takes the
same steps, with the same result.
-/

namespace Tricorder
open Go

variable {w : World} {V X : Type}

/-- the writers fail alike and keep `R` -/
def SameWr (R : V → X → Prop) (wv : Writer V) (wx : Writer X) : Prop :=
  ∀ v x b, R v x → R (wv.write v b).1 (wx.write x b).1 ∧ (wv.write v b).2 = (wx.write x b).2

def Rel₂ (R : V → X → Prop) (a : V × Status) (b : X × Status) : Prop := R a.1 b.1 ∧ a.2 = b.2

def Rel₃ {σ : Type} (R : V → X → Prop) (a : σ × V × Status) (b : σ × X × Status) : Prop := a.1 = b.1 ∧ Rel₂ R a.2 b.2

def Never {α : Type} (_ : α) : Prop := False

abbrev Same {α β : Type} (R : α → β → Prop) (p : Prog α) (q : Prog β) : Prop := Sim R Never Never p q

theorem Same.bind {α β γ δ : Type} {R : α → β → Prop} {R' : γ → δ → Prop} {p : Prog α} {q : Prog β} {f : α → Prog γ}
    {g : β → Prog δ} (h : Same R p q) (hR : ∀ a b, R a b → Same R' (f a) (g b)) : Same R' (p.bind f) (q.bind g) :=
  Sim.bind h hR (fun _ h => False.elim h) (fun _ h => False.elim h)

variable {R : V → X → Prop} {wv : Writer V} {wx : Writer X}

theorem all_same (h : SameWr R wv wx) (cs : List Str) {v : V} {x : X} (hr : R v x) : Rel₂ R (wv.all v cs) (wx.all x cs) := by
  induction cs generalizing v x with
  | nil => exact ⟨hr, rfl⟩
  | cons c cs ih =>
    obtain ⟨h1, h2⟩ := h v x c hr
    unfold Writer.all
    generalize wv.write v c = a at *
    generalize wx.write x c = b at *
    obtain ⟨a1, a2⟩ := a
    obtain ⟨b1, b2⟩ := b
    dsimp only at h1 h2
    subst h2
    cases a2 with
    | none => exact ih h1
    | some e => exact ⟨h1, rfl⟩

theorem writing_same (h : SameWr R wv wx) (cs : List Str) (s : Session) {v : V} {x : X} (hr : R v x)
    {k : V → Prog (Session × V × Status)} {k' : X → Prog (Session × X × Status)}
    (hk : ∀ v x, R v x → Same (Rel₃ R) (k v) (k' x)) : Same (Rel₃ R) (writing wv v cs s k) (writing wx x cs s k') := by
  have := all_same h cs hr
  unfold writing
  generalize wv.all v cs = a at *
  generalize wx.all x cs = b at *
  obtain ⟨a1, a2⟩ := a
  obtain ⟨b1, b2⟩ := b
  obtain ⟨h1, h2⟩ := this
  dsimp only at h1 h2
  subst h2
  cases a2 with
  | ok => exact hk _ _ h1
  | err e => exact .ret ⟨rfl, h1, rfl⟩
  | panic => exact .ret ⟨rfl, h1, rfl⟩
  | timeout => exact .ret ⟨rfl, h1, rfl⟩

theorem htmlMetric_same (h : SameWr R wv wx) (fm : Fmts) (mv : MetricView) (s : Session) {v : V} {x : X} (hr : R v x) :
    Same (Rel₃ R) (htmlMetric fm wv mv s v) (htmlMetric fm wx mv s x) := by
  unfold htmlMetric
  split
  · refine writing_same h _ _ hr fun v x hr => ?_
    split
    · exact .ret ⟨rfl, hr, rfl⟩
    · refine .op fun r => ?_
      cases r with
      | none => exact .ret ⟨rfl, hr, rfl⟩
      | some y => exact .ret ⟨rfl, all_same h _ hr⟩
  · split
    · split
      · exact .ret ⟨rfl, (all_same h _ hr).1, rfl⟩
      · refine .op fun r => ?_
        cases r with
        | none => exact .ret ⟨rfl, hr, rfl⟩
        | some y =>
          refine writing_same h _ _ hr fun v x hr => .op fun r => ?_
          cases r with
          | none => exact .ret ⟨rfl, hr, rfl⟩
          | some y =>
            dsimp only
            split
            · exact .ret ⟨rfl, hr, rfl⟩
            · exact .ret ⟨rfl, all_same h _ hr⟩
    · refine writing_same h _ _ hr fun v x hr => .after _ ?_
      rintro ⟨s', y | _⟩
      · exact .ret ⟨rfl, all_same h _ hr⟩
      · exact .ret ⟨rfl, hr, rfl⟩

theorem htmlEntry_same (h : SameWr R wv wx) (fm : Fmts) (en : Entry) (s : Session) {v : V} {x : X} (hr : R v x) :
    Same (Rel₃ R) (htmlEntry fm wv en s v) (htmlEntry fm wx en s x) := by
  unfold htmlEntry
  split
  · refine .op fun r => ?_
    cases r with
    | none => exact .ret ⟨rfl, hr, rfl⟩
    | some p => exact .ret ⟨rfl, all_same h _ hr⟩
  · refine .op fun r => ?_
    cases r with
    | none => exact .ret ⟨rfl, hr, rfl⟩
    | some mv => exact htmlMetric_same h fm mv s hr
  · exact .ret ⟨rfl, hr, rfl⟩

theorem htmlEntries_same (h : SameWr R wv wx) (fm : Fmts) (l : List (ℕ × Entry)) (s : Session) {v : V} {x : X} (hr : R v x) :
    Same (Rel₃ R) (htmlEntries fm wv l s v) (htmlEntries fm wx l s x) := by
  induction l generalizing s v x with
  | nil => exact .ret ⟨rfl, hr, rfl⟩
  | cons e l ih =>
    obtain ⟨i, en⟩ := e
    unfold htmlEntries
    refine (htmlEntry_same h fm en s hr).bind ?_
    rintro ⟨s1, a1, st⟩ ⟨s2, b1, st'⟩ ⟨h1, h2, h3⟩
    dsimp only at h1 h2 h3
    subst h1 h3
    cases st with
    | ok => exact ih s1 h2
    | err e => exact .ret ⟨rfl, h2, rfl⟩
    | panic => exact .ret ⟨rfl, h2, rfl⟩
    | timeout => exact .ret ⟨rfl, h2, rfl⟩

theorem htmlEnd_same (h : SameWr R wv wx) (a : Session × V × Status) (b : Session × X × Status) (hr : Rel₃ R a b) :
    Same (Rel₃ R) (htmlEnd wv a) (htmlEnd wx b) := by
  obtain ⟨s1, a1, st⟩ := a
  obtain ⟨s2, b1, st'⟩ := b
  obtain ⟨h1, h2, h3⟩ := hr
  dsimp only at h1 h2 h3
  subst h1 h3
  cases st with
  | ok => exact .ret ⟨rfl, all_same h _ h2⟩
  | err e => exact .ret ⟨rfl, h2, rfl⟩
  | panic => exact .ret ⟨rfl, h2, rfl⟩
  | timeout => exact .ret ⟨rfl, h2, rfl⟩

theorem withSession_same {p : Session → Prog (Session × V × Status)} {q : Session → Prog (Session × X × Status)}
    (h : Same (Rel₃ R) (p []) (q [])) : Same (Rel₂ R) (withSession p) (withSession q) := by
  refine Same.bind h ?_
  rintro ⟨s1, a1⟩ ⟨s2, b1⟩ ⟨h1, h2⟩
  dsimp only at h1
  subst h1
  exact .after _ fun _ => .ret h2

theorem htmlEndpoint_same (h : SameWr R wv wx) (fm : Fmts) (path : Str) {v : V} {x : X} (hr : R v x) :
    Same (Rel₂ R) (htmlEndpoint fm wv path v) (htmlEndpoint fm wx path x) := by
  refine .after _ ?_
  have hm : ∀ m : ℕ, Same (Rel₂ R)
      (withSession fun s => writing wv v [pageHead] s fun w' => .op (.metric m) fun
        | none => .ret (s, w', .panic)
        | some mv => (htmlMetric fm wv mv s w').bind (htmlEnd wv))
      (withSession fun s => writing wx x [pageHead] s fun w' => .op (.metric m) fun
        | none => .ret (s, w', .panic)
        | some mv => (htmlMetric fm wx mv s w').bind (htmlEnd wx)) := by
    refine fun m => withSession_same (writing_same h _ _ hr fun v x hr => .op fun r => ?_)
    cases r with
    | none => exact .ret ⟨rfl, hr, rfl⟩
    | some mv => exact (htmlMetric_same h fm mv _ hr).bind (htmlEnd_same h)
  rintro ⟨_ | d, _ | m⟩
  · exact .ret ⟨(h _ _ _ hr).1, rfl⟩
  · exact hm m
  · exact withSession_same (writing_same h _ _ hr fun v x hr => .op fun l =>
      (htmlEntries_same h fm _ _ hr).bind (htmlEnd_same h))
  · exact hm m

theorem textEmitMetric_same (h : SameWr R wv wx) (fm : Fmts) (mv : MetricView) (s : Option Session) {v : V} {x : X}
    (hr : R v x) : Same (Rel₃ R) (textEmitMetric fm wv mv s v) (textEmitMetric fm wx mv s x) := by
  unfold textEmitMetric
  split
  · split
    · exact .ret ⟨rfl, hr, rfl⟩
    · refine .op fun r => ?_
      cases r with
      | none => exact .ret ⟨rfl, hr, rfl⟩
      | some y => exact .ret ⟨rfl, all_same h _ hr⟩
  · split
    · split
      · exact .ret ⟨rfl, hr, rfl⟩
      · refine .op fun r => ?_
        cases r with
        | none => exact .ret ⟨rfl, hr, rfl⟩
        | some y =>
          dsimp only
          split
          · exact .ret ⟨rfl, hr, rfl⟩
          · exact .ret ⟨rfl, all_same h _ hr⟩
    · refine .after _ ?_
      rintro ⟨s', y | _⟩
      · exact .ret ⟨rfl, all_same h _ hr⟩
      · exact .ret ⟨rfl, hr, rfl⟩

theorem textColl_same (h : SameWr R wv wx) (fm : Fmts) (m : ℕ) (s : Session) {v : V} {x : X} (hr : R v x) :
    Same (Rel₃ R) (textColl fm wv m s v) (textColl fm wx m s x) := by
  refine .op fun r => ?_
  cases r with
  | none => exact .ret ⟨rfl, hr, rfl⟩
  | some mv =>
    obtain ⟨h1, h2⟩ := h v x (mv.path ++ [32]) hr
    dsimp only
    generalize wv.write v (mv.path ++ [32]) = a at *
    generalize wx.write x (mv.path ++ [32]) = b at *
    obtain ⟨a1, a2⟩ := a
    obtain ⟨b1, b2⟩ := b
    dsimp only at h1 h2
    subst h2
    cases a2 with
    | some e => exact .ret ⟨rfl, h1, rfl⟩
    | none =>
      refine (textEmitMetric_same h fm mv _ h1).bind ?_
      rintro ⟨s1, a1⟩ ⟨s2, b1⟩ ⟨h1, h2⟩
      dsimp only at h1
      subst h1
      exact .ret ⟨rfl, h2⟩

theorem collect_same {cv : Coll V} {cx : Coll X} (hc : ∀ m s v x, R v x → Same (Rel₃ R) (cv m s v) (cx m s x)) (m : ℕ)
    (s : Session) {v : V} {x : X} (hr : R v x) : Same (Rel₃ R) (collect cv m s v) (collect cx m s x) := by
  refine .op fun r => ?_
  cases r with
  | none => exact .ret ⟨rfl, hr, rfl⟩
  | some mv =>
    refine .after _ ?_
    rintro ⟨s1, (_ | _) | _⟩
    · exact hc m _ _ _ hr
    · exact .ret ⟨rfl, hr, rfl⟩
    · exact .ret ⟨rfl, hr, rfl⟩

theorem forEntries_same {cv : Coll V} {cx : Coll X} (hc : ∀ m s v x, R v x → Same (Rel₃ R) (cv m s v) (cx m s x))
    {sub : ℕ → Session → V → Prog (Session × V × Status)} {sub' : ℕ → Session → X → Prog (Session × X × Status)}
    (hs : ∀ d s v x, R v x → Same (Rel₃ R) (sub d s v) (sub' d s x)) (l : List (ℕ × Entry)) (s : Session) {v : V} {x : X}
    (hr : R v x) : Same (Rel₃ R) (forEntries sub cv l s v) (forEntries sub' cx l s x) := by
  induction l generalizing s v x with
  | nil => exact .ret ⟨rfl, hr, rfl⟩
  | cons e l ih =>
    obtain ⟨i, en⟩ := e
    unfold forEntries
    refine Same.bind (R := Rel₃ R) ?_ ?_
    · split
      · exact hs _ _ _ _ hr
      · exact collect_same hc _ _ hr
      · exact .ret ⟨rfl, hr, rfl⟩
    · rintro ⟨s1, a1, st⟩ ⟨s2, b1, st'⟩ ⟨h1, h2, h3⟩
      dsimp only at h1 h2 h3
      subst h1 h3
      cases st with
      | ok => exact ih s1 h2
      | err e => exact .ret ⟨rfl, h2, rfl⟩
      | panic => exact .ret ⟨rfl, h2, rfl⟩
      | timeout => exact .ret ⟨rfl, h2, rfl⟩

theorem traverse_same {cv : Coll V} {cx : Coll X} (hc : ∀ m s v x, R v x → Same (Rel₃ R) (cv m s v) (cx m s x)) (fuel : ℕ) :
    ∀ (d : ℕ) (s : Session) (v : V) (x : X), R v x → Same (Rel₃ R) (traverse cv fuel d s v) (traverse cx fuel d s x) := by
  induction fuel with
  | zero => intro d s v x hr; exact .ret ⟨rfl, hr, rfl⟩
  | succ fuel ih => intro d s v x hr; exact .op fun l => forEntries_same hc ih _ _ hr

theorem textEndpoint_same (h : SameWr R wv wx) (fm : Fmts) (fuel : ℕ) (path : Str) {v : V} {x : X} (hr : R v x) :
    Same (Rel₂ R) (textEndpoint fm wv fuel path v) (textEndpoint fm wx fuel path x) := by
  refine .after _ ?_
  have hm : ∀ m : ℕ, Same (Rel₂ R)
      (.op (.metric m) fun
        | none => .ret (v, .panic)
        | some mv => (textEmitMetric fm wv mv none v).bind fun r => .ret r.2)
      (.op (.metric m) fun
        | none => .ret (x, .panic)
        | some mv => (textEmitMetric fm wx mv none x).bind fun r => .ret r.2) := by
    refine fun m => .op fun r => ?_
    cases r with
    | none => exact .ret ⟨hr, rfl⟩
    | some mv => exact (textEmitMetric_same h fm mv none hr).bind fun a b hab => .ret hab.2
  rintro ⟨_ | d, _ | m⟩
  · exact .ret ⟨(h _ _ _ hr).1, rfl⟩
  · exact hm m
  · exact withSession_same (traverse_same (fun m s v x hr => textColl_same h fm m s hr) fuel d _ _ _ hr)
  · exact hm m

/-- the connection of a response, whose headers are `H` -/
def Conn (H : Hdr) (v : Resp X) (x : X) : Prop := v.out = x ∧ v.hdr = H ∧ (v.sent = none ∨ v.sent = some (200, H))

theorem conn_same (H : Hdr) (wx : Writer X) : SameWr (Conn H) (plainResp wx).wr wx := by
  rintro v x b ⟨rfl, rfl, h⟩
  refine ⟨⟨rfl, ?_, ?_⟩, rfl⟩
  · show (v.writeHeader 200).hdr = v.hdr
    unfold Resp.writeHeader
    split <;> rfl
  · right
    show (v.writeHeader 200).sent = some (200, v.hdr)
    unfold Resp.writeHeader
    rcases h with h | h <;> simp [h]

end Tricorder
