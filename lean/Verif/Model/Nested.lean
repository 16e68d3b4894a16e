import Verif.Model.Group
/-!
# Groups: update functions and callbacks that read metrics themselves

`Model/Group` lets update functions return at any time.  Here an update function, and a function registered as a metric, may
itself read metrics, through sessions of its own (`ReadMyMetrics`, `/repo/go/tricorder/api.go:95-97`; every look at a metric
opens a session, `/repo/go/tricorder/metric.go:79-86`).  The update function runs in the goroutine of the event loop
(`/repo/go/tricorder/metric.go:165-176`), so it does not return before its sessions are closed; a function registered as a metric
runs in the goroutine of the request (`/repo/go/tricorder/metric.go:944-961`), which does not go on before.
`may q r` says that what the update function of `q` calls may use group `r`.
-/

namespace Tricorder.Group.Nested
open Go

/-- who opened a session, if not a goroutine of its own: the update function of a group; a function registered as a metric, called
by the request `c`; `/repo/go/tricorder/metric.go:172`, `/repo/go/tricorder/metric.go:944-961` -/
inductive Owner where
  | upd (q : ℕ)
  | fn (c : ℕ)
deriving DecidableEq

/-- the groups and requests, and who opened each request; `/repo/go/tricorder/metric.go:75-81` -/
structure St (τ : Type) where
  grp : State τ
  owners : List (Option Owner)

/-- nothing created yet; `/repo/go/tricorder/metric.go:32-36` -/
def init (τ : Type) : St τ := ⟨Group.init τ, []⟩

/-- the session is closed; `/repo/go/tricorder/metric.go:104-110` -/
def Closed {τ : Type} (cl : Client τ) : Prop := cl.pc = .closed ∨ cl.pc = .panicked

/-- all sessions opened by `o` are closed; notation of the model -/
def St.Free {τ : Type} (s : St τ) (o : Owner) : Prop :=
  ∀ (c : ℕ) cl, s.owners[c]? = some (some o) → s.grp.clients[c]? = some cl → Closed cl

/-- request `c` is part of a run of the update function of `q`: opened by it, or by a function called on behalf of such a request;
notation of the model -/
inductive Within {τ : Type} (s : St τ) : ℕ → ℕ → Prop where
  | upd {c q} : s.owners[c]? = some (some (.upd q)) → Within s c q
  | fn {c c0 q} : s.owners[c]? = some (some (.fn c0)) → Within s c0 q → Within s c q

/-- who can open a session now: the update function of `q` while it runs, a function called by `c` while `c` evaluates a metric and
no other function does; `/repo/go/tricorder/metric.go:172`, `/repo/go/tricorder/metric.go:944-961` -/
def St.CanOpen {τ : Type} (s : St τ) : Option Owner → Prop
  | none => True
  | some (.upd q) => ∃ g, s.grp.regions[q]? = some g ∧ g.loop = .calling
  | some (.fn c) => (∃ cl, s.grp.clients[c]? = some cl ∧ cl.pc = .user) ∧ s.Free (.fn c)

/-- one step; `/repo/go/tricorder/metric.go:38-202` -/
inductive Step {τ : Type} [Inhabited τ] (may : ℕ → ℕ → Prop) : St τ → List (Ev τ) → St τ → Prop where
  /-- a session is opened -/
  | opens (s : St τ) (o : Option Owner) : s.CanOpen o →
      Step may s [.opened s.grp.clients.length]
        ⟨{ s.grp with clients := s.grp.clients ++ [⟨[], .user⟩] }, s.owners ++ [o]⟩
  /-- any other step: an update function returns only when its sessions are closed; a request in user code goes on only when
  the sessions of the function it called are closed; what belongs to an update function begins only what it may -/
  | base (s : St τ) (es : List (Ev τ)) (g : State τ) :
      Group.Step s.grp es g → g.clients.length = s.grp.clients.length →
      (∀ q f t, .updEnd q f t ∈ es → s.Free (.upd q)) →
      (∀ c cl, s.grp.clients[c]? = some cl → cl.pc = .user → ¬ s.Free (.fn c) →
        g.clients[c]? = some cl ∧ ∀ r t, .visit c r t ∉ es) →
      (∀ c q cl cl' r, Within s c q → s.grp.clients[c]? = some cl → cl.pc = .user → g.clients[c]? = some cl' →
        (cl'.pc = .lockSend r ∨ ∃ f, cl'.pc = .fnSend r f) → may q r) →
      Step may s es ⟨g, s.owners⟩

/-- runs from a state, with the sequence of events; notation of the model -/
inductive Run {τ : Type} [Inhabited τ] (may : ℕ → ℕ → Prop) (s0 : St τ) : List (Ev τ) → St τ → Prop where
  | nil : Run may s0 [] s0
  | snoc {tr s es s'} : Run may s0 tr s → Step may s es s' → Run may s0 (tr ++ es) s'

end Tricorder.Group.Nested
