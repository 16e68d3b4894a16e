import Verif.Model.Tree
import Verif.Spec.Path
/-!
# What it means for the heap to be a tree, and what a path denotes
-/

namespace Tricorder.Spec
open Go

variable {V : Type}

/-- a name that a path component can have -/
def GoodName (n : Str) : Prop := (47 : UInt8) ∉ n ∧ ¬ Blank n

/-- what a path can denote -/
inductive Node where
  | dir (d : ℕ)
  | metric (m : ℕ)
deriving DecidableEq, Repr

/-- the object an entry holds -/
def Holds (e : Entry) : Node → Prop
  | .dir d => e.dir = some d
  | .metric m => e.metric = some m

/-- directory `d` has an entry number `e` under `name` -/
def Child (t : Tree V) (d : ℕ) (name : Str) (e : ℕ) : Prop := (name, e) ∈ t.contents d

/-- walking the components `p` from directory `d` ends at `n`; only the last component may be a
metric -/
inductive Reaches (t : Tree V) : ℕ → List Str → Node → Prop where
  | here (d : ℕ) : Reaches t d [] (.dir d)
  | metric {d name e en m} : Child t d name e → t.entries[e]? = some en → en.metric = some m →
      Reaches t d [name] (.metric m)
  | dir {d name e en d' p n} : Child t d name e → t.entries[e]? = some en → en.dir = some d' →
      Reaches t d' p n → Reaches t d (name :: p) n

/-- The heap is a tree: the conditions of property C13. -/
structure IsTree (t : Tree V) : Prop where
  /-- the root exists and has no entry of its own -/
  rootIn : 0 < t.dirs.length
  root : t.enclosing 0 = none
  /-- every other directory belongs to exactly the entry that refers to it -/
  dirs : ∀ d, 0 < d → d < t.dirs.length →
    ∃ e en, t.enclosing d = some e ∧ t.entries[e]? = some en ∧ en.dir = some d
  /-- every entry is a metric or a directory, never both -/
  entry : ∀ (e : ℕ) en, t.entries[e]? = some en →
    (∃ m mo, en.metric = some m ∧ en.dir = none ∧ t.metrics[m]? = some mo ∧ mo.enclosing = e) ∨
    (∃ d, en.metric = none ∧ en.dir = some d ∧ 0 < d ∧ d < t.dirs.length ∧ t.enclosing d = some e)
  /-- every metric belongs to the entry that refers to it -/
  metrics : ∀ (m : ℕ) mo, t.metrics[m]? = some mo →
    ∃ en, t.entries[mo.enclosing]? = some en ∧ en.metric = some m
  /-- parent links lead to directories, and to older entries, so there are no cycles -/
  parent : ∀ (e : ℕ) en (p : ℕ), t.entries[e]? = some en → en.parent = some p →
    p < e ∧ ∃ pe pd, t.entries[p]? = some pe ∧ pe.dir = some pd
  /-- an entry stored under a name in a directory has that name and that directory as parent -/
  child : ∀ d name e, Child t d name e →
    ∃ en, t.entries[e]? = some en ∧ en.name = name ∧ en.parent = t.enclosing d
  /-- no directory has two entries with one name -/
  keys : ∀ d, ((t.contents d).map Prod.fst).Nodup
  /-- names are path components -/
  names : ∀ (e : ℕ) en, t.entries[e]? = some en → GoodName en.name

end Tricorder.Spec
