import Verif.Model.Value
/-!
# Reading a registered variable, word by word

`Model/Sys` reads a variable in one step.  Here a read takes one step per machine word, and other goroutines store words in
between, as on a machine with 64 bits, where loads and stores of aligned words are atomic.  The order in which the words of
a value are loaded is not determined by the language, so it is a parameter.  Not modelled: weaker memory, in which loads
and stores happen in different orders for different goroutines.
-/

namespace Tricorder.Words

/-- the contents of memory, word by word; Go runtime, read by `/repo/go/tricorder/metric.go:944-954` -/
abbrev Mem := ℕ → ℕ

/-- a computation that loads words; the reads of `/repo/go/tricorder/metric.go:967-1096` -/
inductive Rd (α : Type) where
  | ret (x : α)
  | load (a : ℕ) (k : ℕ → Rd α)

/-- `time.Time`: wall, ext, loc; read by `/repo/go/tricorder/metric.go:1010-1020` -/
def timeWords : ℕ := 3

/-- words of a variable whose address was registered; a pointer to a time is one word: the pointer;
`/repo/go/tricorder/metric.go:756-814`.  Strings have two words: address and length. -/
def varWords (t : Ty) (isPtr : Bool) : ℕ :=
  match t with
  | .string => 2
  | .goTime => if isPtr then 1 else timeWords
  | _ => 1

/-- copies the words at `b`, with the offsets in the order `ord`; used by `/repo/go/tricorder/metric.go:967-1020` -/
def copy {α : Type} (b : ℕ) : List ℕ → (List (ℕ × ℕ) → Rd α) → Rd α
  | [], k => k []
  | i :: ord, k => .load (b + i) fun x => copy b ord fun l => k ((i, x) :: l)

/-- `valueToTime` of a pointer, `/repo/go/tricorder/metric.go:1012-1018`; the pointer is loaded once; `none` is the zero time -/
def readTimePtr (a : ℕ) (ord : List ℕ) : Rd (Option (List (ℕ × ℕ))) :=
  .load a fun p => if p = 0 then .ret none else copy p ord fun l => .ret (some l)

/-- reading a registered variable at `a`: `AsBool`, `AsInt`, `AsUint`, `AsFloat`, `AsString`, `AsTime`, `AsGoDuration`;
`/repo/go/tricorder/metric.go:967-1045`; the words with their offsets -/
def readVar (t : Ty) (isPtr : Bool) (a : ℕ) (ord : List ℕ) : Rd (Option (List (ℕ × ℕ))) :=
  if t = .goTime ∧ isPtr then readTimePtr a ord else copy a ord fun l => .ret (some l)

/-- a word is stored by somebody, or loaded by the reader; `/repo/go/tricorder/doc.go:117-120` -/
inductive Ev where
  | load (a x : ℕ)
  | store (a x : ℕ)
deriving DecidableEq

/-- memory after a store; Go runtime, `/repo/go/tricorder/doc.go:117-120` -/
def Mem.set (m : Mem) (a x : ℕ) : Mem := fun b => if b = a then x else m b

/-- a run of the reader among stores of others; `/repo/go/tricorder/metric.go:944-1020` -/
inductive Run {α : Type} : Mem → Rd α → List Ev → Mem → α → Prop where
  | ret (m : Mem) (x : α) : Run m (.ret x) [] m x
  | load {m a k tr m' x} : Run m (k (m a)) tr m' x → Run m (.load a k) (.load a (m a) :: tr) m' x
  | store {m p tr m' x} (a v : ℕ) : Run (m.set a v) p tr m' x → Run m p (.store a v :: tr) m' x

end Tricorder.Words
