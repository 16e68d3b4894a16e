import Verif.Model.Sys
/-!
# Slices that share arrays

`Verif/Model/Sys.lean` gives every slice its own elements.  In Go a slice is a reference to a part of an array, and several
slices can refer to the same array.  Here is the same system with arrays: the application makes slices of slices, appends
to slices and writes elements; the library makes lists with `copySlice` and `convertFromIntOrUintSlice` of
`/repo/go/tricorder/metric.go`.
-/

namespace Tricorder.Alias
open Go

/-- what a slice refers to: `len` elements of array number `arr` from index `off` on, of which `cap` may be used;
`reflect.Value` of kind slice, `/repo/go/tricorder/metric.go:603-607` -/
structure Ref where
  arr : ℕ
  off : ℕ
  len : ℕ
  cap : ℕ
deriving DecidableEq, Repr

/-- a slice: its type and what it refers to (`none` for nil); `internal` says that only the library has it;
`/repo/go/tricorder/metric.go:603-607` -/
structure Head where
  sliceNamed : Option ℕ
  elem : GoTy
  internal : Bool
  ref : Option Ref
deriving DecidableEq, Repr

/-- memory with arrays; `rest` is everything else, its `mem` is not used; notation of the model -/
structure St where
  arrays : List (List Base)
  heads : List Head
  rest : State

/-- the elements of a slice, `value.Index(i)` for all `i`; `/repo/go/tricorder/metric.go:632-640` -/
def elems (as : List (List Base)) (r : Ref) : List Base := (((as[r.arr]?).getD []).drop r.off).take r.len

/-- the slice with the elements it has now; notation of the model -/
def Head.cell (as : List (List Base)) (h : Head) : Cell := ⟨h.sliceNamed, h.elem, h.ref.map (elems as), h.internal⟩

/-- the state as it looks through the slices; notation of the model -/
def St.view (A : St) : State := { A.rest with mem := A.heads.map (Head.cell A.arrays) }

/-- `slice[j] = b`, for `j` below the length; `/repo/go/tricorder/metric.go:633-639` -/
def store (as : List (List Base)) (r : Ref) (j : ℕ) (b : Base) : List (List Base) :=
  as.modify r.arr fun a => a.set (r.off + j) b

/-- a new array with a slice of all of it; `reflect.MakeSlice`, `/repo/go/tricorder/metric.go:604,632` -/
def fresh (as : List (List Base)) (xs : List Base) : Ref := ⟨as.length, 0, xs.length, xs.length⟩

/-- `copySlice`, `/repo/go/tricorder/metric.go:603-607`: a new array, and all elements copied; `zero` is the zero value of
the element type -/
def copySlice (zero : Base) (as : List (List Base)) (r : Option Ref) : List (List Base) × Ref :=
  let xs := (r.map (elems as)).getD []
  let copy := fresh as (List.replicate xs.length zero)
  ((List.range xs.length).foldl (fun as' i => match xs[i]? with
      | some x => store as' copy i x
      | none => as')
    (as ++ [List.replicate xs.length zero]), copy)

/-- `convertFromIntOrUintSlice`, `/repo/go/tricorder/metric.go:612-642`: a new array, and the elements converted one by
one -/
def convertSlice (k : IntKind) (as : List (List Base)) (r : Option Ref) : List (List Base) × Ref :=
  let xs := (r.map (elems as)).getD []
  let copy := fresh as (List.replicate xs.length (.int k 0))
  ((List.range xs.length).foldl (fun as' i => match xs[i]? with
      | some x => store as' copy i (resize k x)
      | none => as')
    (as ++ [List.replicate xs.length (.int k 0)]), copy)

/-- `asSliceValue`, `/repo/go/tricorder/metric.go:648-666`: arrays and slices afterwards, the slice and the element type;
`none` is a panic -/
def asSliceValue (as : List (List Base)) (hs : List Head) (arg : SliceArg) (mutable : Bool) :
    Option (List (List Base) × List Head × ℕ × Ty) :=
  match arg with
  | .notSlice => none
  | .slice c => match hs[c]? with
    | none => none
    | some h => match getPrimitiveType h.elem with
      | none => none
      | some (_, true) => none
      | some (t, false) =>
        match h.elem with
        | .scalar ⟨_, .int .int⟩ =>
          some ((convertSlice .int64 as h.ref).1,
            hs ++ [⟨none, .scalar ⟨none, .int .int64⟩, true, some (convertSlice .int64 as h.ref).2⟩], hs.length, t)
        | .scalar ⟨_, .int .uint⟩ =>
          some ((convertSlice .uint64 as h.ref).1,
            hs ++ [⟨none, .scalar ⟨none, .int .uint64⟩, true, some (convertSlice .uint64 as h.ref).2⟩], hs.length, t)
        | _ =>
          if mutable then
            some ((copySlice (.bool false) as h.ref).1,
              hs ++ [{ h with internal := true, ref := some (copySlice (.bool false) as h.ref).2 }], hs.length, t)
          else some (as, hs, c, t)

/-- `newListWithTimeStamp`, `/repo/go/tricorder/metric.go:668-678` -/
def St.newList (A : St) (a : SliceArg) (mutable : Bool) (ts : Time) : St × Option ℕ :=
  match asSliceValue A.arrays A.heads a mutable with
  | none => (A, none)
  | some (as, hs, c, t) =>
    (⟨as, hs, { A.rest with lists := A.rest.lists ++ [⟨A.rest.nextId, t, c, ts⟩], nextId := A.rest.nextId + 1 }⟩,
      some A.rest.lists.length)

/-- `ChangeWithTimeStamp`, `/repo/go/tricorder/metric.go:680-692`; `false` is a panic -/
def St.changeList (A : St) (i : ℕ) (a : SliceArg) (mutable : Bool) (ts : Time) : St × Bool :=
  match A.rest.lists[i]? with
  | none => (A, false)
  | some l => match asSliceValue A.arrays A.heads a mutable with
    | none => (A, false)
    | some (as, hs, c, t) =>
      if t ≠ l.subType then (⟨as, hs, A.rest⟩, false)
      else (⟨as, hs, { A.rest with lists := A.rest.lists.set i { l with slice := c, timeStamp := ts } }⟩, true)

/-- the application makes a slice with a new array, or nil; notation of the model -/
def St.make (A : St) (c : Cell) : St × ℕ :=
  (match c.data with
    | none => { A with heads := A.heads ++ [⟨c.sliceNamed, c.elem, false, none⟩] }
    | some xs => { A with arrays := A.arrays ++ [xs],
                          heads := A.heads ++ [⟨c.sliceNamed, c.elem, false, some (fresh A.arrays xs)⟩] },
    A.heads.length)

/-- the application executes `slice[j] = b`; nothing happens if `j` is too large, which is a panic; notation of the
model -/
def St.write (A : St) (c j : ℕ) (b : Base) : St :=
  match A.heads[c]? with
  | some ⟨_, _, false, some r⟩ => if j < r.len then { A with arrays := store A.arrays r j b } else A
  | _ => A

/-- the application executes `slice[lo:hi:mx]`: a slice of the same array; notation of the model -/
def St.reslice (A : St) (c lo hi mx : ℕ) : St :=
  match A.heads[c]? with
  | some ⟨n, e, false, some r⟩ =>
    if lo ≤ hi ∧ hi ≤ mx ∧ mx ≤ r.cap then
      { A with heads := A.heads ++ [⟨n, e, false, some ⟨r.arr, r.off + lo, hi - lo, mx - lo⟩⟩] }
    else A
  | _ => A

/-- the application executes `append(slice, b)`: in the same array if there is room, otherwise in a new one of any size;
notation of the model -/
def St.append (A : St) (c : ℕ) (b : Base) (pad : List Base) : St :=
  match A.heads[c]? with
  | some ⟨n, e, false, some r⟩ =>
    if r.len < r.cap then
      { A with arrays := store A.arrays r r.len b,
               heads := A.heads ++ [⟨n, e, false, some { r with len := r.len + 1 }⟩] }
    else
      { A with arrays := A.arrays ++ [elems A.arrays r ++ b :: pad],
               heads := A.heads ++ [⟨n, e, false, some ⟨A.arrays.length, 0, r.len + 1, r.len + 1 + pad.length⟩⟩] }
  | some ⟨n, e, false, none⟩ =>
    { A with arrays := A.arrays ++ [b :: pad],
             heads := A.heads ++ [⟨n, e, false, some ⟨A.arrays.length, 0, 1, 1 + pad.length⟩⟩] }
  | _ => A

/-- The application gets the slice of list `i` itself: `AsSlice`, `/repo/go/tricorder/metric.go:720-724`, which
`ReadMyMetrics`, `/repo/go/tricorder/api.go:92-97`, hands out as `Value` of the metric.  Not among the steps below. -/
def St.obtain (A : St) (i : ℕ) : St :=
  match A.rest.lists[i]? with
  | none => A
  | some l => match A.heads[l.slice]? with
    | none => A
    | some h => { A with heads := A.heads ++ [{ h with internal := false }] }

/-- one atomic step: those that deal with slices as above, all others as in `Verif/Model/Sys.lean`;
`/repo/go/tricorder/metric.go:595-733` -/
def exec (w : World) (c : Cmd) (A : St) : St × c.Resp :=
  match c with
  | .newSlice c => A.make c
  | .writeSlice c j b => (A.write c j b, ())
  | .newList a mutable ts => A.newList a mutable ts
  | .changeList i a mutable ts => A.changeList i a mutable ts
  | c => ({ A with rest := (Tricorder.exec w c A.view).1 }, (Tricorder.exec w c A.view).2)

/-- steps of other goroutines; notation of the model -/
inductive Act where
  | cmd (c : Cmd)
  | reslice (c lo hi mx : ℕ)
  | append (c : ℕ) (b : Base) (pad : List Base)

/-- the state after a step; notation of the model -/
def act (w : World) (A : St) : Act → St
  | .cmd c => (exec w c A).1
  | .reslice c lo hi mx => A.reslice c lo hi mx
  | .append c b pad => A.append c b pad

/-- see `Cmd.Ok`; notation of the model -/
def Act.Ok (A : St) : Act → Prop
  | .cmd c => c.Ok A.view
  | _ => True

/-- one step of a run, with the state before; notation of the model -/
structure Ev where
  own : Bool
  act : Act
  pre : St

/-- `RunI` with arrays; notation of the model -/
inductive Run (w : World) {α : Type} : Prog α → St → List Ev → St → α → Prop where
  | ret (a : α) (A : St) : Run w (.ret a) A [] A a
  | env {p A h A' a} (c : Act) : c.Ok A → Run w p (act w A c) h A' a → Run w p A (⟨false, c, A⟩ :: h) A' a
  | op {c k A h A' a} : Run w (k (exec w c A).2) (exec w c A).1 h A' a → Run w (.op c k) A (⟨true, .cmd c, A⟩ :: h) A' a

/-- no slices yet; `/repo/go/tricorder/metric.go:32-36` -/
def St.init : St := ⟨[], [], State.init⟩

/-- states reachable by any interleaving of any goroutines; notation of the model -/
inductive Reachable (w : World) : St → Prop where
  | init : Reachable w St.init
  | step {A} (c : Act) : Reachable w A → c.Ok A → Reachable w (act w A c)

end Tricorder.Alias
