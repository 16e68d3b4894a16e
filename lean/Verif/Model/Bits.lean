import Verif.Model.Read
/-!
# Machines whose `int` has another size

`Verif/Model/Sys.lean` has `int` and `uint` of 64 bits.  Here are the functions of `/repo/go/tricorder/metric.go` whose
behaviour depends on `intSizeInBits`, with the size as a parameter.
-/

namespace Tricorder
open Go

/-- the `switch t.Kind()` of `getPrimitiveType`, `/repo/go/tricorder/metric.go:765-811`, where `int` has `bits` bits -/
def kindTypeOn (bits : ℕ) : BaseTy → Option Ty
  | .int .int => if bits = 32 then some .int32 else if bits = 64 then some .int64 else none
  | .int .uint => if bits = 32 then some .uint32 else if bits = 64 then some .uint64 else none
  | .bool => some .bool
  | .int .int8 => some .int8
  | .int .int16 => some .int16
  | .int .int32 => some .int32
  | .int .int64 => some .int64
  | .int .uint8 => some .uint8
  | .int .uint16 => some .uint16
  | .int .uint32 => some .uint32
  | .int .uint64 => some .uint64
  | .float32 => some .float32
  | .float64 => some .float64
  | .string => some .string
  | .time => none
  | .duration => some .int64

/-- `getPrimitiveType`, `/repo/go/tricorder/metric.go:756-813`, where `int` has `bits` bits -/
def getPrimitiveTypeOn (bits : ℕ) : GoTy → Option (Ty × Bool)
  | .timePtr => some (.goTime, true)
  | .scalar ⟨none, .time⟩ => some (.goTime, false)
  | .scalar ⟨none, .duration⟩ => some (.goDuration, false)
  | .scalar ⟨_, b⟩ => (kindTypeOn bits b).map fun t => (t, false)
  | .other _ => none

/-- the element type of the new slice in `convertFromIntOrUintSlice`; `none` is the panic of the `default` case;
`/repo/go/tricorder/metric.go:614-631` -/
def convertedKind : Ty → Option IntKind
  | .int32 => some .int32
  | .int64 => some .int64
  | .uint32 => some .uint32
  | .uint64 => some .uint64
  | _ => none

/-- one round of the loop of `convertFromIntOrUintSlice`, `/repo/go/tricorder/metric.go:635-641`: the result of
`valueToInterface` is stored in an element of kind `k`, which panics if it has another type -/
def convertElem (named : Option ℕ) (t : Ty) (k : IntKind) (b : Base) : Option Base :=
  match valueToInterface (.scalar named b) t false with
  | some (.scalar none (.int k' x)) => if k' = k then some (.int k' x) else none
  | _ => none

/-- `convertFromIntOrUintSlice`, `/repo/go/tricorder/metric.go:612-642`; `none` is a panic -/
def convertFromIntOrUintSlice (named : Option ℕ) (t : Ty) (xs : List Base) : Option Cell :=
  match convertedKind t with
  | none => none
  | some k => match xs.mapM (convertElem named t k) with
    | none => none
    | some ys => some ⟨none, .scalar ⟨none, .int k⟩, some ys, true⟩

/-- the name of the element type of a slice, and whether its kind is `Int` or `Uint`;
`/repo/go/tricorder/metric.go:659-660` -/
def unsizedElem : GoTy → Option (Option ℕ)
  | .scalar ⟨n, .int .int⟩ => some n
  | .scalar ⟨n, .int .uint⟩ => some n
  | _ => none

/-- `asSliceValue`, `/repo/go/tricorder/metric.go:648-666`, where `int` has `bits` bits: the memory afterwards, the
slice and the element type; `none` is a panic -/
def asSliceValueOn (bits : ℕ) (mem : List Cell) (arg : SliceArg) (mutable : Bool) :
    Option (List Cell × ℕ × Ty) :=
  match arg with
  | .notSlice => none
  | .slice c => match mem[c]? with
    | none => none
    | some cell => match getPrimitiveTypeOn bits cell.elem with
      | none => none
      | some (_, true) => none
      | some (t, false) => match unsizedElem cell.elem with
        | some n => match convertFromIntOrUintSlice n t (cell.data.getD []) with
          | none => none
          | some new => some (mem ++ [new], mem.length, t)
        | none =>
          if mutable then
            some (mem ++ [{ cell with data := some (cell.data.getD []), internal := true }],
              mem.length, t)
          else some (mem, c, t)

/-- `newListWithTimeStamp`, `/repo/go/tricorder/metric.go:668-678`, where `int` has `bits` bits -/
def State.newListOn (bits : ℕ) (s : State) (a : SliceArg) (mutable : Bool) (ts : Time) : State × Option ℕ :=
  match asSliceValueOn bits s.mem a mutable with
  | none => (s, none)
  | some (mem, c, t) =>
    ({ s with mem := mem, lists := s.lists ++ [⟨s.nextId, t, c, ts⟩], nextId := s.nextId + 1 },
      some s.lists.length)

/-- `ChangeWithTimeStamp`, `/repo/go/tricorder/metric.go:680-692`, where `int` has `bits` bits; `false` is a panic -/
def State.changeListOn (bits : ℕ) (s : State) (i : ℕ) (a : SliceArg) (mutable : Bool) (ts : Time) : State × Bool :=
  match s.lists[i]? with
  | none => (s, false)
  | some l => match asSliceValueOn bits s.mem a mutable with
    | none => (s, false)
    | some (mem, c, t) =>
      if t ≠ l.subType then ({ s with mem := mem }, false)
      else ({ s with mem := mem, lists := s.lists.set i { l with slice := c, timeStamp := ts } }, true)

/-- the metric of a flag, `/repo/go/tricorder/metric.go:856-877`, where `int` has `bits` bits -/
def flagValueOn (bits : ℕ) (g : ℕ) (getter : Bool) (region : Option ℕ) (unit : MUnit) (d : Dyn) :
    Out (Except RegErr MValue) :=
  match d.ty with
  | none => .panic
  | some ty => match getPrimitiveTypeOn bits ty with
    | none => .ok (.ok ⟨some (.flagString g), region, none, none, .string, false, unit⟩)
    | some (t, isPtr) =>
      .ok (.ok ⟨some (if getter then .flagGet g else .flagString g), region, none, none, t, isPtr,
        unit⟩)

/-- `newValue`, `/repo/go/tricorder/metric.go:836-909`, where `int` has `bits` bits -/
def newValueOn (bits : ℕ) (fnTy : ℕ → GoTy) (spec : RegSpec) (region : Option ℕ) (unit : MUnit) :
    Prog (Out (Except RegErr MValue)) :=
  match spec with
  | .dist i => newValueForDist i unit
  | .list i => .ret (.ok (.ok ⟨none, none, none, i, .list, false, unit⟩))
  | .flag g true => .op (.callFlagGet g) fun
    | none => .ret .panic
    | some d => .ret (flagValueOn bits g true region unit d)
  | .flag g false => .op (.callFlagString g) fun
    | none => .ret .panic
    | some s => .ret (flagValueOn bits g false region unit (.scalar none (.string s)))
  | .func nOut f =>
    if nOut ≠ 1 then .ret .panic
    else match getPrimitiveTypeOn bits (fnTy f) with
      | none => .ret (.ok (.error .wrongType))
      | some (t, isPtr) => .ret (.ok (.ok ⟨some (.fn f), region, none, none, t, isPtr, unit⟩))
  | .ptr v => .op (.readVar v) fun
    | none => .ret .panic
    | some d => match d.ty with
      | none => .ret .panic
      | some ty => match getPrimitiveTypeOn bits ty with
        | none => .ret (.ok (.error .wrongType))
        | some (t, isPtr) => .ret (.ok (.ok ⟨some (.var v), region, none, none, t, isPtr, unit⟩))
  | .invalid => .ret .panic

end Tricorder
