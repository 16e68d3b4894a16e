/-!
# Go byte strings

A Go `string` is an immutable sequence of bytes, not necessarily valid UTF-8.
We use `List UInt8`.
-/

namespace Go

/-- Go `string` (also used for `[]byte` contents). -/
abbrev Str := List UInt8

/-- The Go literal `s`, for ASCII literals only. -/
def lit (s : String) : Str := s.toList.map fun c => UInt8.ofNat c.toNat

/-- ASCII digit test `r >= '0' && r <= '9'`. -/
def isDigit (b : UInt8) : Bool := decide (48 ≤ b) && decide (b ≤ 57)

/-- `strings.HasPrefix` for a one byte prefix, followed by `str[1:]`. -/
def cutByte (b : UInt8) : Str → Option Str
  | [] => none
  | c :: cs => if c = b then some cs else none

/-- `strings.Split(s, sep)` for a one byte separator: all maximal pieces between
separators, in order; never empty. -/
def splitByte (sep : UInt8) : Str → List Str
  | [] => [[]]
  | c :: cs =>
    if c = sep then [] :: splitByte sep cs
    else match splitByte sep cs with
      | [] => [[c]]
      | p :: ps => (c :: p) :: ps

/-- `strings.SplitN(s, sep, 2)` for a one byte separator: the part before the first
separator, and the rest if there is one. -/
def splitN2 (sep : UInt8) : Str → Str × Option Str
  | [] => ([], none)
  | c :: cs =>
    if c = sep then ([], some cs)
    else let (a, r) := splitN2 sep cs; (c :: a, r)

/-- `strings.Join(parts, sep)` for a one byte separator. -/
def joinByte (sep : UInt8) : List Str → Str
  | [] => []
  | [p] => p
  | p :: q :: ps => p ++ sep :: joinByte sep (q :: ps)

/-- Go's `<` on strings: bytewise lexicographic. -/
def strLt : Str → Str → Bool
  | [], [] => false
  | [], _ :: _ => true
  | _ :: _, [] => false
  | a :: as, b :: bs => if a < b then true else if b < a then false else strLt as bs

end Go
