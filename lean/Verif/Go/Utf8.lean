import Verif.Go.Str
/-!
# UTF-8 decoding and `strings.TrimSpace`

Follows the Go standard library: `utf8.DecodeRune`, `utf8.DecodeLastRune`,
`unicode.IsSpace`, `strings.TrimLeftFunc`, `strings.TrimRightFunc`, `strings.TrimSpace`.
Strings are arbitrary bytes; an invalid byte decodes as `U+FFFD` of width 1.
-/

namespace Go

/-- continuation byte `10xxxxxx` -/
def isCont (b : UInt8) : Bool := decide (0x80 ≤ b) && decide (b ≤ 0xBF)

/-- `utf8.DecodeRuneInString(s)`: the first rune and its width; width 0 only for the empty
string. -/
def decodeRune : Str → Nat × Nat
  | [] => (0xFFFD, 0)
  | b0 :: rest =>
    if b0 < 0x80 then (b0.toNat, 1)
    else if b0 < 0xC2 then (0xFFFD, 1)
    else if b0 < 0xE0 then
      match rest with
      | b1 :: _ =>
        if isCont b1 then ((b0.toNat - 0xC0) * 64 + (b1.toNat - 0x80), 2) else (0xFFFD, 1)
      | _ => (0xFFFD, 1)
    else if b0 < 0xF0 then
      match rest with
      | b1 :: b2 :: _ =>
        if isCont b1 && isCont b2 && !(b0 == 0xE0 && decide (b1 < 0xA0))
            && !(b0 == 0xED && decide (0x9F < b1)) then
          ((b0.toNat - 0xE0) * 4096 + (b1.toNat - 0x80) * 64 + (b2.toNat - 0x80), 3)
        else (0xFFFD, 1)
      | _ => (0xFFFD, 1)
    else if b0 < 0xF5 then
      match rest with
      | b1 :: b2 :: b3 :: _ =>
        if isCont b1 && isCont b2 && isCont b3 && !(b0 == 0xF0 && decide (b1 < 0x90))
            && !(b0 == 0xF4 && decide (0x8F < b1)) then
          ((b0.toNat - 0xF0) * 262144 + (b1.toNat - 0x80) * 4096 + (b2.toNat - 0x80) * 64
            + (b3.toNat - 0x80), 4)
        else (0xFFFD, 1)
      | _ => (0xFFFD, 1)
    else (0xFFFD, 1)

/-- `unicode.IsSpace(r)`: the Latin-1 spaces and the `White_Space` property. -/
def isSpace (r : Nat) : Bool :=
  (9 ≤ r && r ≤ 13) || r == 0x20 || r == 0x85 || r == 0xA0 || r == 0x1680 ||
  (0x2000 ≤ r && r ≤ 0x200A) || r == 0x2028 || r == 0x2029 || r == 0x202F || r == 0x205F ||
  r == 0x3000

/-- `utf8.DecodeLastRuneInString(s)`: looks back at most four bytes for a byte that starts a
rune; the rune must end exactly at the end of the string. `k` is the number of bytes
looked back so far. -/
def decodeLastAux (s : Str) : Nat → Nat → Nat × Nat
  | 0, _ => (0xFFFD, 1)
  | fuel + 1, k =>
    let tail := s.drop (s.length - k)
    match tail with
    | [] => (0xFFFD, 1)
    | b :: _ =>
      if isCont b && decide (k < s.length) then decodeLastAux s fuel (k + 1)
      else
        let (r, n) := decodeRune tail
        if n = k then (r, n) else (0xFFFD, 1)

def decodeLastRune (s : Str) : Nat × Nat :=
  if s = [] then (0xFFFD, 0) else decodeLastAux s 4 1

/-- `strings.TrimLeftFunc(s, unicode.IsSpace)`; `fuel` bounds the number of runes, and
`s.length` always suffices. -/
def trimLeftAux : Nat → Str → Str
  | 0, s => s
  | fuel + 1, s =>
    if s = [] then s
    else
      let (r, n) := decodeRune s
      if isSpace r then trimLeftAux fuel (s.drop n) else s

/-- `strings.TrimRightFunc(s, unicode.IsSpace)` -/
def trimRightAux : Nat → Str → Str
  | 0, s => s
  | fuel + 1, s =>
    if s = [] then s
    else
      let (r, n) := decodeLastRune s
      if isSpace r then trimRightAux fuel (s.take (s.length - n)) else s

/-- `strings.TrimSpace(s)` -/
def trimSpace (s : Str) : Str :=
  let l := trimLeftAux s.length s
  trimRightAux l.length l

end Go
