import Verif.Model.Http
import Verif.Spec.Decimal
/-!
# JSON texts (RFC 8259)

A grammar of JSON, over bytes, with the value that a text has; independent of the code that writes it.
-/

namespace Tricorder.Spec
open Go _root_.Spec

/-- a value of JSON; strings are sequences of code points -/
inductive JVal where
  | null
  | bool (b : Bool)
  | num (q : ℚ)
  | str (cs : List ℕ)
  | arr (l : List JVal)
  | obj (l : List (List ℕ × JVal))

/-! ### characters -/

/-- a Unicode scalar value: a code point that is not a surrogate -/
def ScalarValue (c : ℕ) : Prop := c < 0xD800 ∨ 0xE000 ≤ c ∧ c < 0x110000

/-- the UTF-8 encoding of a code point (RFC 3629) -/
def utf8 (c : ℕ) : Str :=
  if c < 0x80 then [UInt8.ofNat c]
  else if c < 0x800 then [UInt8.ofNat (0xC0 + c / 64), UInt8.ofNat (0x80 + c % 64)]
  else if c < 0x10000 then [UInt8.ofNat (0xE0 + c / 4096), UInt8.ofNat (0x80 + c / 64 % 64), UInt8.ofNat (0x80 + c % 64)]
  else [UInt8.ofNat (0xF0 + c / 262144), UInt8.ofNat (0x80 + c / 4096 % 64), UInt8.ofNat (0x80 + c / 64 % 64),
    UInt8.ofNat (0x80 + c % 64)]

/-- the value of a hexadecimal digit -/
def hexDigitVal (b : UInt8) : Option ℕ :=
  if 48 ≤ b.toNat ∧ b.toNat ≤ 57 then some (b.toNat - 48)
  else if 97 ≤ b.toNat ∧ b.toNat ≤ 102 then some (b.toNat - 87)
  else if 65 ≤ b.toNat ∧ b.toNat ≤ 70 then some (b.toNat - 55)
  else none

/-- four hexadecimal digits -/
def Hex4 (h : Str) (n : ℕ) : Prop :=
  ∃ a b c d x y z u, h = [a, b, c, d] ∧ hexDigitVal a = some x ∧ hexDigitVal b = some y ∧ hexDigitVal c = some z ∧ hexDigitVal d = some u ∧
    n = ((x * 16 + y) * 16 + z) * 16 + u

/-- the characters after a backslash, other than `u`, and what they stand for -/
def escapes : List (UInt8 × ℕ) := [(34, 34), (92, 92), (47, 47), (98, 8), (102, 12), (110, 10), (114, 13), (116, 9)]

/-- what is between the quotes of a string -/
inductive Chars : Str → List ℕ → Prop where
  | nil : Chars [] []
  | plain {c s cs} : ScalarValue c → 0x20 ≤ c → c ≠ 0x22 → c ≠ 0x5C → Chars s cs → Chars (utf8 c ++ s) (c :: cs)
  | esc {e c s cs} : (e, c) ∈ escapes → Chars s cs → Chars (92 :: e :: s) (c :: cs)
  | hex {h c s cs} : Hex4 h c → ScalarValue c → Chars s cs → Chars (92 :: 117 :: (h ++ s)) (c :: cs)
  | pair {h l a b s cs} : Hex4 h a → Hex4 l b → 0xD800 ≤ a → a < 0xDC00 → 0xDC00 ≤ b → b < 0xE000 → Chars s cs →
      Chars (92 :: 117 :: (h ++ 92 :: 117 :: (l ++ s))) ((0x10000 + (a - 0xD800) * 1024 + (b - 0xDC00)) :: cs)

/-! ### numbers -/

/-- the digits after the point, if any -/
def Fraction (s : Str) (q : ℚ) : Prop :=
  s = [] ∧ q = 0 ∨ ∃ ds, s = 46 :: ds ∧ ds ≠ [] ∧ AllDigits ds ∧ q = numVal ds / 10 ^ ds.length

/-- the exponent, if any -/
def Exponent (s : Str) (e : ℤ) : Prop :=
  s = [] ∧ e = 0 ∨ ∃ m sg ds, s = m :: (sg ++ ds) ∧ (m = 101 ∨ m = 69) ∧ ds ≠ [] ∧ AllDigits ds ∧
    ((sg = [] ∨ sg = [43]) ∧ e = numVal ds ∨ sg = [45] ∧ e = -numVal ds)

/-- sign, integer without leading zeros, fraction, exponent -/
def Number (s : Str) (q : ℚ) : Prop :=
  ∃ sg i f x fr e, s = sg ++ (i ++ (f ++ x)) ∧ AllDigits i ∧ NoLeadingZero i ∧ Fraction f fr ∧ Exponent x e ∧
    (sg = [] ∧ q = (numVal i + fr) * 10 ^ e ∨ sg = [45] ∧ q = -((numVal i + fr) * 10 ^ e))

/-! ### texts -/

/-- white space -/
def White (s : Str) : Prop := ∀ b ∈ s, b = 32 ∨ b = 9 ∨ b = 10 ∨ b = 13

/-- an element of an array, with white space around it -/
structure Elem where
  before : Str
  text : Str
  after : Str
  val : JVal

def Elem.all (x : Elem) : Str := x.before ++ (x.text ++ x.after)

/-- a member of an object: name, colon, value, with white space around them -/
structure Member where
  before : Str
  name : Str
  colon1 : Str
  colon2 : Str
  text : Str
  after : Str
  key : List ℕ
  val : JVal

def Member.all (x : Member) : Str :=
  x.before ++ (34 :: (x.name ++ 34 :: (x.colon1 ++ 58 :: (x.colon2 ++ (x.text ++ x.after)))))

/-- a value, without white space around it -/
inductive ValText : Str → JVal → Prop where
  | null : ValText (lit "null") .null
  | true : ValText (lit "true") (.bool true)
  | false : ValText (lit "false") (.bool false)
  | num {s q} : Number s q → ValText s (.num q)
  | str {s cs} : Chars s cs → ValText (34 :: (s ++ [34])) (.str cs)
  | empty {s} : White s → ValText (91 :: (s ++ [93])) (.arr [])
  | arr {l : List Elem} : l ≠ [] → (∀ x ∈ l, White x.before ∧ White x.after) → (∀ x ∈ l, ValText x.text x.val) →
      ValText (91 :: (List.intercalate [44] (l.map Elem.all) ++ [93])) (.arr (l.map Elem.val))
  | bare {s} : White s → ValText (123 :: (s ++ [125])) (.obj [])
  | obj {l : List Member} : l ≠ [] →
      (∀ x ∈ l, White x.before ∧ White x.colon1 ∧ White x.colon2 ∧ White x.after ∧ Chars x.name x.key) →
      (∀ x ∈ l, ValText x.text x.val) →
      ValText (123 :: (List.intercalate [44] (l.map Member.all) ++ [125])) (.obj (l.map fun x => (x.key, x.val)))

/-- a JSON text and its value -/
def JsonText (s : Str) (v : JVal) : Prop := ∃ a t b, s = a ++ (t ++ b) ∧ White a ∧ White b ∧ ValText t v

/-! ### what a document means -/

/-- the code points of a Go string; bytes that are not UTF-8 count as U+FFFD -/
inductive Runes : Str → List ℕ → Prop where
  | nil : Runes [] []
  | rune {c s cs} : ScalarValue c → Runes s cs → Runes (utf8 c ++ s) (c :: cs)
  | bad {b s cs} : (∀ c s', ScalarValue c → b :: s ≠ utf8 c ++ s') → Runes s cs → Runes (b :: s) (0xFFFD :: cs)

/-- the value of a digit of base64 (RFC 4648) -/
def digit64 (c : ℕ) : Option ℕ :=
  if 65 ≤ c ∧ c ≤ 90 then some (c - 65)
  else if 97 ≤ c ∧ c ≤ 122 then some (c - 97 + 26)
  else if 48 ≤ c ∧ c ≤ 57 then some (c - 48 + 52)
  else if c = 43 then some 62
  else if c = 47 then some 63
  else none

/-- `cs` is `l` in base64, with padding -/
inductive Base64 : List ℕ → List ℕ → Prop where
  | nil : Base64 [] []
  | one {a c d x y} : digit64 c = some x → digit64 d = some y → x * 64 + y = a * 16 → Base64 [a] [c, d, 61, 61]
  | two {a b c d e x y z} : digit64 c = some x → digit64 d = some y → digit64 e = some z →
      (x * 64 + y) * 64 + z = (a * 256 + b) * 4 → Base64 [a, b] [c, d, e, 61]
  | three {a b n c d e g x y z u l cs} : digit64 c = some x → digit64 d = some y → digit64 e = some z → digit64 g = some u →
      ((x * 64 + y) * 64 + z) * 64 + u = (a * 256 + b) * 256 + n → Base64 l cs → Base64 (a :: b :: n :: l) (c :: d :: e :: g :: cs)

/-- the format of a float -/
def fmtOf (small : Bool) : Fmt := if small then b32 else b64

/-- a finite number of the format -/
def OfFormat (small : Bool) (x : Fl) : Prop := x = .negZero ∨ ∃ q, x = .fin q ∧ rnd (fmtOf small) q = x

/-- `x` is the float nearest to `q`; a negative zero is just a zero here -/
def ReadsAs (small : Bool) (q : ℚ) (x : Fl) : Prop := rnd (fmtOf small) q = x ∨ x = .negZero ∧ q = 0

/-- how `encoding/json` writes floating point numbers: as a number to which, if it is of the format, it is the nearest one -/
def NumLaw (num : Bool → Fl → Str) : Prop :=
  ∀ small x, x.isInf = false → x.isNaN = false → ∃ q, Number (num small x) q ∧ (OfFormat small x → ReadsAs small q x)

/-- the bytes of a text in UTF-8 -/
def Utf8Text (s : Str) : Prop := ∃ cs : List ℕ, (∀ c ∈ cs, ScalarValue c) ∧ s = cs.flatMap utf8

/-- no `<`, `>`, `&`, and of the control characters only tab and newline -/
def Harmless (s : Str) : Prop := ∀ b ∈ s, b ≠ 60 ∧ b ≠ 62 ∧ b ≠ 38 ∧ (32 ≤ b ∨ b = 9 ∨ b = 10)

mutual
/-- the JSON value of a document.  A float is given by a number that is nearest to it. -/
def Means : Json → JVal → Prop
  | .null, v => v = .null
  | .bool b, v => v = .bool b
  | .int x, v => v = .num x
  | .num small x, v => ∃ q, v = .num q ∧ (OfFormat small x → ReadsAs small q x)
  | .str s, v => ∃ cs, v = .str cs ∧ Runes s cs
  | .bytes l, v => ∃ cs, v = .str cs ∧ ((∀ x ∈ l, 0 ≤ x ∧ x < 256) → Base64 (l.map Int.toNat) cs)
  | .arr l, v => ∃ vs, v = .arr vs ∧ MeanAll l vs
  | .obj l, v => ∃ vs, v = .obj vs ∧ MeanFields l vs
def MeanAll : List Json → List JVal → Prop
  | [], vs => vs = []
  | j :: l, vs => ∃ v vs', vs = v :: vs' ∧ Means j v ∧ MeanAll l vs'
def MeanFields : List (Str × Json) → List (List ℕ × JVal) → Prop
  | [], vs => vs = []
  | (k, j) :: l, vs => ∃ cs v vs', vs = (cs, v) :: vs' ∧ Runes k cs ∧ Means j v ∧ MeanFields l vs'
end

end Tricorder.Spec
