import Verif.Go.Str
/-!
# What a path string means

Independent of the model's splitter and trimmer: white space is a list of code points and a
component is blank if it is a sequence of UTF-8 encoded white space code points.
-/

namespace Tricorder.Spec
open Go

/-- The Unicode white space code points. -/
def spacePoints : List Nat :=
  [0x9, 0xA, 0xB, 0xC, 0xD, 0x20, 0x85, 0xA0, 0x1680, 0x2000, 0x2001, 0x2002, 0x2003, 0x2004,
   0x2005, 0x2006, 0x2007, 0x2008, 0x2009, 0x200A, 0x2028, 0x2029, 0x202F, 0x205F, 0x3000]

/-- UTF-8 encoding of a code point below `U+10000`. -/
def encode (r : Nat) : Str :=
  if r < 0x80 then [UInt8.ofNat r]
  else if r < 0x800 then [UInt8.ofNat (0xC0 + r / 64), UInt8.ofNat (0x80 + r % 64)]
  else [UInt8.ofNat (0xE0 + r / 4096), UInt8.ofNat (0x80 + r / 64 % 64),
    UInt8.ofNat (0x80 + r % 64)]

/-- `s` consists of white space only. -/
def Blank (s : Str) : Prop := ∃ rs : List Nat, (∀ r ∈ rs, r ∈ spacePoints) ∧ s = rs.flatMap encode

/-- `parts` are the `/`-separated pieces of `path`. -/
def Pieces (path : Str) (parts : List Str) : Prop :=
  parts ≠ [] ∧ (∀ p ∈ parts, (47 : UInt8) ∉ p) ∧ List.intercalate [47] parts = path

/-- `comps` are the components of `path`: the pieces that are not blank, in order. -/
def Components (path : Str) (comps : List Str) : Prop :=
  ∃ parts, Pieces path parts ∧ ∃ keep : Str → Bool,
    (∀ p, keep p = true ↔ ¬ Blank p) ∧ comps = parts.filter keep

end Tricorder.Spec
