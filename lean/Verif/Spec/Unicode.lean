import Verif.Model.Text
import Verif.Spec.Codes
import Verif.Spec.Text
import Verif.Spec.Utf8

/-! What Unicode says of the characters whose upper or lower case is ASCII, and what that makes of a name. -/

namespace HttpIo.Spec

/-- The characters outside ASCII whose full upper case is ASCII, with it (UnicodeData.txt and SpecialCasing.txt): sharp
s, dotless i, long s, and the ligatures ff, fi, fl, ffi, ffl, long st, st. -/
def asciiUppers : List (Nat × Bytes) :=
  [(0xDF, utf8 "SS"), (0x131, utf8 "I"), (0x17F, utf8 "S"), (0xFB00, utf8 "FF"), (0xFB01, utf8 "FI"),
    (0xFB02, utf8 "FL"), (0xFB03, utf8 "FFI"), (0xFB04, utf8 "FFL"), (0xFB05, utf8 "ST"), (0xFB06, utf8 "ST")]

/-- The case mapping is Unicode's, as far as results in ASCII go. Upper case is taken character by character, `up` each.
So is lower case, `low` each, except in texts that hold a capital sigma (its lower case depends on what follows it); the
lower case of those is not ASCII either way. The kelvin sign is the one character outside ASCII whose lower case is. -/
structure UnicodeCase [CaseMap] (up low : Nat → Bytes) : Prop where
  upper_text : ∀ vs : List Nat, (∀ v ∈ vs, Scalar v) → CaseMap.upper (vs.flatMap utf8Char) = vs.flatMap up
  up_table : ∀ p ∈ asciiUppers, up p.1 = p.2
  up_other : ∀ v, Scalar v → 128 ≤ v → AsciiText (up v) → (v, up v) ∈ asciiUppers
  lower_text : ∀ vs : List Nat, (∀ v ∈ vs, Scalar v) → 0x3A3 ∉ vs →
    CaseMap.lower (vs.flatMap utf8Char) = vs.flatMap low
  lower_sigma : ∀ vs : List Nat, (∀ v ∈ vs, Scalar v) → 0x3A3 ∈ vs → ¬ AsciiText (CaseMap.lower (vs.flatMap utf8Char))
  low_kelvin : low 0x212A = utf8 "k"
  low_other : ∀ v, Scalar v → 128 ≤ v → AsciiText (low v) → v = 0x212A

/-- `s` spells the capitals `t`: letter by letter in either case, or with one of those characters in the place of its
upper case. -/
inductive UpperSpelling : Bytes → Bytes → Prop
  | nil : UpperSpelling [] []
  | letter {a b : UInt8} {s t : Bytes} : SameLetter a b → UpperSpelling s t → UpperSpelling (a :: s) (b :: t)
  | special {v : Nat} {w s t : Bytes} : (v, w) ∈ asciiUppers → UpperSpelling s t →
      UpperSpelling (utf8Char v ++ s) (w ++ t)

/-- `s` spells `t`: letter by letter in either case, or with the kelvin sign for a k. -/
inductive LowerSpelling : Bytes → Bytes → Prop
  | nil : LowerSpelling [] []
  | letter {a b : UInt8} {s t : Bytes} : SameLetter a b → LowerSpelling s t → LowerSpelling (a :: s) (b :: t)
  | kelvin {b : UInt8} {s t : Bytes} : SameLetter b 107 → LowerSpelling s t → LowerSpelling (utf8Char 0x212A ++ s) (b :: t)

end HttpIo.Spec
