import Verif.Model.Base

/-!
Specification vocabulary for text: what a numeral denotes, what "up to ASCII case" means, where a text's first
token ends. Nothing here refers to the model's functions.
-/

namespace HttpIo.Spec

/-- Byte `b` is the digit `d` in radix `r` (`0-9`, then letters of either case). -/
inductive DigitVal (r : Nat) : UInt8 → Nat → Prop
  | dec (d : Nat) : d < 10 → d < r → DigitVal r (UInt8.ofNat (48 + d)) d
  | lower (d : Nat) : 10 ≤ d → d < 36 → d < r → DigitVal r (UInt8.ofNat (97 + (d - 10))) d
  | upper (d : Nat) : 10 ≤ d → d < 36 → d < r → DigitVal r (UInt8.ofNat (65 + (d - 10))) d

/-- The byte string is a non-empty sequence of radix-`r` digits with value `n`. -/
inductive Numeral (r : Nat) : Bytes → Nat → Prop
  | one {b : UInt8} {d : Nat} : DigitVal r b d → Numeral r [b] d
  | snoc {ds : Bytes} {n : Nat} {b : UInt8} {d : Nat} :
      Numeral r ds n → DigitVal r b d → Numeral r (ds ++ [b]) (n * r + d)

/-- A numeral with an optional leading `+`. -/
def UnsignedText (r : Nat) (t : Bytes) (n : Nat) : Prop :=
  Numeral r t n ∨ ∃ ds, t = 0x2B :: ds ∧ Numeral r ds n

/-- `t` is the part of `s` before the first space or tab (all of `s` if there is none). -/
def FirstToken (s t : Bytes) : Prop :=
  (∀ b ∈ t, b ≠ 0x20 ∧ b ≠ 0x09) ∧
    (s = t ∨ ∃ b rest, s = t ++ b :: rest ∧ (b = 0x20 ∨ b = 0x09))

/-- Two bytes are the same ASCII character up to case. -/
def SameLetter (a b : UInt8) : Prop :=
  a = b ∨ (∃ k, k < 26 ∧ a = UInt8.ofNat (65 + k) ∧ b = UInt8.ofNat (97 + k)) ∨
    (∃ k, k < 26 ∧ b = UInt8.ofNat (65 + k) ∧ a = UInt8.ofNat (97 + k))

/-- Equal up to ASCII case. -/
inductive SameText : Bytes → Bytes → Prop
  | nil : SameText [] []
  | cons {a b : UInt8} {s t : Bytes} : SameLetter a b → SameText s t → SameText (a :: s) (b :: t)

/-- All bytes are below 0x80. -/
def AsciiText (s : Bytes) : Prop := ∀ b ∈ s, b.toNat < 128

end HttpIo.Spec
