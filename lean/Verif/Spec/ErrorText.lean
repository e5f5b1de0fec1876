import Verif.Model.ErrorText
import Verif.Spec.Codes
import Verif.Spec.Text
import Verif.Spec.Headers

/-!
Specification vocabulary for the texts of errors. Of the model only the type `Said` (an error with its payload) is used.
-/

namespace HttpIo.Spec

/-- `u` is `t` with ASCII letters made capital. -/
def Capitals (t u : Bytes) : Prop := SameText t u ∧ ∀ b ∈ u, ¬ (97 ≤ b.toNat ∧ b.toNat ≤ 122)

/-- How one ASCII byte is written inside double quotes. -/
inductive QuotedByte : UInt8 → Bytes → Prop
  | plain {b : UInt8} : 32 ≤ b.toNat → b.toNat < 127 → b ≠ 34 → b ≠ 92 → QuotedByte b [b]
  | mark {b : UInt8} : b = 34 ∨ b = 92 → QuotedByte b [92, b]
  | nul : QuotedByte 0 [92, 48]
  | tab : QuotedByte 9 [92, 116]
  | lf : QuotedByte 10 [92, 110]
  | cr : QuotedByte 13 [92, 114]
  | control {b : UInt8} {ds : Bytes} : (b.toNat < 32 ∧ b ≠ 0 ∧ b ≠ 9 ∧ b ≠ 10 ∧ b ≠ 13) ∨ b = 127 →
      Numeral 16 ds b.toNat → ds.length = (if b.toNat < 16 then 1 else 2) → (∀ d ∈ ds, ¬ (65 ≤ d.toNat ∧ d.toNat ≤ 90)) →
      QuotedByte b (utf8 "\\u{" ++ ds ++ utf8 "}")

/-- How ASCII text is written inside double quotes. -/
inductive Quoted : Bytes → Bytes → Prop
  | nil : Quoted [] []
  | cons {b : UInt8} {s q t : Bytes} : QuotedByte b q → Quoted s t → Quoted (b :: s) (q ++ t)

/-- How an error is written: the name of its kind, and its payload in quotes. -/
inductive Words : Said → Bytes → Prop
  | parse {t q : Bytes} : Quoted t q → Words (.parseError t) (utf8 "ParseError(\"" ++ q ++ utf8 "\")")
  | eof {t q : Bytes} : Quoted t q → Words (.unexpectedEof t) (utf8 "UnexpectedEof(\"" ++ q ++ utf8 "\")")
  | empty : Words (.parseInt .Empty) (utf8 "ParseIntError(ParseIntError { kind: Empty })")
  | digit : Words (.parseInt .InvalidDigit) (utf8 "ParseIntError(ParseIntError { kind: InvalidDigit })")
  | large : Words (.parseInt .PosOverflow) (utf8 "ParseIntError(ParseIntError { kind: PosOverflow })")

/-- Decimal digits, perhaps none, and their value. -/
def Digits (ds : Bytes) (n : Nat) : Prop := ds = [] ∧ n = 0 ∨ Numeral 10 ds n

/-- `w` is `v` without the plus sign that it may begin with. -/
def WithoutPlus (v w : Bytes) : Prop := v = 43 :: w ∨ v = w ∧ ∀ r, v ≠ 43 :: r

/-- Why `v` is not a number up to `max`. What comes first decides: a byte that is no digit, or the digit that makes the number
too large. -/
inductive NumberFault (max : Nat) : Bytes → IntKind → Prop
  | empty : NumberFault max [] .Empty
  | sign : NumberFault max [43] .InvalidDigit
  | digit {v ds rest : Bytes} {b : UInt8} {n : Nat} : WithoutPlus v (ds ++ b :: rest) → Digits ds n → n ≤ max →
      (∀ d, ¬ DigitVal 10 b d) → NumberFault max v .InvalidDigit
  | large {v ds rest : Bytes} {b : UInt8} {n m : Nat} : WithoutPlus v (ds ++ b :: rest) → Digits ds n → n ≤ max →
      Numeral 10 (ds ++ [b]) m → max < m → NumberFault max v .PosOverflow

/-- Printable ASCII: in particular neither CR nor LF. -/
def Printable (s : Bytes) : Prop := ∀ b ∈ s, 32 ≤ b.toNat ∧ b.toNat < 127

/-- Everything that can be said about the head with request line `line` and header lines `logical`, and which part of
the head it repeats. `up` turns text into capitals. -/
inductive Complaint (up : Bytes → Bytes) (line : Bytes) (logical : List Bytes) : Said → Prop
  /-- Something is missing: nothing is repeated. -/
  | missing {what : String} :
      what ∈ ["Expected token", "Expected digit", "Expected HTTP/", "Expected .", "Expected : ", "Expected ':'"] →
      Complaint up line logical (.unexpectedEof (utf8 what))
  /-- A number is wrong: nothing is repeated. -/
  | number (k : IntKind) : Complaint up line logical (.parseInt k)
  /-- The first word of the request line is repeated, in capitals. -/
  | method {tok : Bytes} : FirstToken line tok → Complaint up line logical (.parseError (utf8 "Unknown method " ++ up tok))
  /-- At most five bytes of the request line are repeated. -/
  | version {w : Bytes} : w <:+: line → w.length ≤ 5 →
      Complaint up line logical (.parseError (utf8 "Expected 'HTTP/', got '" ++ w ++ utf8 "'"))
  /-- At most one byte of the request line is repeated. -/
  | dot {w : Bytes} : w <:+: line → w.length ≤ 1 →
      Complaint up line logical (.parseError (utf8 "Expected '.', got '" ++ w ++ utf8 "'"))
  /-- A whole header line is repeated. -/
  | field {l : Bytes} : l ∈ logical → 58 ∉ l →
      Complaint up line logical (.parseError (utf8 "Expected ':' in '" ++ l ++ utf8 "'"))
  /-- At most two bytes of a header line are repeated. -/
  | colon {l w : Bytes} : l ∈ logical → w <:+: l → w.length ≤ 2 →
      Complaint up line logical (.parseError (utf8 "Expected ': ', got '" ++ w ++ utf8 "'"))

end HttpIo.Spec
