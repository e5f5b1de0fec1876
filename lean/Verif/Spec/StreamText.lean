import Verif.Spec.Utf8
import Verif.Spec.Codes
import Verif.Spec.Text

/-!
Specification vocabulary: where and how bytes are not text, and how that is written. Nothing of the model is used but
the type of bytes.
-/

namespace HttpIo.Spec

/-- `bs` can be continued to text. -/
def TextBegins (bs : HttpIo.Bytes) : Prop := ∃ more, IsText (bs ++ more)

/-- Where and how `l` is not text. Its first `n` bytes are text, and no more than these. Either the end of `l` cuts off a
character (`none`), or else the `j` bytes after these `n` are wrong (`some j`): they are the beginning of a character and
the next byte does not continue it, or there is one of them, which begins no character. -/
def TextFault (l : HttpIo.Bytes) (n : Nat) (k : Option Nat) : Prop :=
  n < l.length ∧ IsText (l.take n) ∧ (∀ m, n < m → m ≤ l.length → ¬ IsText (l.take m)) ∧
  match k with
  | none => TextBegins l
  | some j => (j = 1 ∨ 1 < j ∧ TextBegins (l.take (n + j))) ∧ ¬ TextBegins (l.take (n + j + 1))

/-- A number in decimal digits, without leading zeros. -/
def Decimal (ds : HttpIo.Bytes) (n : Nat) : Prop := Numeral 10 ds n ∧ (ds.head? = some 48 → ds = [48])

/-- How such a fault is written. -/
inductive FaultWords : Nat → Option Nat → HttpIo.Bytes → Prop
  | cut {n : Nat} {ds : HttpIo.Bytes} : Decimal ds n →
      FaultWords n none (utf8 "Utf8Error(Utf8Error { valid_up_to: " ++ ds ++ utf8 ", error_len: None })")
  | wrong {n j : Nat} {ds es : HttpIo.Bytes} : Decimal ds n → Decimal es j →
      FaultWords n (some j)
        (utf8 "Utf8Error(Utf8Error { valid_up_to: " ++ ds ++ utf8 ", error_len: Some(" ++ es ++ utf8 ") })")

end HttpIo.Spec
