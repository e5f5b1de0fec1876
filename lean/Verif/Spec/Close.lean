import Verif.Spec.Text
import Verif.Spec.Codes

/-! What headers say about the connection. -/

namespace HttpIo.Spec

/-- A comma, a blank, or nothing. -/
def Boundary (b : Option UInt8) : Prop := b = none ∨ b = some 44 ∨ b = some 32 ∨ b = some 9

/-- These headers (names in lower case) say that the connection is closed after the message: `close` is among the options of
`Connection`, in any case (RFC 7230, section 6.1). -/
def SaysClose (headers : List (Bytes × Bytes)) : Prop :=
  ∃ v pre w post, (utf8 "connection", v) ∈ headers ∧ v = pre ++ w ++ post ∧ SameText w (utf8 "close") ∧ Boundary pre.getLast? ∧
    Boundary post.head?

end HttpIo.Spec
