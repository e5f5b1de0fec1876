import Verif.Model.Base

/-! UTF-8 as RFC 3629 defines it: by encoding scalar values. -/

namespace HttpIo.Spec

/-- Unicode scalar values: code points that are not surrogates. -/
def Scalar (v : Nat) : Prop := v < 0xD800 ∨ (0xE000 ≤ v ∧ v < 0x110000)

/-- RFC 3629 section 3. -/
def utf8Char (v : Nat) : Bytes :=
  if v < 0x80 then [UInt8.ofNat v]
  else if v < 0x800 then [UInt8.ofNat (0xC0 + v / 64), UInt8.ofNat (0x80 + v % 64)]
  else if v < 0x10000 then
    [UInt8.ofNat (0xE0 + v / 4096), UInt8.ofNat (0x80 + v / 64 % 64), UInt8.ofNat (0x80 + v % 64)]
  else
    [UInt8.ofNat (0xF0 + v / 262144), UInt8.ofNat (0x80 + v / 4096 % 64), UInt8.ofNat (0x80 + v / 64 % 64),
     UInt8.ofNat (0x80 + v % 64)]

/-- `bs` is the encoding of a sequence of scalar values: what a Rust `str` can hold. -/
def IsText (bs : Bytes) : Prop := ∃ vs : List Nat, (∀ v ∈ vs, Scalar v) ∧ bs = vs.flatMap utf8Char

end HttpIo.Spec
