import Verif.Spec.Panic

/-! Specification vocabulary for header fields in another order. -/

namespace HttpIo.Spec

/-- A header field as it is sent: its name and value, and the lines that they are written on. -/
structure RawField where
  name : HttpIo.Bytes
  value : HttpIo.Bytes
  lines : List HttpIo.Bytes

/-- The first line does not begin with a blank, the others do; together they are `name: value`. -/
structure RawField.Good (f : RawField) : Prop where
  raw : ∀ l ∈ f.lines, RawLine l
  text : f.lines.flatten = f.name ++ [58, 32] ++ f.value
  name : (58 : UInt8) ∉ f.name
  folded : ∃ first conts, f.lines = first :: conts ∧ ¬ StartsBlank first ∧ ∀ l ∈ conts, StartsBlank l

/-- The same fields in another order, in which fields of the same name (compared in lower case) have kept theirs. -/
inductive Reordered [CaseMap] : List RawField → List RawField → Prop
  | refl (fs : List RawField) : Reordered fs fs
  | swap {fs pre post : List RawField} {f g : RawField} : CaseMap.lower f.name ≠ CaseMap.lower g.name →
      Reordered fs (pre ++ f :: g :: post) → Reordered fs (pre ++ g :: f :: post)

end HttpIo.Spec
