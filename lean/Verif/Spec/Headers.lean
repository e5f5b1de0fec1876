import Verif.Spec.Stream
import Verif.Spec.Utf8

/-! Specification vocabulary for header blocks. -/

namespace HttpIo.Spec

/-- The line is `name: value`: the first `:` is followed by a space. -/
def HeaderLine (line name value : Bytes) : Prop := line = name ++ [58, 32] ++ value ∧ (58 : UInt8) ∉ name

/-- The line begins with a space or a tab. -/
def StartsBlank (l : Bytes) : Prop := ∃ b rest, l = b :: rest ∧ (b = 32 ∨ b = 9)

/-- `Folded raw logical`: unfolding the raw lines of a block. A line that begins with a blank continues the line
before it (the first line of a block has none before it). -/
inductive Folded : List Bytes → List Bytes → Prop
  | nil : Folded [] []
  | line {first : Bytes} {conts rest logical : List Bytes} : (∀ l ∈ conts, StartsBlank l) →
      (∀ l, rest.head? = some l → ¬ StartsBlank l) → Folded rest logical →
      Folded (first :: (conts ++ rest)) ((first ++ conts.flatten) :: logical)

/-- A physical line: not empty, no CR LF inside, valid text. -/
def RawLine (l : Bytes) : Prop := l ≠ [] ∧ ¬ HasCrLf l ∧ IsText l

/-- The bytes of a block: every line ended by CR LF, then an empty line. -/
def blockBytes (lines : List Bytes) : Bytes := lines.flatMap (· ++ [13, 10]) ++ [13, 10]

/-- In the history `hist` of (name, value) pairs, `v` is the value of the last pair whose name satisfies `p`. -/
def LastWith (p : Bytes → Prop) (hist : List (Bytes × Bytes)) (v : Bytes) : Prop :=
  ∃ pre k post, hist = pre ++ (k, v) :: post ∧ p k ∧ ∀ kv ∈ post, ¬ p kv.1

/-- Names in strictly increasing byte order (so each occurs once). -/
def SortedNames (entries : List (Bytes × Bytes)) : Prop := entries.Pairwise fun a b => a.1 < b.1

/-- The text of a header set: one line `name: value` per entry, in order. -/
def headerText (entries : List (Bytes × Bytes)) : Bytes :=
  entries.flatMap fun kv => kv.1 ++ [58, 32] ++ kv.2 ++ [13, 10]

/-- A header that can be sent faithfully: the name is text without `:` or CR LF that does not begin with a blank,
the value is text without CR LF. -/
def SendableHeader (kv : Bytes × Bytes) : Prop :=
  IsText kv.1 ∧ (58 : UInt8) ∉ kv.1 ∧ ¬ HasCrLf kv.1 ∧ ¬ StartsBlank kv.1 ∧ IsText kv.2 ∧ ¬ HasCrLf kv.2

end HttpIo.Spec
