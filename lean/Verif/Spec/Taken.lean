import Verif.Spec.Text

/-! Specification vocabulary for C128: what a read of a body takes beside what it gives. -/

namespace HttpIo.Spec

/-- What comes before the data in what a read takes: nothing, a size line with its CR LF, or the two
bytes that end a chunk and a size line. -/
inductive Overhead : Bytes → Prop
  | none : Overhead []
  | size {l : Bytes} {m : Nat} : UnsignedText 16 l m → Overhead (l ++ [13, 10])
  | both {x l : Bytes} {m : Nat} : x.length = 2 → UnsignedText 16 l m → Overhead (x ++ (l ++ [13, 10]))

end HttpIo.Spec
