import Verif.Spec.Body

/-! Specification vocabulary for comparing the two builds of the crate. -/

namespace HttpIo.Spec

/-- No call is going to be interrupted. (The `std` build repeats interrupted calls; the other one has no such notion.) -/
def Uninterrupted (t : List Ev) : Prop := Ev.fault (.io .interrupted) ∉ t

/-- Reading either to the end gives the same bytes, and then end of stream on both, or an error on both. -/
def ReadAlike {α β : Type} [Reader α] [Reader β] (a : α) (b : β) : Prop :=
  ∃ bs, (Yields a bs ∧ Yields b bs) ∨ ∃ e e', FailsAfter a bs e ∧ FailsAfter b bs e'

end HttpIo.Spec
