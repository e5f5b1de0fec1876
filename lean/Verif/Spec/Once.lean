import Verif.Spec.Peer

/-! Specification vocabulary for what each request of a client adds to which connection. -/

namespace HttpIo.Spec

/-- What one request added: nothing (it got no connection), or some bytes to the connection of an address. Of all that,
what went to the connection of `a`. -/
def addedTo {α : Type} [DecidableEq α] (a : α) : List (Option (α × Bytes)) → HttpIo.Bytes
  | [] => []
  | none :: parts => addedTo a parts
  | some (a', p) :: parts => if a' = a then p ++ addedTo a parts else addedTo a parts

/-- The caller got a response. -/
def Responded (r : Res Outcome) : Prop := ∃ status headers reads, r = .ok (.got status headers reads)

end HttpIo.Spec
