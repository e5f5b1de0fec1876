import Verif.Spec.Service

/-! Specification of a server whose clients may go away before they have taken the answers. -/

namespace HttpIo.Spec

/-- The turn that was to come to the first came to the second: what was sent is a beginning of what was to be sent, success is only
reported of what was to succeed and was sent whole, and it panics exactly if it was to. -/
inductive CameTo : Res Unit × Option HttpIo.Bytes → Res Unit × Option HttpIo.Bytes → Prop
  | none {res} : CameTo (res, none) (res, none)
  | taken {res res' out p} : p <+: out → (res' = .ok () → res = .ok () ∧ p = out) → (res' = .panic ↔ res = .panic) →
      CameTo (res, some out) (res', some p)

/-- The same turn by turn. -/
inductive AllCameTo : List (Res Unit × Option HttpIo.Bytes) → List (Res Unit × Option HttpIo.Bytes) → Prop
  | nil : AllCameTo [] []
  | cons {x y xs ys} : CameTo x y → AllCameTo xs ys → AllCameTo (x :: xs) (y :: ys)

end HttpIo.Spec
