import Verif.Spec.Depends
import Verif.Spec.Conventions

/-! Specification vocabulary for bodies that are framed in different ways. -/

namespace HttpIo.Spec

section
variable {c : Cfg} {η σ ρ ε : Type} [LawfulReader σ] [ZeroReader σ]

/-- What the handler does with a body depends on what can be read from it, and not on how it was framed either. -/
structure ByBytes (h : Handler c η σ ρ ε) : Prop where
  put : ∀ uri body body' self, trace body = trace body' →
    (h.put uri body self).1 = (h.put uri body' self).1 ∧ (h.put uri body self).2.2 = (h.put uri body' self).2.2
  post : ∀ uri body body' self, trace body = trace body' →
    (h.post uri body self).1 = (h.post uri body' self).1 ∧ (h.post uri body self).2.2 = (h.post uri body' self).2.2

end

/-- After a head with these headers the whole content `bs` of a response is there, as they announce it: with a length, in chunks, or
up to the end of the connection. -/
inductive WholeContent (c : Cfg) (entries : List (Bytes × Bytes)) (t : List Ev) (bs : Bytes) : Prop
  | delimited (rest : List Ev) : BodyThen c entries t bs rest → WholeContent c entries t bs
  | tilClose : FramedBy entries .tilClose → t = bs.map .byte → WholeContent c entries t bs

end HttpIo.Spec
