import Verif.Model.Reader

/-! Specification vocabulary for C125: with which calls a message is read from the transport. -/

namespace HttpIo.Spec
open HttpIo

/-- A transport, and the sizes of the buffers it was asked to fill. -/
structure Metered (σ : Type) where
  inner : σ
  asked : List Nat
deriving DecidableEq

instance {σ : Type} [LawfulReader σ] : LawfulReader (Metered σ) where
  read s n := ((read s.inner n).1, ⟨(read s.inner n).2, s.asked ++ [n]⟩)
  trace s := LawfulReader.trace s.inner
  read_step s n hn := LawfulReader.read_step s.inner n hn

end HttpIo.Spec
