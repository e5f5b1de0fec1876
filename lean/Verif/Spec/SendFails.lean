import Verif.Spec.Breaks
import Verif.Model.WriterLaws

/-! How a transport may refuse what is sent. -/

namespace HttpIo.Spec

/-- The error of `write_all` over a transport that takes nothing. -/
def tookNothing (c : Cfg) : Err := if c.std then .io .writeZero else .unexpectedEof

/-- A transport in the states `P`, which it does not leave, fails with no other errors than those in `F` when it is
written to or flushed. (`write_all` may also find that it takes nothing.) -/
structure FailsWith (c : Cfg) {σ : Type} [Writer σ] (P : σ → Prop) (F : Err → Prop) : Prop where
  write_next : ∀ s buf, P s → P (FiniteWriter.write s buf).2
  flush_next : ∀ s, P s → P (FiniteWriter.flush s).2
  writeAll_next : ∀ c s buf, P s → P (Writer.writeAll c s buf).2
  write_err : ∀ s buf e, P s → (FiniteWriter.write s buf).1 = .error e → F e
  flush_err : ∀ s e, P s → (FiniteWriter.flush s).1 = .error e → F e
  writeAll_err : ∀ s buf e, P s → (Writer.writeAll c s buf).1 = .error e → F e ∨ e = tookNothing c

end HttpIo.Spec
