import Verif.Model.Client
import Verif.Spec.Message

/-! Specification vocabulary for what a client sends when it hears something else. -/

namespace HttpIo.Spec

/-- `R` relates connections that take what is written to them in the same way: every call on related ones gives the same
result and leaves related ones. What there is to be read from them is of no importance to this: reading from either of them
leaves them related. -/
structure Unheard {σ τ : Type} [Reader σ] [Writer σ] [Reader τ] [Writer τ] (R : σ → τ → Prop) : Prop where
  write : ∀ s t buf, R s t → (FiniteWriter.write s buf).1 = (FiniteWriter.write t buf).1 ∧
    R (FiniteWriter.write s buf).2 (FiniteWriter.write t buf).2
  flush : ∀ s t, R s t → (FiniteWriter.flush s).1 = (FiniteWriter.flush t).1 ∧ R (FiniteWriter.flush s).2 (FiniteWriter.flush t).2
  writeAll : ∀ c s t buf, R s t → (Writer.writeAll c s buf).1 = (Writer.writeAll c t buf).1 ∧
    R (Writer.writeAll c s buf).2 (Writer.writeAll c t buf).2
  left : ∀ s t n, R s t → R (Reader.read s n).2 t
  right : ∀ s t n, R s t → R s (Reader.read t n).2

/-- The same addresses in the same order, with related connections. -/
inductive SamePool {α σ τ : Type} (R : σ → τ → Prop) : List (α × σ) → List (α × τ) → Prop
  | nil : SamePool R [] []
  | cons (a : α) {s : σ} {t : τ} {l : List (α × σ)} {m : List (α × τ)} : R s t → SamePool R l m →
      SamePool R ((a, s) :: l) ((a, t) :: m)

/-- Two networks in which the same addresses are found and connecting has the same outcomes, with related connections. -/
structure SameNetwork {ω α σ τ : Type} (R : σ → τ → Prop) (N : StreamConnector ω α σ) (N' : StreamConnector ω α τ) : Prop where
  lookup : ∀ url w, N.toStreamAddr url w = N'.toStreamAddr url w
  world : ∀ a w, (N.connect a w).2 = (N'.connect a w).2
  connect : ∀ a w, SameOutcome R (N.connect a w).1 (N'.connect a w).1

end HttpIo.Spec
