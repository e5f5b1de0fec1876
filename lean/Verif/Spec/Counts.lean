import Verif.Model.Counts

/-! Streams that keep to the room they are given (for C168). -/

namespace HttpIo.Spec
open HttpIo

/-- From any of the states `P` on, the stream never says that it has read more than it was given room for. -/
structure ReadsHonestly {σ : Type} [RawReader σ] (P : σ → Prop) : Prop where
  stays : ∀ s buf, P s → P (rawRead s buf).2.2
  fits : ∀ s buf n, P s → (rawRead s buf).1 = .ok n → n ≤ buf.length

/-- From any of the states `P` on, the stream never says that it has written more than it was given. -/
structure WritesHonestly {σ : Type} [RawWriter σ] (P : σ → Prop) : Prop where
  stays : ∀ s buf, P s → P (rawWrite s buf).2
  fits : ∀ s buf n, P s → (rawWrite s buf).1 = .ok n → n ≤ buf.length

end HttpIo.Spec
