import Verif.Spec.Server
import Verif.Spec.EndToEnd

/-! Specification vocabulary for what is left of a request in the connection when the server drops it. -/

namespace HttpIo.Spec

variable {c : Cfg} {η σ ρ ε ω : Type}

/-- The handler reads every body it is given until it sees the end, if the body has one. -/
def ReadsToEnd [LawfulReader σ] [ZeroReader σ] (h : Handler c η σ ρ ε) : Prop :=
  ∀ uri body self bs, Yields body bs →
    (∃ sizes, Positive sizes ∧ .ok [] ∈ (calls body sizes).1 ∧ (h.put uri body self).2.1 = (calls body sizes).2) ∧
    ∃ sizes, Positive sizes ∧ .ok [] ∈ (calls body sizes).1 ∧ (h.post uri body self).2.1 = (calls body sizes).2

/-- The connection is dropped with the bytes `left` not read from it; `idle` is what comes after the request. -/
def LeftUnread [LawfulReader ω] (dropped : Option (Duplex ω σ)) (left : Bytes) (idle : List Ev) : Prop :=
  ∃ d, dropped = some d ∧ LawfulReader.trace d.rd = left.map .byte ++ idle

end HttpIo.Spec
