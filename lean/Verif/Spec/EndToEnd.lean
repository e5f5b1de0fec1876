import Verif.Spec.Client
import Verif.Spec.Server

/-! Specification vocabulary for a client and a server connected to each other. -/

namespace HttpIo.Spec

/-- A header that a caller may add to a request without breaking it: it can be sent faithfully, it does not replace the
transfer coding, and if it is a content length it is a number. -/
structure Addable [CaseMap] (kv : Bytes × Bytes) : Prop where
  sendable : SendableHeader (CaseMap.lower kv.1, kv.2)
  coding : CaseMap.lower kv.1 ≠ utf8 "transfer-encoding"
  length : CaseMap.lower kv.1 = utf8 "content-length" → ∃ n, LengthText kv.2 n

/-- The methods for which the crate sends a body. -/
def Carries (m : HttpMethod) : Prop := m = .Delete ∨ m = .Post ∨ m = .Put

/-- The methods whose body the handler gets. -/
def Hands (m : HttpMethod) : Prop := m = .Post ∨ m = .Put

/-- What the server answers with if the handler's method gives `reply`: the response, or the error made into one. -/
def AnswerIs {c : Cfg} {η σ ρ ε : Type} (h : Handler c η σ ρ ε) (reply : Reply ε (ServerResponse c ρ))
    (r : ServerResponse c ρ) : Prop :=
  reply = .ok r ∨ ∃ e, reply = .err e ∧ r = h.into e

end HttpIo.Spec
