import Verif.Spec.Message
import Verif.Spec.Body
import Verif.Model.Client

/-! Vocabulary for what is said over one connection. -/

namespace HttpIo.Spec

/-- A request as its sender means it. The pieces are those of its body that are not empty. -/
structure Meant where
  method : HttpMethod
  target : HttpIo.Bytes
  headers : List (HttpIo.Bytes × HttpIo.Bytes)
  pieces : List HttpIo.Bytes
deriving DecidableEq

/-- Requests are made on a connection one after the other, each of them sent whole. What happens between two of them may change
the connection, but sends nothing. -/
inductive Session (c : Cfg) {σ : Type} [LawfulWriter σ] : σ → List Meant → σ → Prop
  | done (s : σ) : Session c s [] s
  | request {τ : Type} {s d d' d'' : σ} {o o' : OutgoingRequest c σ} {rest : List Meant} (r : HttpRequest c τ) (calls : List WCall) :
      r.version = ⟨1, 1⟩ → (∀ buf ∈ written calls, buf.length < 2 ^ 64) → r.serialize (BufWriter.new c s) = .ok o →
      perform o calls = (true, o') → o'.complete = .ok d → LawfulWriter.sent d' = LawfulWriter.sent d → Session c d' rest d'' →
      Session c s (⟨r.method, r.uri, r.headers.entries, (written calls).filter (· ≠ [])⟩ :: rest) d''

/-- A request whose parts have none of the characters that separate them. -/
def Meant.Sendable [CaseMap] (m : Meant) : Prop := SendableTarget m.target ∧ SendableHeaders m.headers

end HttpIo.Spec
