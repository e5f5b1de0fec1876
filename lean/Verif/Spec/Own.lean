import Verif.Spec.EndToEnd
import Verif.Spec.Peer

/-! Specification vocabulary for the pooled client connected to the crate's own server. -/

namespace HttpIo.Spec

section
variable [CaseMap] {c : Cfg} {η τ ρ ε : Type} [LawfulReader τ] [ZeroReader τ] [LawfulWriter τ] [LawfulReader ρ] [ZeroReader ρ]

/-- The server's side of a connection whose other side is a client that sends `q` first. `peer w` is everything that the
client can ever read if it sends `w`. `serve_one` reads the request from one end of the connection, writes to it, and drops
it (`src/server.rs:199-210`). So once the client has sent the request, all that it can read, whatever else it sends, is
what `serve_one` wrote. (A client that has sent less than a request is not described.) -/
def ServesOnce (h : Handler c η τ ρ ε) (errText : Err → Bytes) (self : η) (Q : τ → Prop) (q : Ask) (peer : Bytes → List Ev) :
    Prop :=
  ∀ bytes, q.Bytes bytes → ∃ s rest s', Q s ∧ sent s = [] ∧ trace s = bytes.map .byte ++ rest ∧
    (h.serveOne errText (.ok s) self).2.1 = some s' ∧ ∀ more, peer (bytes ++ more) = (sent s').map .byte

/-- The server answers the request with this status, these headers and this body. -/
def AnswersWith (h : Handler c η τ ρ ε) (errText : Err → Bytes) (self : η) (q : Ask) (a : Answer) : Prop :=
  ∀ bytes s rest, q.Bytes bytes → trace s = bytes.map .byte ++ rest → ∃ r : ServerResponse c ρ,
    ((h.serveOneInner errText s self).1 = .ok r ∨ (h.serveOneInner errText s self).1 = .err r) ∧
    r.version = ⟨1, 1⟩ ∧ r.status = a.status ∧ r.headers = a.headers ∧
    ∃ t', Delivers c (trace r.body) a.body t' ∧ Ended c t'

/-- Its headers can be sent, and do not contradict its body: they do not claim the chunked coding, and if they declare a
length, it is that of the body. -/
structure Answer.Plain (a : Answer) : Prop where
  sendable : SendableHeaders a.headers.entries
  framed : FramedBy a.headers.entries .tilClose ∨ FramedBy a.headers.entries (.limited a.body.length)

end

end HttpIo.Spec
