import Verif.Model.Pipes
import Verif.Spec.Server
import Verif.Spec.Message

/-! Specification vocabulary for a client that sends the head of a request and waits for an answer before it sends the body
(RFC 7231, 5.1.1: `Expect: 100-continue`). -/

namespace HttpIo.Spec

/-- The server's end of a connection on which the client has sent `bytes` and sends nothing more before it is answered. The
server has been given all of them, in portions of these sizes, and has not been relieved of any byte. -/
def holding (bytes : Bytes) (portions : List Nat) : Sock := .start bytes false portions false []

/-- The server waits for the client to take the first bytes of an answer. -/
def Answering (s : Sock) : Prop := ∃ buf, buf ≠ [] ∧ s.waits = some (.write buf)

/-- The server waits for more of the request, and has written nothing before. -/
def Listening (s : Sock) : Prop := ∃ n, 0 < n ∧ s.waits = some (.read n)

/-- The handler reads from the body of an upload before it replies: it makes at least one call of `read` with a buffer that is
not empty. -/
def ReadsFirst {c : Cfg} {η σ ρ ε : Type} [LawfulReader σ] [ZeroReader σ] (h : Handler c η σ ρ ε) (m : HttpMethod) (target : Bytes)
    (self : η) : Prop :=
  ∀ body, ∃ n sizes, 0 < n ∧ (handled h m target body self).2.1 = (calls body (n :: sizes)).2

/-- It replies without a look at the body. -/
def Ignores {c : Cfg} {η σ ρ ε : Type} (h : Handler c η σ ρ ε) (m : HttpMethod) (target : Bytes) (self : η) : Prop :=
  ∀ body, (handled h m target body self).2.1 = body

/-- A body is announced: chunked, or of a length that is not zero. -/
def Announced (entries : List (Bytes × Bytes)) : Prop :=
  (b!"transfer-encoding", b!"chunked") ∈ entries ∨ ∃ v n, (b!"content-length", v) ∈ entries ∧ LengthText v n ∧ 0 < n

end HttpIo.Spec
