import Verif.Spec.Pipes

/-! Specification vocabulary for connections that are reset. -/

namespace HttpIo.Spec

/-- The server has dropped the connection although it has not taken every byte of the request from it, while the client still
waits for something of the answer. An operating system answers the rest of the request with a reset, on which the client's
system may throw away what the client has not read yet (RFC 7230, section 6.6). -/
def CutShort (client server : Sock → Sock) (req resp : HttpIo.Bytes) (x : Link) : Prop :=
  (x.serverEnd server req).waits = none ∧ x.serverFed.sum < req.length ∧
    (x.clientEnd client resp).waits ≠ none ∧ x.clientFed.sum < resp.length

/-- That does not happen, in whatever order and in whatever portions the bytes move. -/
def NeverCutShort [CaseMap] (c : Cfg) (q : Ask) (server : Sock → Sock) (status : HttpStatus) (headers : HttpHeaders) (bs : HttpIo.Bytes)
    (ku kd : Nat) : Prop :=
  let client := fun s : Sock => (q.run c s).2
  let resp := responseHead status.display headers.entries ++ bs
  ∃ req, q.Bytes req ∧ ∀ n x, Link.Run client server req resp ku kd n .init x →
    (x.clientEnd client resp).out = req ∧ (x.serverEnd server req).out = resp ∧ ¬ CutShort client server req resp x

end HttpIo.Spec
