import Verif.Spec.Pipes
import Verif.Spec.Breaks

/-! Specification vocabulary for a server whose clients are slow. -/

namespace HttpIo.Spec

/-- `serve_one` has returned: it did not panic, and it does not wait for the connection. -/
def Returned (x : Res Unit × Option Sock) : Prop := x.1 ≠ .panic ∧ ∀ s, x.2 = some s → s.waits = none

/-- The loop gets to connection `k` (counted from zero): `serve_one` has returned for those before. `served` are the
results of the loop. -/
def Reached (served : List (Res Unit × Option Sock)) (k : Nat) : Prop := k < served.length ∧ ∀ x ∈ served.take k, Returned x

section
variable [CaseMap] {c : Cfg} {η ρ ε : Type} [LawfulReader ρ] [ZeroReader ρ]

/-- The client of the crate has sent all of a request and takes all of the answer: the server has got the bytes that the
client writes, and has room for those of its response, whatever state the handler is in. -/
def Prompt (h : Handler c η Sock ρ ε) (s : Sock) : Prop :=
  ∃ (c' : Cfg) (q : Ask) (req : Bytes) (fed room : List Nat), q.Readable ∧
    req = (q.run c' (Sock.start [] true [] false [])).2.out ∧
    (∀ x ∈ fed, 0 < x) ∧ (∀ x ∈ room, 0 < x) ∧ req.length ≤ fed.sum ∧ s = Sock.start req false fed false room ∧
    ∀ self, ∃ reply r bs, Replies h q self reply ∧ AnswerIs h reply r ∧ Answers r bs ∧
      (responseHead r.status.display r.headers.entries ++ bs).length ≤ room.sum

/-- A client that has begun a request and gone silent: what it has sent breaks off within the request line, within a
header line or between lines, and it does not close the connection. -/
def Silent (s : Sock) : Prop :=
  ∃ (sent part : Bytes) (fed room : List Nat), s = Sock.start (sent ++ part) false fed false room ∧ ¬ HasCrLf part ∧
    (sent = [] ∨ HeadBegun (fun l => ∃ m p a b, RequestLine l m p a b) sent)

end

end HttpIo.Spec
