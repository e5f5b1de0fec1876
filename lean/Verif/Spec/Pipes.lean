import Verif.Model.Pipes
import Verif.Spec.EndToEnd
import Verif.Spec.Peer

/-! Specification vocabulary for a client and a server that run at the same time, connected by pipes of bounded size. -/

namespace HttpIo.Spec

/-- A caller that makes a request over a connection, asks for the response and reads its body. -/
def Ask.run [CaseMap] (c : Cfg) {σ : Type} [LawfulReader σ] [ZeroReader σ] [Writer σ] (q : Ask) (s : σ) : Outcome × σ :=
  match HttpRequestBuilder.new c (HttpUrl.tryFrom q.url) (if q.put then .Put else .Get) with
  | .err e => (.failed e, s)
  | .panic => (.panicked, s)
  | .ok b =>
    match b.send s with
    | .error (e, s) => (.failed e, s)
    | .ok o => roundTrip q.writes q.sizes o

section
variable [CaseMap] {c : Cfg} {η ρ ε : Type} [LawfulReader ρ] [ZeroReader ρ]

/-- The server with one connection. -/
def serving (h : Handler c η Sock ρ ε) (errText : Err → Bytes) (self : η) (s : Sock) : Sock :=
  (h.serveOne errText (.ok s) self).2.1.getD s

end

/-- The client can make the request and the server can read it. -/
structure Ask.Readable (q : Ask) : Prop extends q.Proper where
  host_text : ∀ host, q.url.host = some host → IsText host ∧ ¬ HasCrLf host
  target : SendableTarget (requestTarget { q.url with query := none })
  sizes : Positive q.sizes

/-- The handler replies to the request: to GET, and to PUT when the body of the request consists of the bytes written.
For PUT it reads the body to its end: it sees the end of the stream, whatever sizes it reads with. -/
def Replies {c : Cfg} {η σ ρ ε : Type} [LawfulReader σ] [ZeroReader σ] (h : Handler c η σ ρ ε) (q : Ask) (self : η)
    (reply : Reply ε (ServerResponse c ρ)) : Prop :=
  let target := requestTarget { q.url with query := none }
  if q.put then
    ∀ body, Yields body (written q.writes).flatten → (h.put target body self).1 = reply ∧
      ∃ sizes, Positive sizes ∧ .ok [] ∈ (calls body sizes).1 ∧ (h.put target body self).2.1 = (calls body sizes).2
  else (h.get target self).1 = reply

/-- The handler replies to the request, as above, but reads as much or as little of the body as it likes, with any buffers
that are not empty. -/
def RepliesAnyhow {c : Cfg} {η σ ρ ε : Type} [LawfulReader σ] [ZeroReader σ] (h : Handler c η σ ρ ε) (q : Ask) (self : η)
    (reply : Reply ε (ServerResponse c ρ)) : Prop :=
  let target := requestTarget { q.url with query := none }
  if q.put then
    ∀ body, Yields body (written q.writes).flatten → (h.put target body self).1 = reply ∧
      ∃ sizes, Positive sizes ∧ (h.put target body self).2.1 = (calls body sizes).2
  else (h.get target self).1 = reply

/-- The handler replies to an upload without looking at it. -/
def RepliesUnread {c : Cfg} {η σ ρ ε : Type} [LawfulReader σ] [ZeroReader σ] (h : Handler c η σ ρ ε) (q : Ask) (self : η)
    (reply : Reply ε (ServerResponse c ρ)) : Prop :=
  let target := requestTarget { q.url with query := none }
  ∀ body, Yields body (written q.writes).flatten → (h.put target body self).1 = reply ∧ (h.put target body self).2.1 = body

/-- How many hexadecimal digits a number has. -/
def hexDigits (n : Nat) : Nat := if n < 16 then 1 else hexDigits (n / 16) + 1

/-- How many bytes the body of an upload takes: for each write that is not empty the length in hexadecimal, the data, and an
end of line after each, and at the end `0` and two ends of line. -/
def uploadSize (bufs : List HttpIo.Bytes) : Nat :=
  ((bufs.filter (· ≠ [])).map fun buf => hexDigits buf.length + 2 + buf.length + 2).sum + 5

/-- A response that can be sent: sendable headers, not claiming the chunked coding; a content length, if there is one,
is that of the body `bs`. -/
structure Answers {c : Cfg} {ρ : Type} [CaseMap] [LawfulReader ρ] [ZeroReader ρ] (r : ServerResponse c ρ) (bs : Bytes) :
    Prop where
  version : r.version = ⟨1, 1⟩
  sendable : SendableHeaders r.headers.entries
  plain : (utf8 "transfer-encoding", utf8 "chunked") ∉ r.headers.entries
  length : ∀ v, (utf8 "content-length", v) ∈ r.headers.entries → LengthText v bs.length
  body : ∃ t, Delivers c (LawfulReader.trace r.body) bs t ∧ Ended c t

/-- Both programs have finished. -/
def Done (client server : Sock → Sock) (req resp : Bytes) (x : Link) : Prop :=
  (x.clientEnd client resp).waits = none ∧ (x.serverEnd server req).waits = none

/-- Some program waits, and nothing can happen any more: not even what it waits for. -/
def Stuck (client server : Sock → Sock) (req resp : Bytes) (ku kd : Nat) (x : Link) : Prop :=
  ¬ Done client server req resp x ∧ ∀ y, ¬ Link.Step client server req resp ku kd x y

/-- A client that makes a request, and a server, connected by pipes that hold `ku` and `kd` bytes. In whatever order and
in whatever portions the bytes move, only a bounded number of steps is possible, and as long as one of the two has not
finished a step is possible. The client writes the bytes of the request and the server those of the response. The
outcome for the client is the response; if it reads on, it gets the body and its end. -/
def Completes [CaseMap] (c : Cfg) (q : Ask) (server : Sock → Sock) (status : HttpStatus) (headers : HttpHeaders) (bs : Bytes)
    (ku kd : Nat) : Prop :=
  let client := fun s : Sock => (q.run c s).2
  let resp := responseHead status.display headers.entries ++ bs
  ∃ req, q.Bytes req ∧ ∀ n x, Link.Run client server req resp ku kd n .init x →
    n ≤ 2 * (req.length + resp.length) + 1 ∧ ¬ Stuck client server req resp ku kd x ∧
    (x.clientEnd client resp).out = req ∧ (x.serverEnd server req).out = resp ∧
    ∃ rs, (q.run c (Sock.start resp true x.clientFed x.clientEnded x.clientRoom)).1 =
        .got (HttpStatus.fromCode status.toCode) headers rs ∧ (bs.length < q.sizes.length → ReadAll rs bs)

section
variable (client server : Sock → Sock) (req resp : HttpIo.Bytes) (ku kd : Nat)

/-- A step while the client, once it has what it wanted, keeps its end open and does not look at what arrives: nothing that is
on the way to it is dropped. (So does a program that holds a response or a pooled connection while it does something else; so
do the crate's tests, `src/client.rs:361-366` and `:441-451`, which wait for the server's thread before they read the body.) -/
def HeldStep (x y : Link) : Prop :=
  Link.Step client server req resp ku kd x y ∧ ((x.clientEnd client resp).waits = none → x.down ≤ y.down)

/-- Several such steps, counted. -/
inductive HeldRun : Nat → Link → Link → Prop
  | refl (x : Link) : HeldRun 0 x x
  | step {n : Nat} {x y z : Link} : HeldRun n x y → HeldStep client server req resp ku kd y z → HeldRun (n + 1) x z

end

/-- A client that makes a request, reads from the body of the response as often as it likes and then holds on to it, and a
server. In whatever order and in whatever portions the bytes move, the client gets the head of the response, the server
writes the response and finishes: only a bounded number of steps is possible, and as long as one of the two has not finished
a step is possible. -/
def ServedHolding [CaseMap] (c : Cfg) (q : Ask) (server : Sock → Sock) (status : HttpStatus) (headers : HttpHeaders)
    (bs : HttpIo.Bytes) (ku kd : Nat) : Prop :=
  let client := fun s : Sock => (q.run c s).2
  let resp := responseHead status.display headers.entries ++ bs
  ∃ req, q.Bytes req ∧ ∀ n x, HeldRun client server req resp ku kd n .init x →
    n ≤ 2 * (req.length + resp.length) + 1 ∧
    (Done client server req resp x ∨ ∃ y, HeldStep client server req resp ku kd x y) ∧
    (x.clientEnd client resp).out = req ∧ (x.serverEnd server req).out = resp ∧
    ∃ rs, (q.run c (Sock.start resp true x.clientFed x.clientEnded x.clientRoom)).1 =
        .got (HttpStatus.fromCode status.toCode) headers rs

section
variable [CaseMap] {c' : Cfg} {η ρ ε : Type} [LawfulReader ρ] [ZeroReader ρ]

/-- The handler replies to the request and leaves this many bytes of it unread: none of a GET, the last end of line of an upload
that it reads to its end, and all of the body of one that it does not look at. -/
inductive Treats (h : Handler c' η Sock ρ ε) (q : Ask) (self : η) (reply : Reply ε (ServerResponse c' ρ)) : Nat → Prop
  | get : q.put = false → Replies h q self reply → Treats h q self reply 0
  | reads : q.put = true → Replies h q self reply → Treats h q self reply 2
  | ignores : q.put = true → RepliesUnread h q self reply → Treats h q self reply (uploadSize (written q.writes))

end

end HttpIo.Spec
