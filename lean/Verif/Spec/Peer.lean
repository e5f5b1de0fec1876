import Verif.Spec.Client
import Verif.Spec.Message
import Verif.Spec.Url

/-! Specification vocabulary for conversations over one connection: what the peer sends depends on what it received. -/

namespace HttpIo.Spec

/-- A connection to a peer. Ghosts: `peer s w` is everything the peer ever sends (as events of the receiving half) if
it receives exactly `w`; `taken` is what was already read. So what is pending depends on what is on the wire. Reading
does not change what was sent; writing does not take anything. -/
class PeerSocket (σ : Type) extends LawfulReader σ, LawfulWriter σ where
  peer : σ → Bytes → List Ev
  taken : σ → List Ev
  heard : ∀ s, taken s ++ LawfulReader.trace s = peer s (LawfulWriter.wire s)
  read_wire : ∀ s n, LawfulWriter.wire (read s n).2 = LawfulWriter.wire s
  read_sent : ∀ s n, LawfulWriter.sent (read s n).2 = LawfulWriter.sent s
  read_peer : ∀ s n, peer (read s n).2 = peer s
  write_peer : ∀ s buf, peer (write s buf).2 = peer s
  flush_peer : ∀ s, peer (flush s).2 = peer s
  writeAll_peer : ∀ c s buf, peer (writeAll c s buf).2 = peer s
  write_taken : ∀ s buf, taken (write s buf).2 = taken s
  flush_taken : ∀ s, taken (flush s).2 = taken s
  writeAll_taken : ∀ c s buf, taken (writeAll c s buf).2 = taken s

/-- What a caller makes of a request. -/
inductive Outcome where
  | unsent
  | failed (e : Err)
  | panicked
  | got (status : HttpStatus) (headers : HttpHeaders) (reads : List (Except Err Bytes))
deriving DecidableEq

/-- A caller that makes these calls on the outgoing request, asks for the response if they succeed, and then reads from
its body with these buffer sizes. Also: the connection as it is left. -/
def roundTrip [CaseMap] {c : Cfg} {σ : Type} [LawfulReader σ] [ZeroReader σ] [Writer σ] (writes : List WCall)
    (sizes : List Nat) (o : OutgoingRequest c σ) : Outcome × σ :=
  match perform o writes with
  | (false, o') => (.unsent, o'.dropped)
  | (true, o') =>
    match o'.finish with
    | (.err e, s) => (.failed e, s)
    | (.panic, s) => (.panicked, s)
    | (.ok r, s) =>
      (.got r.status r.headers (calls r.body sizes).1, ((calls r.body sizes).2.under.map (·.inner)).getD s)

/-- A request and how its response is read. -/
structure Ask where
  put : Bool
  url : Url
  writes : List WCall
  sizes : List Nat

/-- As a use of a client. -/
def Ask.exchange [CaseMap] {c : Cfg} {σ : Type} [LawfulReader σ] [ZeroReader σ] [Writer σ] (q : Ask) :
    Exchange c σ Outcome := ⟨q.put, some q.url, roundTrip q.writes q.sizes⟩

/-- The request can be made: an http(s) URL with a host; a GET writes nothing. -/
structure Ask.Proper (q : Ask) : Prop where
  ascii : AsciiText q.url.scheme
  scheme : PlainHttp q.url ∨ SecureHttp q.url
  host : ∃ h, q.url.host = some h
  small : ∀ buf ∈ written q.writes, buf.length < 2 ^ 64
  bodiless : q.put = false → written q.writes = []

/-- The bytes of the request. -/
def Ask.Bytes (q : Ask) (bytes : Bytes) : Prop :=
  ∃ host, q.url.host = some host ∧
    if q.put then ∃ chs, ChunksFor chs (written q.writes) ∧
      bytes = requestHead .Put (requestTarget { q.url with query := none }) (standardHeaders .Put host) ++
        chunkedBytes chs (utf8 "0") ++ [13, 10]
    else bytes = requestHead .Get (requestTarget { q.url with query := none }) (standardHeaders .Get host)

/-- A response. -/
structure Answer where
  status : HttpStatus
  headers : HttpHeaders
  body : HttpIo.Bytes

/-- Its headers can be sent, and say how long the body is. -/
structure Answer.Proper [CaseMap] (a : Answer) : Prop where
  sendable : SendableHeaders a.headers.entries
  framed : FramedBy a.headers.entries (.limited a.body.length)

/-- These events are the response: head (in which interrupted calls that are repeated do not matter), then body. -/
def Answer.Sent (c : Cfg) (a : Answer) (evs : List Ev) : Prop :=
  ∃ hd, evs = hd ++ a.body.map .byte ∧ Delivers c hd (responseHead a.status.display a.headers.entries) []

/-- A response with a chunked body: the chunks, and the text of the last size line. -/
structure ChunkedAnswer where
  status : HttpStatus
  headers : HttpHeaders
  chunks : List Chunk
  last : HttpIo.Bytes

/-- Its headers can be sent and say that the body is chunked; the chunks are well-formed. -/
structure ChunkedAnswer.Proper [CaseMap] (a : ChunkedAnswer) : Prop where
  sendable : SendableHeaders a.headers.entries
  length : LengthOk a.headers.entries
  framed : FramedBy a.headers.entries .chunked
  chunks : ∀ ch ∈ a.chunks, ch.WellFormed
  last : UnsignedText 16 a.last 0

/-- These events are the response: head, chunks, last size line, and the CR LF with which the body ends (RFC 2616
section 3.6.1; no trailer). -/
def ChunkedAnswer.Sent (c : Cfg) (a : ChunkedAnswer) (evs : List Ev) : Prop :=
  ∃ hd body, evs = hd ++ body ++ [.byte 13, .byte 10] ∧
    Delivers c hd (responseHead a.status.display a.headers.entries) [] ∧ DeliversChunked c body a.chunks a.last []

/-- A response of declared length, or a chunked one. -/
inductive AnyAnswer where
  | sized (a : Answer)
  | chunked (a : ChunkedAnswer)

def AnyAnswer.status : AnyAnswer → HttpStatus
  | .sized a => a.status
  | .chunked a => a.status

def AnyAnswer.headers : AnyAnswer → HttpHeaders
  | .sized a => a.headers
  | .chunked a => a.headers

/-- The bytes that the body stands for. -/
def AnyAnswer.body : AnyAnswer → HttpIo.Bytes
  | .sized a => a.body
  | .chunked a => chunkedData a.chunks

def AnyAnswer.Proper [CaseMap] : AnyAnswer → Prop
  | .sized a => a.Proper
  | .chunked a => a.Proper

def AnyAnswer.Sent (c : Cfg) : AnyAnswer → List Ev → Prop
  | .sized a => a.Sent c
  | .chunked a => a.Sent c

/-- The peer has received `w` and sent `got`. From now on it answers each request, once it has received all of it, with
its answer (`said` describes the events of an answer); and does not send anything else: `idle` is what a reader meets
while the peer waits (nothing: the end of the stream; or a failure, such as a time limit). -/
def Serves {κ : Type} (said : κ → List Ev → Prop) (peer : Bytes → List Ev) (idle : List Ev) :
    Bytes → List Ev → List (Ask × κ) → Prop
  | _, _, [] => True
  | w, got, (q, a) :: rest => ∀ bytes, q.Bytes bytes →
      ∃ evs, peer (w ++ bytes) = got ++ evs ++ idle ∧ said a evs ∧ Serves said peer idle (w ++ bytes) (got ++ evs) rest

/-- What is to be read is not just the CR LF with which a chunked body ends, or the LF of it (before `idle`). -/
def NotCrLf (idle evs : List Ev) : Prop := evs ≠ .byte 13 :: .byte 10 :: idle ∧ evs ≠ .byte 10 :: idle

/-- Reads with a buffer of at least 8 KiB do not stop right before or within this CR LF. -/
def Together {σ : Type} [LawfulReader σ] (P : σ → Prop) (idle : List Ev) : Prop :=
  ∀ s n, 8192 ≤ n → P s → NotCrLf idle (trace s) → NotCrLf idle (trace (read s n).2)

/-- The caller read exactly `body`, and then at most ends of stream. -/
def ReadAll (rs : List (Except Err Bytes)) (body : Bytes) : Prop :=
  ∃ p k, rs = p ++ List.replicate k (.ok []) ∧ Pieces p body

end HttpIo.Spec
