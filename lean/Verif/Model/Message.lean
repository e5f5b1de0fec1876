import Verif.Model.Headers
import Verif.Model.Codes
import Verif.Model.Body
import Verif.Model.Writer

/-!
Requests and responses: `src/protocol.rs:1564-1626`, `:1750-1903`.
-/

namespace HttpIo

/-- `src/protocol.rs:1750-1756`. `ρ` is the buffered stream under the body. -/
structure HttpRequest (c : Cfg) (ρ : Type) where
  method : HttpMethod
  uri : Bytes
  version : HttpVersion
  headers : HttpHeaders
  body : HttpBody c ρ

/-- `src/protocol.rs:1564-1569`. -/
structure HttpResponse (c : Cfg) (ρ : Type) where
  version : HttpVersion
  status : HttpStatus
  headers : HttpHeaders
  body : HttpBody c ρ

/-- `src/protocol.rs:1758-1775`. -/
def HttpRequest.new (c : Cfg) (method : HttpMethod) (uriIn : Bytes) : HttpRequest c (BufReader c EmptyReader) :=
  { method
    uri := if uriIn.isEmpty then b!"/" else uriIn
    version := ⟨1, 1⟩
    headers := HttpHeaders.new
    body := .ReadTilClose (BufReader.new c .mk) }

/-- `src/protocol.rs:1578-1586`. -/
def HttpResponse.new (c : Cfg) {σ : Type} (status : HttpStatus) (body : σ) : HttpResponse c (BufReader c σ) :=
  { version := ⟨1, 1⟩
    status
    headers := HttpHeaders.new
    body := .ReadTilClose (BufReader.new c body) }

/-- `src/protocol.rs:1571-1575`. -/
def HttpResponse.fromString (c : Cfg) (status : HttpStatus) (s : Bytes) : HttpResponse c (BufReader c Cursor) :=
  HttpResponse.new c status (Cursor.new s)

section
variable [CaseMap]

/-- `src/protocol.rs:1859-1862`. -/
def HttpRequest.addHeader {c : Cfg} {ρ : Type} (r : HttpRequest c ρ) (key value : Bytes) : HttpRequest c ρ :=
  { r with headers := r.headers.insert key value }

/-- `src/protocol.rs:1612-1614`. -/
def HttpResponse.getHeader {c : Cfg} {ρ : Type} (r : HttpResponse c ρ) (key : Bytes) : Option Bytes :=
  r.headers.get key

/-- `src/protocol.rs:1616-1618`. -/
def HttpResponse.addHeader {c : Cfg} {ρ : Type} (r : HttpResponse c ρ) (key value : Bytes) : HttpResponse c ρ :=
  { r with headers := r.headers.insert key value }

/-- `headers.get("Content-Length").map(str::parse).transpose()?` (`src/protocol.rs:1600`, `:1876`). -/
def contentLengthOf (headers : HttpHeaders) : Res (Option Nat) :=
  match headers.get b!"Content-Length" with
  | none => .ok none
  | some v =>
    match parseU64 v with
    | .ok n => .ok (some n)
    | .err e => .err e
    | .panic => .panic

/-- The three tokens of a request line (`src/protocol.rs:1867-1871`). -/
def parseRequestLine (line : Bytes) : Res (HttpMethod × Bytes × HttpVersion) :=
  match (Parser.new line).parseToken with
  | (.err e, _) => .err e
  | (.panic, _) => .panic
  | (.ok tok, p1) =>
    match HttpMethod.fromStr tok with
    | .err e => .err e
    | .panic => .panic
    | .ok method =>
      match p1.parseToken with
      | (.err e, _) => .err e
      | (.panic, _) => .panic
      | (.ok uri, p2) =>
        match p2.parseToken with
        | (.err e, _) => .err e
        | (.panic, _) => .panic
        | (.ok tok3, _) =>
          match HttpVersion.fromStr tok3 with
          | .err e => .err e
          | .panic => .panic
          | .ok version => .ok (method, uri, version)

/-- The status line (`src/protocol.rs:1591-1594`). -/
def parseStatusLine (line : Bytes) : Res (HttpVersion × HttpStatus) :=
  match (Parser.new line).parseToken with
  | (.err e, _) => .err e
  | (.panic, _) => .panic
  | (.ok tok, p1) =>
    match HttpVersion.fromStr tok with
    | .err e => .err e
    | .panic => .panic
    | .ok version =>
      match p1.parseRemaining with
      | (.err e, _) => .err e
      | (.panic, _) => .panic
      | (.ok rest, _) =>
        match HttpStatus.fromStr rest with
        | .err e => .err e
        | .panic => .panic
        | .ok status => .ok (version, status)

section
variable {ρ : Type} [LawfulReader ρ]

/-- What requests and responses have in common: read the start line, parse it with `start`, read the headers,
look at the framing headers. Returns the parts, and the stream after the blank line. -/
def parseHead {α : Type} (c : Cfg) (start : Bytes → Res α) (s : ρ) :
    Res (α × HttpHeaders × Option Bytes × Option Nat) × ρ :=
  match expectNext c s with
  | (.error e, s') => (.err e, s')
  | (.ok line, s1) =>
    match start line with
    | .err e => (.err e, s1)
    | .panic => (.panic, s1)
    | .ok a =>
      match HttpHeaders.deserialize c s1 with
      | (.err e, s2) => (.err e, s2)
      | (.panic, s2) => (.panic, s2)
      | (.ok headers, s2) =>
        match contentLengthOf headers with
        | .err e => (.err e, s2)
        | .panic => (.panic, s2)
        | .ok length => (.ok (a, headers, headers.get b!"Transfer-Encoding", length), s2)

/-- `src/protocol.rs:1864-1887`. The stream is `io::BufReader<B>` in the code; any reader here. Also returned: the
stream as it was when parsing ended (inside the body on success, dropped on failure). -/
def HttpRequest.deserialize (c : Cfg) (stream : ρ) : Res (HttpRequest c ρ) × ρ :=
  match parseHead c parseRequestLine stream with
  | (.err e, s) => (.err e, s)
  | (.panic, s) => (.panic, s)
  | (.ok ((method, uri, version), headers, encoding, length), s) =>
    (.ok { method, uri, version, headers, body := HttpBody.new c encoding length s }, s)

/-- `src/protocol.rs:1588-1610`. The head is read from the socket itself, one byte at a time; the rest of the
socket is then wrapped in a `BufReader`. -/
def HttpResponse.deserialize (c : Cfg) (socket : ρ) : Res (HttpResponse c (BufReader c ρ)) × ρ :=
  match parseHead c parseStatusLine socket with
  | (.err e, s) => (.err e, s)
  | (.panic, s) => (.panic, s)
  | (.ok ((version, status), headers, encoding, length), s) =>
    (.ok { version, status, headers, body := HttpBody.new c encoding length (BufReader.new c s) }, s)

end
end

/-! ### Serialization -/

/-- `src/protocol.rs:1475-1480`. -/
def HttpHeaders.serialize (c : Cfg) {σ : Type} [Writer σ] (h : HttpHeaders) (w : σ) : Except Err Unit × σ :=
  writePieces c w h.pieces

/-- The pieces written by `HttpRequest::serialize` (`src/protocol.rs:1894-1896`). -/
def HttpRequest.headPieces {c : Cfg} {ρ : Type} (r : HttpRequest c ρ) : List Bytes :=
  [r.method.display, b!" ", r.uri, b!" "] ++ r.version.pieces ++ [b!"\r\n"] ++ r.headers.pieces ++ [b!"\r\n"]

/-- The pieces written by `HttpResponse::serialize` (`src/protocol.rs:1620-1625`). -/
def HttpResponse.headPieces {c : Cfg} {ρ : Type} (r : HttpResponse c ρ) : List Bytes :=
  r.version.pieces ++ [b!" ", r.status.display, b!"\r\n"] ++ r.headers.pieces ++ [b!"\r\n"]

/-- `src/protocol.rs:1620-1625`. -/
def HttpResponse.serialize {c : Cfg} {ρ σ : Type} [Writer σ] (r : HttpResponse c ρ) (w : σ) : Except Err Unit × σ :=
  writePieces c w r.headPieces

/-- `src/protocol.rs:1824-1826`. -/
structure OutgoingBody (c : Cfg) (σ : Type) where
  socket : BufWriter c σ

/-- `src/protocol.rs:1777-1780`. -/
inductive OutgoingRequest (c : Cfg) (σ : Type) where
  | NoBody (socket : σ)
  | WithBody (body : OutgoingBody c σ)

section
variable {c : Cfg} {σ : Type} [Writer σ]

/-- `src/protocol.rs:1829-1838`. The length goes out in hexadecimal, in front of the data. -/
def OutgoingBody.writeImpl (b : OutgoingBody c σ) (buf : Bytes) : Except Err Nat × OutgoingBody c σ :=
  if buf.length = 0 then (.ok 0, b)
  else
    match writePieces c b.socket [showHex buf.length, b!"\r\n"] with
    | (.error e, w) => (.error e, ⟨w⟩)
    | (.ok (), w) =>
      match writeAll c w buf with
      | (.error e, w) => (.error e, ⟨w⟩)
      | (.ok (), w) =>
        match writePieces c w [b!"\r\n"] with
        | (.error e, w) => (.error e, ⟨w⟩)
        | (.ok (), w) => (.ok buf.length, ⟨w⟩)

/-- `src/protocol.rs:1840-1842`. -/
def OutgoingBody.flushImpl (b : OutgoingBody c σ) : Except Err Unit × OutgoingBody c σ :=
  match flush b.socket with
  | (r, w) => (r, ⟨w⟩)

/-- The error of writing to a request without body (`src/protocol.rs:1805-1811`). -/
def noBodyErr (c : Cfg) : Err := if c.std then .io .invalidInput else .other

/-- `src/protocol.rs:1803-1814`. -/
def OutgoingRequest.writeImpl (r : OutgoingRequest c σ) (buf : Bytes) : Except Err Nat × OutgoingRequest c σ :=
  match r with
  | .NoBody s => (.error (noBodyErr c), .NoBody s)
  | .WithBody b => match b.writeImpl buf with | (res, b') => (res, .WithBody b')

/-- `src/protocol.rs:1816-1821`. -/
def OutgoingRequest.flushImpl (r : OutgoingRequest c σ) : Except Err Unit × OutgoingRequest c σ :=
  match r with
  | .NoBody s => (.ok (), .NoBody s)
  | .WithBody b => match b.flushImpl with | (res, b') => (res, .WithBody b')

/-- The error an `IntoInnerError` becomes (`src/error.rs:60-68`): always kind `Other`. (Only `std` has one.) -/
def intoInnerErr : Err := .io (.other 0)

/-- `src/protocol.rs:1889-1903`. The socket is also returned when writing the head fails: dropping the
`BufWriter` flushes what it can and releases the socket. -/
def HttpRequest.serialize {ρ : Type} (r : HttpRequest c ρ) (w : BufWriter c σ) :
    Except (Err × σ) (OutgoingRequest c σ) :=
  match writePieces c w r.headPieces with
  | (.error e, w) => .error (e, w.dropped)
  | (.ok (), w) =>
    if r.method.hasBody then .ok (.WithBody ⟨w⟩)
    else
      match w.intoInner with
      | .ok s => .ok (.NoBody s)
      | .error (_, w) => .error (intoInnerErr, w.dropped)

/-- The sending part of `finish`: `src/protocol.rs:1791-1793` (no body) and `:1849-1854` (body). Yields the socket
from which the response is then read. -/
def OutgoingRequest.complete (r : OutgoingRequest c σ) : Except (Err × σ) σ :=
  match r with
  | .NoBody s =>
    match flush s with
    | (.error e, s) => .error (e, s)
    | (.ok (), s) => .ok s
  | .WithBody b =>
    match writePieces c b.socket [b!"0\r\n\r\n"] with
    | (.error e, w) => .error (e, w.dropped)
    | (.ok (), w) =>
      match flush w with
      | (.error e, w) => .error (e, w.dropped)
      | (.ok (), w) =>
        match w.intoInner with
        | .ok s => .ok s
        | .error (_, w) => .error (intoInnerErr, w.dropped)

/-- `src/protocol.rs:1789-1799`, `:1849-1856`. -/
def OutgoingRequest.finish [CaseMap] [LawfulReader σ] (r : OutgoingRequest c σ) :
    Res (HttpResponse c (BufReader c σ)) × σ :=
  match r.complete with
  | .error (e, s) => (.err e, s)
  | .ok s => HttpResponse.deserialize c s

/-- Dropping an unfinished request releases the socket (a `BufWriter` flushes what it can). -/
def OutgoingRequest.dropped (r : OutgoingRequest c σ) : σ :=
  match r with
  | .NoBody s => s
  | .WithBody b => b.socket.dropped

end

end HttpIo
