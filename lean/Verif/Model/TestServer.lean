import Verif.Model.Server
import Verif.Model.WriterLaws

/-!
The handlers of the crate's own tests: `src/server.rs:250-400`.
-/

namespace HttpIo

/-- `src/server.rs:253-263`: what the tests expect of a request, and how it is to be answered. -/
structure ExpectedRequest where
  expectedMethod : HttpMethod
  expectedUri : Bytes
  expectedBody : Bytes
  responseStatus : HttpStatus
  responseBody : Bytes
  responseHeaders : HttpHeaders
deriving DecidableEq

section
variable {c : Cfg} {σ : Type}

/-- `src/server.rs:284-298`: `get` of `TestRequestHandler`. The state is the script. `remove(0)` panics on an empty script; a failing
`assert_eq!` is a panic after the entry was removed. -/
def TestRequestHandler.get [CaseMap] (c : Cfg) (uri : Bytes) (script : List ExpectedRequest) :
    Reply (ServerResponse c Wire) (ServerResponse c Wire) × List ExpectedRequest :=
  match script with
  | [] => (.panic, [])
  | request :: rest =>
    if request.expectedMethod ≠ .Get then (.panic, rest)
    else if request.expectedUri ≠ uri then (.panic, rest)
    else
      (.ok (request.responseHeaders.entries.foldl (fun res kv => res.addHeader kv.1 kv.2)
        (ServerResponse.fromString c request.responseStatus request.responseBody)), rest)

/-- `src/server.rs:300-317`: `put` of `TestRequestHandler`. `read_to_string` (of `std`) reads to the end, repeating interrupted
reads, and fails on what is not text; here it takes 8 KiB at a time. Failures panic (`unwrap`). The headers of the script are not
added. -/
def TestRequestHandler.put [LawfulReader σ] [ZeroReader σ] (uri : Bytes) (stream : HttpBody c (BufReader c σ))
    (script : List ExpectedRequest) :
    Reply (ServerResponse c Wire) (ServerResponse c Wire) × HttpBody c (BufReader c σ) × List ExpectedRequest :=
  match script with
  | [] => (.panic, stream, [])
  | request :: rest =>
    if request.expectedMethod ≠ .Put then (.panic, stream, rest)
    else if request.expectedUri ≠ uri then (.panic, stream, rest)
    else
      match copy c stream (Sink.mk [] 0 []) 0 with
      | (.error _, stream, _) => (.panic, stream, rest)
      | (.ok _, stream, bodyString) =>
        if validUtf8 bodyString.got = false then (.panic, stream, rest)
        else if request.expectedBody ≠ bodyString.got then (.panic, stream, rest)
        else (.ok (ServerResponse.fromString c request.responseStatus request.responseBody), stream, rest)

/-- `src/server.rs:265-318`. Its `Error` is a response. -/
def testHandler [CaseMap] (c : Cfg) (σ : Type) [LawfulReader σ] [ZeroReader σ] :
    Handler c (List ExpectedRequest) σ Wire (ServerResponse c Wire) :=
  { Handler.defaults c (List ExpectedRequest) σ Wire (ServerResponse c Wire) id with
    get := TestRequestHandler.get c
    put := TestRequestHandler.put }

/-- `src/server.rs:319-324`: dropping the handler fails if something is left of the script. -/
def TestRequestHandler.drop (script : List ExpectedRequest) : Res Unit :=
  if script ≠ [] then .panic else .ok ()

/-- `src/server.rs:365-400`: `LendingHandler`. The state is its data; the request's body is not looked at. -/
def lendingHandler (c : Cfg) (σ : Type) : Handler c Bytes σ Wire (ServerResponse c Wire) :=
  { Handler.defaults c Bytes σ Wire (ServerResponse c Wire) id with
    get := fun _ data => (.ok (HttpResponse.new c .OK (.B ⟨[.data data]⟩)), data)
    put := fun _ stream data => (.ok (HttpResponse.new c .OK (.B ⟨[.data data]⟩)), stream, data) }

end

end HttpIo
