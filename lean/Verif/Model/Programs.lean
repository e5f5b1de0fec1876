import Verif.Model.Client
import Verif.Model.Socket

/-!
The client programs of the crate's examples: `examples/client.rs`, `examples/readme.rs`, `examples/advance_client.rs`,
`examples/connection_reuse.rs` and `examples/no_std.rs`. The command line, the files and the network are parameters;
standard output is a writer.
-/

namespace HttpIo

section
variable [CaseMap] {ω α σ φ ο : Type} [LawfulReader σ] [ZeroReader σ] [Writer σ] [LawfulReader φ] [Writer ο]

/-- `io::copy(&mut body, &mut io::stdout())?; Ok(())`: `examples/client.rs:30-31`, `examples/readme.rs:8`,
`examples/advance_client.rs:20-21`, `examples/connection_reuse.rs:19`, `examples/no_std.rs:107-108`. Also the body as it
is left. -/
def printBody {c : Cfg} {ρ : Type} [LawfulReader ρ] (body : ρ) (out : ο) : Res Unit × ρ × ο :=
  match copy c body out 0 with
  | (.error e, body, out) => (.err e, body, out)
  | (.ok _, body, out) => (.ok (), body, out)

/-- `examples/client.rs:16-32`, for the options `method`, `data`, `url` (which `clap` has parsed). `openFile` is
`File::open`, the file being read as it is. -/
def clientProgram (c : Cfg) (N : StreamConnector ω α σ) (openFile : Bytes → Option φ) (method : HttpMethod) (data : Bytes)
    (url : Url) (w : ω) (out : ο) : Res Unit × ο × ω :=
  let body : Res (HttpBody c (BufReader c σ)) × ω :=
    match method with
    | .Get => clientGet c N (some url) w
    | .Put =>
      match openFile data with
      | some file => clientPut c N (some url) file w
      | none => clientPut c N (some url) (SliceReader.mk data) w
    | m => (.err (.unexpectedMethod m), w)
  match body with
  | (.err e, w) => (.err e, out, w)
  | (.panic, w) => (.panic, out, w)
  | (.ok body, w) =>
    match printBody (c := c) body out with
    | (r, _, out) => (r, out, w)

/-- `examples/readme.rs:5-14`. The two URLs (constants of the program) and the outcome of opening the file are
parameters. The body of the second response is dropped. -/
def readmeProgram (c : Cfg) (N : StreamConnector ω α σ) (getUrl putUrl : Option Url) (file : Except Err φ) (w : ω) (out : ο) :
    Res Unit × ο × ω :=
  match clientGet c N getUrl w with
  | (.err e, w) => (.err e, out, w)
  | (.panic, w) => (.panic, out, w)
  | (.ok body, w) =>
    match printBody (c := c) body out with
    | (.err e, _, out) => (.err e, out, w)
    | (.panic, _, out) => (.panic, out, w)
    | (.ok _, _, out) =>
      match file with
      | .error e => (.err e, out, w)
      | .ok file =>
        match clientPut c N putUrl file w with
        | (.err e, w) => (.err e, out, w)
        | (.panic, w) => (.panic, out, w)
        | (.ok _, w) => (.ok (), out, w)

/-- `examples/advance_client.rs:8-22`. `parse` is `Url::parse`, `connect` is `TcpStream::connect` with a host and a port,
`debug` the text that `{:#?}` makes of the headers; `println!` panics if standard output fails. -/
def advanceClient (c : Cfg) (parse : Bytes → Option Url) (connect : Bytes → Nat → ω → Except Err σ × ω)
    (debug : HttpHeaders → Bytes) (url : Bytes) (w : ω) (out : ο) : Res Unit × ο × ω :=
  match HttpUrl.fromStr parse url with
  | .err e => (.err e, out, w)
  | .panic => (.panic, out, w)
  | .ok url =>
    match url.portOf with
    | .err e => (.err e, out, w)
    | .panic => (.panic, out, w)
    | .ok port =>
      match connect url.host port w with
      | (.error e, w) => (.err e, out, w)
      | (.ok s, w) =>
        match HttpRequestBuilder.get c (.ok url) with
        | .err e => (.err e, out, w)
        | .panic => (.panic, out, w)
        | .ok b =>
          match b.send s with
          | .error (e, _) => (.err e, out, w)
          | .ok request =>
            match request.finish with
            | (.err e, _) => (.err e, out, w)
            | (.panic, _) => (.panic, out, w)
            | (.ok response, _) =>
              match writeAll c out (debug response.headers ++ b!"\n") with
              | (.error _, out) => (.panic, out, w)
              | (.ok _, out) =>
                match printBody (c := c) response.body out with
                | (r, _, out) => (r, out, w)

/-- The loop of `examples/connection_reuse.rs:16-20`. `Url::set_path` (external crate) is taken to replace the path, which
it does for the paths of the example. -/
def fetchPaths [DecidableEq α] (c : Cfg) (N : StreamConnector ω α σ) (url : Url) :
    List Bytes → HttpClient α σ → ω → ο → Res Unit × HttpClient α σ × ω × ο
  | [], cl, w, out => (.ok (), cl, w, out)
  | path :: paths, cl, w, out =>
    match cl.get c N (some { url with path }) w with
    | (.err e, cl, w) => (.err e, cl, w, out)
    | (.panic, cl, w) => (.panic, cl, w, out)
    | (.ok (a, request), cl, w) =>
      match request.finish with
      | (.err e, s) => (.err e, cl.putBack a s, w, out)
      | (.panic, s) => (.panic, cl.putBack a s, w, out)
      | (.ok response, s) =>
        match printBody (c := c) response.body out with
        | (.err e, body, out) => (.err e, cl.putBack a ((body.under.map (·.inner)).getD s), w, out)
        | (.panic, body, out) => (.panic, cl.putBack a ((body.under.map (·.inner)).getD s), w, out)
        | (.ok _, body, out) => fetchPaths c N url paths (cl.putBack a ((body.under.map (·.inner)).getD s)) w out

/-- `examples/connection_reuse.rs:6-23`. `parse` is `Url::parse`, whose error becomes a `ParseError`
(`src/error.rs:84-88`). -/
def reuseProgram [DecidableEq α] (c : Cfg) (N : StreamConnector ω α σ) (parse : Bytes → Option Url) (host : Bytes) (w : ω)
    (out : ο) : Res Unit × HttpClient α σ × ω × ο :=
  match parse host with
  | none => (.err .parse, HttpClient.new, w, out)
  | some url => fetchPaths c N url [b!"/", b!"/favicon.ico", b!"/robots.txt"] HttpClient.new w out

end

/-! ### `examples/no_std.rs` -/

/-- `examples/no_std.rs:9-16`. The literal goes on to the end of the line, after which it has a line feed. -/
def cannedResponse : Bytes :=
  b!"HTTP/1.1 200 OK\r\nContent-Length: 11\r\nContent-Type: text/html\r\nConnection: Closed\r\n\r\nhello world\n"

/-- `MyFakeTcpStream`, `examples/no_std.rs:38-85`: reads give what is left of the canned response, writes and flushes
succeed. What was written is kept here (in a sink that takes everything); the program prints it. What it prints about the
connection is left out. -/
def fakeTcp : Duplex SliceReader Sink := ⟨⟨cannedResponse⟩, ⟨[], 0, []⟩⟩

/-- `examples/no_std.rs:88-109` (built without `std`; `parse` is `Url::parse`). The program's writer panics if standard
output fails (94-101; it would also panic where the output is interrupted, here such a write is tried again), and nothing
else can fail while the body is printed. What was said to the fake connection comes
last: none if it was dropped before it was used or when an error occurred (whoever has it then is left out). -/
def noStdProgram [CaseMap] {ο : Type} [Writer ο] (parse : Bytes → Option Url) (method data url : Bytes) (out : ο) :
    Res Unit × ο × Option Bytes :=
  match HttpMethod.fromStr method with
  | .err e => (.err e, out, none)
  | .panic => (.panic, out, none)
  | .ok method =>
    match HttpUrl.fromStr parse url with
    | .err e => (.err e, out, none)
    | .panic => (.panic, out, none)
    | .ok url =>
      match url.portOf with
      | .err e => (.err e, out, none)
      | .panic => (.panic, out, none)
      | .ok _ =>
        let response : Res (HttpResponse ⟨false⟩ (BufReader ⟨false⟩ (Duplex SliceReader Sink))) × Option Bytes :=
          match method with
          | .Get =>
            match HttpRequestBuilder.get ⟨false⟩ (.ok url) with
            | .err e => (.err e, none)
            | .panic => (.panic, none)
            | .ok b =>
              match b.send fakeTcp with
              | .error (e, _) => (.err e, none)
              | .ok request =>
                match request.finish with
                | (r, s) => (r, some s.wr.got)
          | .Put =>
            match HttpRequestBuilder.put ⟨false⟩ (.ok url) with
            | .err e => (.err e, none)
            | .panic => (.panic, none)
            | .ok b =>
              match b.send fakeTcp with
              | .error (e, _) => (.err e, none)
              | .ok request =>
                match copy ⟨false⟩ (SliceReader.mk data) request 0 with
                | (.error e, _, _) => (.err e, none)
                | (.ok _, _, request) =>
                  match request.finish with
                  | (r, s) => (r, some s.wr.got)
          | m => (.err (.unexpectedMethod m), none)
        match response with
        | (.err e, said) => (.err e, out, said)
        | (.panic, said) => (.panic, out, said)
        | (.ok response, said) =>
          match printBody (c := ⟨false⟩) response.body out with
          | (.ok _, _, out) => (.ok (), out, said)
          | (_, _, out) => (.panic, out, said)

end HttpIo
