import Verif.Model.Url
import Verif.Model.Message
import Verif.Model.Outgoing
import Verif.Model.BodyLaws
import Verif.Model.WriterLaws

/-!
The client: `src/client.rs`. The network is a parameter: what an address lookup or a connection attempt gives may
depend on a world `ω`, which every such operation may change.
-/

namespace HttpIo

/-- `src/client.rs:71-73`. -/
structure HttpRequestBuilder (c : Cfg) where
  request : HttpRequest c (BufReader c EmptyReader)

section
variable [CaseMap]

/-- `src/client.rs:124-140`. `url` is the outcome of converting the argument to an `HttpUrl`. -/
def HttpRequestBuilder.new (c : Cfg) (url : Res HttpUrl) (method : HttpMethod) : Res (HttpRequestBuilder c) :=
  match url with
  | .err _ => .err .parse
  | .panic => .panic
  | .ok url =>
    let request := HttpRequest.new c method url.url.path
    let request := request.addHeader b!"Host" url.host
    let request := request.addHeader b!"User-Agent" b!"http_io"
    let request := request.addHeader b!"Accept" b!"*/*"
    let request := if method.hasBody then request.addHeader b!"Transfer-Encoding" b!"chunked" else request
    .ok ⟨request⟩

/-- `src/client.rs:77-82`. -/
def HttpRequestBuilder.delete (c : Cfg) (url : Res HttpUrl) : Res (HttpRequestBuilder c) := HttpRequestBuilder.new c url .Delete
/-- `src/client.rs:85-90`. -/
def HttpRequestBuilder.get (c : Cfg) (url : Res HttpUrl) : Res (HttpRequestBuilder c) := HttpRequestBuilder.new c url .Get
/-- `src/client.rs:93-98`. -/
def HttpRequestBuilder.head (c : Cfg) (url : Res HttpUrl) : Res (HttpRequestBuilder c) := HttpRequestBuilder.new c url .Head
/-- `src/client.rs:101-106`. -/
def HttpRequestBuilder.options (c : Cfg) (url : Res HttpUrl) : Res (HttpRequestBuilder c) := HttpRequestBuilder.new c url .Options
/-- `src/client.rs:109-114`. -/
def HttpRequestBuilder.post (c : Cfg) (url : Res HttpUrl) : Res (HttpRequestBuilder c) := HttpRequestBuilder.new c url .Post
/-- `src/client.rs:117-122`. -/
def HttpRequestBuilder.put (c : Cfg) (url : Res HttpUrl) : Res (HttpRequestBuilder c) := HttpRequestBuilder.new c url .Put

/-- `src/client.rs:148-151`. -/
def HttpRequestBuilder.addHeader {c : Cfg} (b : HttpRequestBuilder c) (key value : Bytes) : HttpRequestBuilder c :=
  ⟨b.request.addHeader key value⟩

end

/-- `src/client.rs:143-145`. The socket is also returned when sending fails (it may be borrowed). -/
def HttpRequestBuilder.send {c : Cfg} {σ : Type} [Writer σ] (b : HttpRequestBuilder c) (socket : σ) :
    Except (Err × σ) (OutgoingRequest c σ) :=
  b.request.serialize (BufWriter.new c socket)

/-! ### Connections -/

/-- `src/client.rs:155-160`. Both operations may fail, and may depend on and change the world. -/
structure StreamConnector (ω α σ : Type) where
  connect : α → ω → Res σ × ω
  toStreamAddr : Url → ω → Res α × ω

/-- `src/client.rs:162-165`. -/
inductive StreamEither (α β : Type) where
  | A (a : α)
  | B (b : β)
deriving DecidableEq, Repr

/-- `src/client.rs:167-174`. -/
def StreamEither.readImpl {α β : Type} [Reader α] [Reader β] (s : StreamEither α β) (n : Nat) :
    Except Err Bytes × StreamEither α β :=
  match s with
  | .A a => match read a n with | (r, a') => (r, .A a')
  | .B b => match read b n with | (r, b') => (r, .B b')

instance {α β : Type} [Reader α] [Reader β] : Reader (StreamEither α β) := { read := StreamEither.readImpl }

/-- `src/client.rs:177-182`. -/
def StreamEither.writeImpl {α β : Type} [FiniteWriter α] [FiniteWriter β] (s : StreamEither α β) (buf : Bytes) :
    Except Err Nat × StreamEither α β :=
  match s with
  | .A a => match write a buf with | (r, a') => (r, .A a')
  | .B b => match write b buf with | (r, b') => (r, .B b')

/-- `src/client.rs:184-189`. -/
def StreamEither.flushImpl {α β : Type} [FiniteWriter α] [FiniteWriter β] (s : StreamEither α β) :
    Except Err Unit × StreamEither α β :=
  match s with
  | .A a => match flush a with | (r, a') => (r, .A a')
  | .B b => match flush b with | (r, b') => (r, .B b')

/-- `src/client.rs:192-197`. -/
structure StreamId (α : Type) where
  addr : α
  host : Bytes
  secure : Bool
deriving DecidableEq, Repr

/-- The operating system and the TLS library, as `src/client.rs:207-248` uses them: `to_socket_addrs`,
`TcpStream::connect`, `SslClientStream::new`. -/
structure Net (ω α σ τ : Type) where
  lookup : Bytes → Nat → ω → Except Err (List α) × ω
  connect : α → ω → Except Err σ × ω
  tls : Bytes → σ → ω → Res τ × ω

section
variable {ω α σ τ : Type}

/-- `src/client.rs:211-226`. `ssl` is the Cargo feature. Without it the stream type is the TCP stream itself; here
`StreamEither.A` of it. -/
def Net.streamConnect (net : Net ω α σ τ) (ssl : Bool) (id : StreamId α) (w : ω) : Res (StreamEither σ τ) × ω :=
  match net.connect id.addr w with
  | (.error e, w) => (.err e, w)
  | (.ok s, w) =>
    if ssl then
      if id.secure then
        match net.tls id.host s w with
        | (.ok t, w) => (.ok (.B t), w)
        | (.err e, w) => (.err e, w)
        | (.panic, w) => (.panic, w)
      else (.ok (.A s), w)
    else (.ok (.A s), w)

/-- `src/client.rs:228-247`. -/
def Net.toStreamAddr [CaseMap] (net : Net ω α σ τ) (url : Url) (w : ω) : Res (StreamId α) × ω :=
  match HttpUrl.tryFrom url with
  | .err e => (.err e, w)
  | .panic => (.panic, w)
  | .ok u =>
    match u.portOf with
    | .err e => (.err e, w)
    | .panic => (.panic, w)
    | .ok port =>
      match net.lookup u.host port w with
      | (.error _, w) => (.err (.io .addrNotAvailable), w)
      | (.ok [], w) => (.err (.io .addrNotAvailable), w)
      | (.ok (addr :: _), w) => (.ok { addr, host := u.host, secure := u.scheme = .Https }, w)

/-- `src/client.rs:206-248`. -/
def Net.connector [CaseMap] (net : Net ω α σ τ) (ssl : Bool) : StreamConnector ω (StreamId α) (StreamEither σ τ) :=
  ⟨net.streamConnect ssl, net.toStreamAddr⟩

end

/-! ### The client with pooled connections -/

/-- `src/client.rs:251-253`. The `HashMap` is a list of its entries (in no particular order). -/
structure HttpClient (α σ : Type) where
  streams : List (α × σ)

section
variable {ω α σ : Type} [DecidableEq α]

/-- `src/client.rs:258-262`. -/
def HttpClient.new : HttpClient α σ := ⟨[]⟩

/-- `HashMap::get` / `contains_key`. -/
def poolGet (a : α) : List (α × σ) → Option σ
  | [] => none
  | (a', s) :: rest => if a = a' then some s else poolGet a rest

/-- `HashMap::insert`; also the effect of using a stream through `get_mut`. -/
def poolSet (a : α) (s : σ) : List (α × σ) → List (α × σ)
  | [] => [(a, s)]
  | (a', s') :: rest => if a = a' then (a', s) :: rest else (a', s') :: poolSet a s rest

/-- The borrowed stream of address `a` is now in state `s` (not a function of the code: a `&mut S::Stream` handed out
by `get_stream` was used). -/
def HttpClient.putBack (cl : HttpClient α σ) (a : α) (s : σ) : HttpClient α σ := ⟨poolSet a s cl.streams⟩

/-- `src/client.rs:264-271`. The borrowed stream is represented by its address and its present state. -/
def HttpClient.getStream (N : StreamConnector ω α σ) (cl : HttpClient α σ) (url : Url) (w : ω) :
    Res (α × σ) × HttpClient α σ × ω :=
  match N.toStreamAddr url w with
  | (.err e, w) => (.err e, cl, w)
  | (.panic, w) => (.panic, cl, w)
  | (.ok a, w) =>
    match poolGet a cl.streams with
    | some s => (.ok (a, s), cl, w)
    | none =>
      match N.connect a w with
      | (.err e, w) => (.err e, cl, w)
      | (.panic, w) => (.panic, cl, w)
      | (.ok s, w) => (.ok (a, s), ⟨poolSet a s cl.streams⟩, w)

/-- `src/client.rs:275-283` (`method` GET) and `:287-295` (`method` PUT). `url` is the outcome of converting the
argument. The outgoing request borrows the stream of the address returned with it; whoever uses the request has to
put the stream back. -/
def HttpClient.request [CaseMap] [Writer σ] (c : Cfg) (N : StreamConnector ω α σ) (cl : HttpClient α σ)
    (method : HttpMethod) (url : Option Url) (w : ω) : Res (α × OutgoingRequest c σ) × HttpClient α σ × ω :=
  match url with
  | none => (.err .parse, cl, w)
  | some url =>
    match HttpRequestBuilder.new c (HttpUrl.tryFrom url) method with
    | .err e => (.err e, cl, w)
    | .panic => (.panic, cl, w)
    | .ok b =>
      match cl.getStream N url w with
      | (.err e, cl, w) => (.err e, cl, w)
      | (.panic, cl, w) => (.panic, cl, w)
      | (.ok (a, s), cl, w) =>
        match b.send s with
        | .error (e, s) => (.err e, cl.putBack a s, w)
        | .ok o => (.ok (a, o), cl, w)

/-- `src/client.rs:275-283`. -/
def HttpClient.get [CaseMap] [Writer σ] (c : Cfg) (N : StreamConnector ω α σ) (cl : HttpClient α σ)
    (url : Option Url) (w : ω) : Res (α × OutgoingRequest c σ) × HttpClient α σ × ω := cl.request c N .Get url w

/-- `src/client.rs:287-295`. -/
def HttpClient.put [CaseMap] [Writer σ] (c : Cfg) (N : StreamConnector ω α σ) (cl : HttpClient α σ)
    (url : Option Url) (w : ω) : Res (α × OutgoingRequest c σ) × HttpClient α σ × ω := cl.request c N .Put url w

end

/-! ### One-shot requests -/

section
variable [CaseMap] {ω α σ ρ : Type} [LawfulReader σ] [Writer σ] [LawfulReader ρ]

/-- `src/client.rs:299-316`. -/
def sendRequest (c : Cfg) (N : StreamConnector ω α σ) (builder : HttpRequestBuilder c) (url : Url) (body : ρ) (w : ω) :
    Res (HttpBody c (BufReader c σ)) × ω :=
  match N.toStreamAddr url w with
  | (.err e, w) => (.err e, w)
  | (.panic, w) => (.panic, w)
  | (.ok a, w) =>
    match N.connect a w with
    | (.err e, w) => (.err e, w)
    | (.panic, w) => (.panic, w)
    | (.ok stream, w) =>
      match builder.send stream with
      | .error (e, _) => (.err e, w)
      | .ok request =>
        match copy c body request 0 with
        | (.error e, _, _) => (.err e, w)
        | (.ok _, _, request) =>
          match request.finish with
          | (.err e, _) => (.err e, w)
          | (.panic, _) => (.panic, w)
          | (.ok response, _) =>
            if response.status ≠ .OK then (.err (.unexpectedStatus response.status), w)
            else (.ok response.body, w)

/-- `src/client.rs:330-339`. -/
def clientGet (c : Cfg) (N : StreamConnector ω α σ) (url : Option Url) (w : ω) :
    Res (HttpBody c (BufReader c σ)) × ω :=
  match url with
  | none => (.err .parse, w)
  | some url =>
    match HttpRequestBuilder.get c (HttpUrl.tryFrom url) with
    | .err e => (.err e, w)
    | .panic => (.panic, w)
    | .ok builder => sendRequest c N builder url EmptyReader.mk w

/-- `src/client.rs:410-419`. -/
def clientPut (c : Cfg) (N : StreamConnector ω α σ) (url : Option Url) (body : ρ) (w : ω) :
    Res (HttpBody c (BufReader c σ)) × ω :=
  match url with
  | none => (.err .parse, w)
  | some url =>
    match HttpRequestBuilder.put c (HttpUrl.tryFrom url) with
    | .err e => (.err e, w)
    | .panic => (.panic, w)
    | .ok builder => sendRequest c N builder url body w

end

end HttpIo
