import Verif.Model.Socket

/-!
The server: `src/server.rs`. The handler (an implementation of `HttpRequestHandler`) and the listener are parameters.
-/

namespace HttpIo

/-- The outcome of a handler method: `Ok`, `Err`, or a panic. (A handler that never returns is not modelled.) -/
inductive Reply (ε α : Type) where
  | ok (a : α)
  | err (e : ε)
  | panic
deriving DecidableEq

/-- `.map_err(f)`. -/
def Reply.mapErr {ε ε' α : Type} (f : ε → ε') : Reply ε α → Reply ε' α
  | .ok a => .ok a
  | .err e => .err (f e)
  | .panic => .panic

/-- `Box<dyn io::Read>`: a `Cursor` over text made by the crate (`src/protocol.rs:1573`), or a reader of the handler's
own, of type `ρ`. -/
abbrev Boxed (ρ : Type) : Type := StreamEither Cursor ρ

/-- `HttpResponse<Box<dyn io::Read>>`. -/
abbrev ServerResponse (c : Cfg) (ρ : Type) : Type := HttpResponse c (BufReader c (Boxed ρ))

/-- `HttpResponse::from_string` (`src/protocol.rs:1571-1575`) with the box around the cursor. -/
def ServerResponse.fromString (c : Cfg) {ρ : Type} (status : HttpStatus) (s : Bytes) : ServerResponse c ρ :=
  HttpResponse.new c status (.A (Cursor.new s))

/-- `src/server.rs:81-90`. `errText` is the text of an error (`src/error.rs:37-41`: Rust's derived `Debug` format, not
modelled). -/
def ServerResponse.ofError (c : Cfg) {ρ : Type} (errText : Err → Bytes) (e : Err) : ServerResponse c ρ :=
  match e with
  | .lengthRequired => ServerResponse.fromString c .LengthRequired b!"length required"
  | e => ServerResponse.fromString c .InternalServerError (errText e)

/-- `src/server.rs:108-182`: an implementation of `HttpRequestHandler`. `η` is its state (`&mut self`), `σ` the
connection, `ρ` the type of the readers it answers with, `ε` its `Error`. A method gets the state and gives back the new
one. `put` and `post` also get the body of the request and give back what they leave of it. `into` is the conversion of
`Error` (`:109`). A response may borrow the handler (`'a`), so what reading it does to the handler's state is `release`,
applied when the response is dropped. -/
structure Handler (c : Cfg) (η σ ρ ε : Type) where
  delete : Bytes → η → Reply ε (ServerResponse c ρ) × η
  get : Bytes → η → Reply ε (ServerResponse c ρ) × η
  head : Bytes → η → Reply ε (ServerResponse c ρ) × η
  options : Bytes → η → Reply ε (ServerResponse c ρ) × η
  put : Bytes → HttpBody c (BufReader c σ) → η → Reply ε (ServerResponse c ρ) × HttpBody c (BufReader c σ) × η
  post : Bytes → HttpBody c (BufReader c σ) → η → Reply ε (ServerResponse c ρ) × HttpBody c (BufReader c σ) × η
  trace : Bytes → η → Reply ε (ServerResponse c ρ) × η
  into : ε → ServerResponse c ρ
  release : HttpBody c (BufReader c (Boxed ρ)) → η → η

section
variable {c : Cfg} {η σ ρ ε : Type}

/-- `src/server.rs:111-119`. -/
def Handler.defaultDelete (c : Cfg) (ρ ε : Type) {η : Type} (_uri : Bytes) (h : η) : Reply ε (ServerResponse c ρ) × η :=
  (.ok (ServerResponse.fromString c .MethodNotAllowed b!"DELETE not allowed"), h)

/-- `src/server.rs:121-129`. -/
def Handler.defaultGet (c : Cfg) (ρ ε : Type) {η : Type} (_uri : Bytes) (h : η) : Reply ε (ServerResponse c ρ) × η :=
  (.ok (ServerResponse.fromString c .MethodNotAllowed b!"GET not allowed"), h)

/-- `src/server.rs:131-139`. -/
def Handler.defaultHead (c : Cfg) (ρ ε : Type) {η : Type} (_uri : Bytes) (h : η) : Reply ε (ServerResponse c ρ) × η :=
  (.ok (ServerResponse.fromString c .MethodNotAllowed b!"HEAD not allowed"), h)

/-- `src/server.rs:141-149`. -/
def Handler.defaultOptions (c : Cfg) (ρ ε : Type) {η : Type} (_uri : Bytes) (h : η) : Reply ε (ServerResponse c ρ) × η :=
  (.ok (ServerResponse.fromString c .MethodNotAllowed b!"OPTIONS not allowed"), h)

/-- `src/server.rs:151-160`. -/
def Handler.defaultPut (c : Cfg) (ρ ε : Type) {η σ : Type} (_uri : Bytes) (stream : HttpBody c (BufReader c σ)) (h : η) :
    Reply ε (ServerResponse c ρ) × HttpBody c (BufReader c σ) × η :=
  (.ok (ServerResponse.fromString c .MethodNotAllowed b!"PUT not allowed"), stream, h)

/-- `src/server.rs:162-171`: the text says `PUT`. -/
def Handler.defaultPost (c : Cfg) (ρ ε : Type) {η σ : Type} (_uri : Bytes) (stream : HttpBody c (BufReader c σ)) (h : η) :
    Reply ε (ServerResponse c ρ) × HttpBody c (BufReader c σ) × η :=
  (.ok (ServerResponse.fromString c .MethodNotAllowed b!"PUT not allowed"), stream, h)

/-- `src/server.rs:173-181`. -/
def Handler.defaultTrace (c : Cfg) (ρ ε : Type) {η : Type} (_uri : Bytes) (h : η) : Reply ε (ServerResponse c ρ) × η :=
  (.ok (ServerResponse.fromString c .MethodNotAllowed b!"TRACE not allowed"), h)

/-- A handler that overrides nothing. -/
def Handler.defaults (c : Cfg) (η σ ρ ε : Type) (into : ε → ServerResponse c ρ) : Handler c η σ ρ ε where
  delete := Handler.defaultDelete c ρ ε
  get := Handler.defaultGet c ρ ε
  head := Handler.defaultHead c ρ ε
  options := Handler.defaultOptions c ρ ε
  put := Handler.defaultPut c ρ ε
  post := Handler.defaultPost c ρ ε
  trace := Handler.defaultTrace c ρ ε
  into := into
  release _ h := h

/-- The connection once a body over it is dropped; `s` is the stream with which the body was made. -/
def HttpBody.released (body : HttpBody c (BufReader c σ)) (s : BufReader c σ) : σ := (body.under.getD s).inner

variable [CaseMap] [LawfulReader σ] [LawfulReader ρ] [ZeroReader ρ] [Writer σ]

omit [LawfulReader ρ] [ZeroReader ρ] [Writer σ] in
/-- `src/server.rs:213-235`. Also: the connection and the handler afterwards. -/
def Handler.serveOneInner (h : Handler c η σ ρ ε) (errText : Err → Bytes) (stream : σ) (self : η) :
    Reply (ServerResponse c ρ) (ServerResponse c ρ) × σ × η :=
  match HttpRequest.deserialize c (BufReader.new c stream) with
  | (.err e, s) => (.err (ServerResponse.ofError c errText e), s.inner, self)
  | (.panic, s) => (.panic, s.inner, self)
  | (.ok request, s) =>
    match request.method with
    | .Delete => match h.delete request.uri self with | (r, self) => (r.mapErr h.into, request.body.released s, self)
    | .Get => match h.get request.uri self with | (r, self) => (r.mapErr h.into, request.body.released s, self)
    | .Head => match h.head request.uri self with | (r, self) => (r.mapErr h.into, request.body.released s, self)
    | .Options => match h.options request.uri self with | (r, self) => (r.mapErr h.into, request.body.released s, self)
    | .Post =>
      match request.body.requireLength with
      | .err e => (.err (ServerResponse.ofError c errText e), request.body.released s, self)
      | .panic => (.panic, request.body.released s, self)
      | .ok () =>
        match h.post request.uri request.body self with | (r, body, self) => (r.mapErr h.into, body.released s, self)
    | .Put =>
      match request.body.requireLength with
      | .err e => (.err (ServerResponse.ofError c errText e), request.body.released s, self)
      | .panic => (.panic, request.body.released s, self)
      | .ok () =>
        match h.put request.uri request.body self with | (r, body, self) => (r.mapErr h.into, body.released s, self)
    | .Trace => match h.trace request.uri self with | (r, self) => (r.mapErr h.into, request.body.released s, self)

omit [CaseMap] [LawfulReader σ] in
/-- `src/server.rs:206-209`: write the head, then copy the body. Also: the body and the connection afterwards. -/
def respond (c : Cfg) (response : ServerResponse c ρ) (stream : σ) :
    Except Err Unit × HttpBody c (BufReader c (Boxed ρ)) × σ :=
  match response.serialize stream with
  | (.error e, stream) => (.error (c.toIo e), response.body, stream)
  | (.ok (), stream) =>
    match copy c response.body stream 0 with
    | (.error e, body, stream) => (.error e, body, stream)
    | (.ok _, body, stream) => (.ok (), body, stream)

/-- `src/server.rs:199-210`, given what `accept` (`:200`) returned. Also: the connection (if there was one) when it is
dropped, and the handler afterwards. -/
def Handler.serveOne (h : Handler c η σ ρ ε) (errText : Err → Bytes) (accepted : Res σ) (self : η) :
    Res Unit × Option σ × η :=
  match accepted with
  | .err e => (.err (c.toIo e), none, self)
  | .panic => (.panic, none, self)
  | .ok stream =>
    match h.serveOneInner errText stream self with
    | (.panic, stream, self) => (.panic, some stream, self)
    | (.ok response, stream, self) =>
      match respond c response stream with
      | (.ok (), body, stream) => (.ok (), some stream, h.release body self)
      | (.error e, body, stream) => (.err e, some stream, h.release body self)
    | (.err response, stream, self) =>
      match respond c response stream with
      | (.ok (), _, stream) => (.ok (), some stream, self)
      | (.error e, _, stream) => (.err e, some stream, self)

/-- `src/server.rs:241-247`: the loop, as far as it gets with these outcomes of `accept`. For every connection the
result of serving it and the connection as it was dropped. A panic ends the loop (it is not caught). -/
def Handler.serveForever (h : Handler c η σ ρ ε) (errText : Err → Bytes) :
    List (Res σ) → η → List (Res Unit × Option σ) × η
  | [], self => ([], self)
  | a :: rest, self =>
    match h.serveOne errText a self with
    | (.panic, s, self) => ([(.panic, s)], self)
    | (.err e, s, self) =>
      match h.serveForever errText rest self with | (rs, self) => ((.err e, s) :: rs, self)
    | (.ok (), s, self) =>
      match h.serveForever errText rest self with | (rs, self) => ((.ok (), s) :: rs, self)

end

end HttpIo
