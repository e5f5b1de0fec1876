import Verif.Model.Client
import Verif.Model.Server
import Verif.Spec.Body
import Verif.Lemmas.Case

/-!
The crate's own unit tests, run on the model. Each `example` below is one `#[test]` of the repository, with the model's
function in place of the code's; the lines are cited. They say nothing for all inputs: they are a check that the model
answers as the authors of the code say it answers. Left out: the tests of the `url` crate (`src/url.rs:117-277`,
`:339-344`; its parser is a parameter of the model), the tests that need a network or certificates
(`src/client.rs:386-404`, `:482-531`), and `from_code_to_code` (`src/protocol.rs:809-814`), which is `C01_code_lossless`.
The tests are built with `std`; those about reading and writing are run under both configurations here.
-/

namespace HttpIo.RepoTests
open Spec

attribute [local instance] asciiCase

/-- `Result::is_err`. -/
def failed {α : Type} : Res α → Bool
  | .err _ => true
  | _ => false

/-- `result.unwrap() == a`. -/
def gives {α : Type} [DecidableEq α] (r : Res α) (a : α) : Bool := decide (r = .ok a)

/-! ### Chunked bodies, `src/protocol.rs:100-133`, `:192-214` -/

/-- `read_to_string`: reads until a read returns nothing; none if a read fails. (`n` bounds the number of reads.) -/
def readAll {σ : Type} [Reader σ] : Nat → σ → Option Bytes
  | 0, _ => none
  | n + 1, s =>
    match Reader.read s 32 with
    | (.error _, _) => none
    | (.ok [], _) => some []
    | (.ok bs, s) => (readAll n s).map (bs ++ ·)

/-- `src/protocol.rs:107-114`. -/
def chunkTest (c : Cfg) (i : Bytes) : Option Bytes :=
  readAll 100 (HttpChunkedBody.new c none (BufReader.new c (SliceReader.mk i)))

/-- `src/protocol.rs:116-122`. -/
example : ∀ std, chunkTest ⟨std⟩ b!"a\r\n0123456789\r\n0\r\n" = some b!"0123456789" := by decide +kernel

/-- `src/protocol.rs:124-127`. -/
example : ∀ std, chunkTest ⟨std⟩ b!"a\r\n0123456789\r\n" = none := by decide +kernel

/-- `src/protocol.rs:129-132`. -/
example : ∀ std, chunkTest ⟨std⟩ b!"a\r\n012345678" = none := by decide +kernel

/-- `HttpBody::new(encoding, content_length, io::BufReader::new(io::empty())).content_length()`. -/
def lengthTest (c : Cfg) (encoding : Option Bytes) (n : Option Nat) : Option Nat :=
  (HttpBody.new c encoding n (BufReader.new c EmptyReader.mk)).contentLength

/-- `src/protocol.rs:192-196`. -/
example : ∀ std, lengthTest ⟨std⟩ (some b!"chunked") none = none := by decide +kernel
/-- `src/protocol.rs:198-202`. -/
example : ∀ std, lengthTest ⟨std⟩ (some b!"chunked") (some 12) = some 12 := by decide +kernel
/-- `src/protocol.rs:204-208`. -/
example : ∀ std, lengthTest ⟨std⟩ none none = none := by decide +kernel
/-- `src/protocol.rs:210-214`. -/
example : ∀ std, lengthTest ⟨std⟩ none (some 12) = some 12 := by decide +kernel

/-! ### `CrLfStream`, `src/protocol.rs:265-302` -/

/-- `CrLfStream::next` that many times; an error is `none`. -/
def lines (c : Cfg) : Nat → SliceReader → List (Option (Option Bytes))
  | 0, _ => []
  | n + 1, s =>
    match crlfNext c s with
    | (none, s) => none :: lines c n s
    | (some (.error _), s) => some none :: lines c n s
    | (some (.ok l), s) => some (some l) :: lines c n s

/-- `CrLfStream::expect_next` that many times; an error is `none`. -/
def expected (c : Cfg) : Nat → SliceReader → List (Option Bytes)
  | 0, _ => []
  | n + 1, s =>
    match expectNext c s with
    | (.error _, s) => none :: expected c n s
    | (.ok l, s) => some l :: expected c n s

/-- `src/protocol.rs:269-276`. -/
example : ∀ std, lines ⟨std⟩ 3 ⟨b!"line1\r\nline2\r\n\r\n"⟩ = [some (some b!"line1"), some (some b!"line2"), none] := by
  decide +kernel
/-- `src/protocol.rs:278-285`. -/
example : ∀ std, expected ⟨std⟩ 3 ⟨b!"line1\r\nline2\r\n\r\n"⟩ = [some b!"line1", some b!"line2", none] := by
  decide +kernel
/-- `src/protocol.rs:287-294`. -/
example : ∀ std, lines ⟨std⟩ 3 ⟨b!"line1\r\nline2\r\n"⟩ = [some (some b!"line1"), some (some b!"line2"), some none] := by
  decide +kernel
/-- `src/protocol.rs:296-301`. -/
example : ∀ std, lines ⟨std⟩ 1 ⟨b!"line1"⟩ = [some none] := by decide +kernel

/-! ### `Parser`, `src/protocol.rs:417-537` -/

/-- One call of a parser method, and what the test says about its result (`none`: an error). -/
inductive Step where
  | expect (s : Bytes) (ok : Bool)
  | digit (r : Option Nat)
  | token (r : Option Bytes)
  | til (div : Bytes) (r : Option Bytes)
  | any (divs : Bytes) (r : Option Bytes)
  | number (r : Option Nat)
  | remaining (r : Option Bytes)

/-- The result is `Ok` of this, or (`none`) an error. A panic is neither. -/
def agrees {α : Type} [DecidableEq α] : Res α → Option α → Bool
  | .ok a, some b => decide (a = b)
  | .err _, none => true
  | _, _ => false

/-- All assertions of the test hold. -/
def passes : Parser → List Step → Bool
  | _, [] => true
  | p, .expect s ok :: rest => match p.expect s with | (r, p) => agrees r (if ok then some () else none) && passes p rest
  | p, .digit v :: rest => match p.parseDigit with | (r, p) => agrees r v && passes p rest
  | p, .token v :: rest => match p.parseToken with | (r, p) => agrees r v && passes p rest
  | p, .til d v :: rest => match p.parseUntil d with | (r, p) => agrees r v && passes p rest
  | p, .any d v :: rest => match p.parseUntilAny d with | (r, p) => agrees r v && passes p rest
  | p, .number v :: rest => match p.parseNumber with | (r, p) => agrees r v && passes p rest
  | p, .remaining v :: rest => match p.parseRemaining with | (r, p) => agrees r v && passes p rest

/-- `src/protocol.rs:421-427`. -/
example : passes (.new b!"") [.expect b!"a" false, .digit none, .token none] = true := by decide +kernel
/-- `src/protocol.rs:429-435`. -/
example : passes (.new b!"abcdefg") [.expect b!"abc" true, .expect b!"def" true, .expect b!"g" true] = true := by
  decide +kernel
/-- `src/protocol.rs:437-443`. -/
example : passes (.new b!"abcdefg") [.expect b!"abc" true, .expect b!"deg" false, .expect b!"defg" true] = true := by
  decide +kernel
/-- `src/protocol.rs:445-450`. -/
example : passes (.new b!"abcdefg") [.expect b!"abcdefg" true, .expect b!"a" false] = true := by decide +kernel
/-- `src/protocol.rs:452-458`. -/
example : passes (.new b!"abc def") [.token (some b!"abc"), .token (some b!"def"), .token none] = true := by
  decide +kernel
/-- `src/protocol.rs:460-466`. -/
example : passes (.new b!"abc  \t    def") [.token (some b!"abc"), .token (some b!"def"), .token none] = true := by
  decide +kernel
/-- `src/protocol.rs:468-473`. -/
example : passes (.new b!"abcdef") [.token (some b!"abcdef"), .token none] = true := by decide +kernel
/-- `src/protocol.rs:475-481`. -/
example : passes (.new b!"abc_def") [.til b!"_" (some b!"abc"), .expect b!"_" true, .til b!"_" none] = true := by
  decide +kernel
/-- `src/protocol.rs:483-494`. -/
example : passes (.new b!"abc_def") [.any b!"_-" (some b!"abc"), .expect b!"_" true, .any b!"_-" none] = true ∧
    passes (.new b!"abc-def") [.any b!"_-" (some b!"abc"), .expect b!"-" true, .any b!"_-" none] = true := by
  decide +kernel
/-- `src/protocol.rs:496-500`. -/
example : passes (.new b!"_abc") [.til b!"_" (some b!"")] = true := by decide +kernel
/-- `src/protocol.rs:502-506`. -/
example : passes (.new b!"abcdef") [.til b!"_" none] = true := by decide +kernel
/-- `src/protocol.rs:508-514`. -/
example : passes (.new b!"123 456") [.number (some 123), .number (some 456), .number none] = true := by decide +kernel
/-- `src/protocol.rs:516-521`. -/
example : passes (.new b!"123 abc") [.number (some 123), .number none] = true := by decide +kernel
/-- `src/protocol.rs:523-528`. -/
example : passes (.new b!"123 abc") [.remaining (some b!"123 abc"), .remaining none] = true := by decide +kernel
/-- `src/protocol.rs:530-536`. -/
example : passes (.new b!"123 abc") [.expect b!"123 abc" true, .remaining (some b!""), .remaining none] = true := by
  decide +kernel

/-! ### Versions, `src/protocol.rs:571-608` -/

/-- `src/protocol.rs:576-586`. -/
example : gives (HttpVersion.fromStr b!"HTTP/1.1") ⟨1, 1⟩ = true ∧ gives (HttpVersion.fromStr b!"HTTP/1.2") ⟨1, 2⟩ = true := by
  decide +kernel
/-- `src/protocol.rs:588-594`. -/
example : ∀ s ∈ [b!"HTTP/", b!"HTTP/11.1", b!"HTTP/1", b!"HRRP/1.2"], failed (HttpVersion.fromStr s) = true := by
  decide +kernel
/-- `src/protocol.rs:596-599`. -/
example : HttpVersion.display ⟨1, 3⟩ = b!"HTTP/1.3" := by decide +kernel
/-- `src/protocol.rs:601-607`. -/
example : (match HttpVersion.fromStr b!"HTTP/1.4" with | .ok v => v.display | _ => []) = b!"HTTP/1.4" := by decide +kernel

/-! ### Status codes, `src/protocol.rs:776-807`, `:880-1381` -/

/-- `src/protocol.rs:776-807`. -/
example : HttpStatus.Continue.toCategory = .Informational ∧ HttpStatus.Accepted.toCategory = .Success ∧
    HttpStatus.MovedPermanently.toCategory = .Redirection ∧ HttpStatus.Forbidden.toCategory = .ClientError ∧
    HttpStatus.InternalServerError.toCategory = .ServerError ∧ (HttpStatus.Unknown 200).toCategory = .Success ∧
    (HttpStatus.Unknown 700).toCategory = .Unknown := by
  decide +kernel

/-- `src/protocol.rs:884-1013`. -/
example : ∀ p ∈ ([
    (b!"301 Moved Permanently", .MovedPermanently),
    (b!"100", .Continue),
    (b!"101", .SwitchingProtocols),
    (b!"200", .OK),
    (b!"201", .Created),
    (b!"202", .Accepted),
    (b!"203", .NonAuthoritativeInformation),
    (b!"204", .NoContent),
    (b!"205", .ResetContent),
    (b!"206", .PartialContent),
    (b!"300", .MultipleChoices),
    (b!"301", .MovedPermanently),
    (b!"302", .Found),
    (b!"303", .SeeOther),
    (b!"304", .NotModified),
    (b!"305", .UseProxy),
    (b!"307", .TemporaryRedirect),
    (b!"400", .BadRequest),
    (b!"401", .Unauthorized),
    (b!"402", .PaymentRequired),
    (b!"403", .Forbidden),
    (b!"404", .NotFound),
    (b!"405", .MethodNotAllowed),
    (b!"406", .NotAcceptable),
    (b!"407", .ProxyAuthenticationRequired),
    (b!"408", .RequestTimeout),
    (b!"409", .Conflict),
    (b!"410", .Gone),
    (b!"411", .LengthRequired),
    (b!"412", .PreconditionFailed),
    (b!"413", .RequestEntityTooLarge),
    (b!"414", .RequestUriTooLong),
    (b!"415", .UnsupportedMediaType),
    (b!"416", .RequestedRangeNotSatisfiable),
    (b!"417", .ExpectationFailed),
    (b!"500", .InternalServerError),
    (b!"501", .NotImplemented),
    (b!"502", .BadGateway),
    (b!"503", .ServiceUnavailable),
    (b!"504", .GatewayTimeout),
    (b!"505", .HttpVersionNotSupported),
    (b!"200 OK", .OK),
    (b!"899", .Unknown 899)] : List (Bytes × HttpStatus)),
    gives (HttpStatus.fromStr p.1) p.2 = true := by
  decide +kernel

/-- `src/protocol.rs:1015-1019`. -/
example : failed (HttpStatus.fromStr b!"abc") = true ∧ failed (HttpStatus.fromStr b!"301a") = true := by decide +kernel

/-- `src/protocol.rs:1021-1130`. -/
example : ∀ p ∈ ([
    (.Accepted, b!"202 Accepted"),
    (.BadGateway, b!"502 Bad Gateway"),
    (.BadRequest, b!"400 Bad Request"),
    (.Conflict, b!"409 Conflict"),
    (.Continue, b!"100 Continue"),
    (.Created, b!"201 Created"),
    (.ExpectationFailed, b!"417 Expectation Failed"),
    (.Forbidden, b!"403 Forbidden"),
    (.Found, b!"302 Found"),
    (.GatewayTimeout, b!"504 Gateway Timeout"),
    (.Gone, b!"410 Gone"),
    (.HttpVersionNotSupported, b!"505 HTTP Version Not Supported"),
    (.InternalServerError, b!"500 Internal Server Error"),
    (.LengthRequired, b!"411 Length Required"),
    (.MethodNotAllowed, b!"405 Method Not Allowed"),
    (.MovedPermanently, b!"301 Moved Permanently"),
    (.MultipleChoices, b!"300 Multiple Choices"),
    (.NoContent, b!"204 No Content"),
    (.NonAuthoritativeInformation, b!"203 No Authoritative Information"),
    (.NotAcceptable, b!"406 Not Acceptable"),
    (.NotFound, b!"404 Not Found"),
    (.NotImplemented, b!"501 Not Implemented"),
    (.NotModified, b!"304 NotModified"),
    (.OK, b!"200 OK"),
    (.PartialContent, b!"206 Partial Content"),
    (.PaymentRequired, b!"402 Payment Required"),
    (.PreconditionFailed, b!"412 Precondition Failed"),
    (.ProxyAuthenticationRequired, b!"407 Prozy Authentication Required"),
    (.RequestEntityTooLarge, b!"413 Request Entity Too Large"),
    (.RequestTimeout, b!"408 Request Timeout"),
    (.RequestUriTooLong, b!"414 Request URI Too Long"),
    (.RequestedRangeNotSatisfiable, b!"416 Requested Range Not Satisfiable"),
    (.ResetContent, b!"205 Reset Content"),
    (.SeeOther, b!"303 See Other"),
    (.ServiceUnavailable, b!"503 Service Unavailable"),
    (.SwitchingProtocols, b!"101 Switching Protocols"),
    (.TemporaryRedirect, b!"307 Temporary Redirect"),
    (.Unauthorized, b!"401 Unauthorized"),
    (.UnsupportedMediaType, b!"415 Unsupported Media Type"),
    (.UseProxy, b!"305 Use Proxy"),
    (.Unknown 899, b!"899")] : List (HttpStatus × Bytes)),
    p.1.display = p.2 := by
  decide +kernel

/-- `src/protocol.rs:1132-1381`. -/
example : ∀ p ∈ [
    (b!"202 Accepted", b!"202 Accepted"),
    (b!"502 Bad Gateway", b!"502 Bad Gateway"),
    (b!"400 Bad Request", b!"400 Bad Request"),
    (b!"409 Conflict", b!"409 Conflict"),
    (b!"100 Continue", b!"100 Continue"),
    (b!"201 Created", b!"201 Created"),
    (b!"417 Expectation Failed", b!"417 Expectation Failed"),
    (b!"403 Forbidden", b!"403 Forbidden"),
    (b!"302 Found", b!"302 Found"),
    (b!"504 Gateway Timeout", b!"504 Gateway Timeout"),
    (b!"410 Gone", b!"410 Gone"),
    (b!"505 HTTP Version Not Supported", b!"505 HTTP Version Not Supported"),
    (b!"500 Internal Server Error", b!"500 Internal Server Error"),
    (b!"411 Length Required", b!"411 Length Required"),
    (b!"405 Method Not Allowed", b!"405 Method Not Allowed"),
    (b!"301 Moved Permanently", b!"301 Moved Permanently"),
    (b!"300 Multiple Choices", b!"300 Multiple Choices"),
    (b!"204 No Content", b!"204 No Content"),
    (b!"203 No Authoritative Information", b!"203 No Authoritative Information"),
    (b!"406 Not Acceptable", b!"406 Not Acceptable"),
    (b!"404 Not Found", b!"404 Not Found"),
    (b!"501 Not Implemented", b!"501 Not Implemented"),
    (b!"304 NotModified", b!"304 NotModified"),
    (b!"200 OK", b!"200 OK"),
    (b!"206 Partial Content", b!"206 Partial Content"),
    (b!"402 Payment Required", b!"402 Payment Required"),
    (b!"412 Precondition Failed", b!"412 Precondition Failed"),
    (b!"407 Prozy Authentication Required", b!"407 Prozy Authentication Required"),
    (b!"413 Request Entity Too Large", b!"413 Request Entity Too Large"),
    (b!"408 Request Timeout", b!"408 Request Timeout"),
    (b!"414 Request URI Too Long", b!"414 Request URI Too Long"),
    (b!"416 Requested Range Not Satisfiable", b!"416 Requested Range Not Satisfiable"),
    (b!"205 Reset Content", b!"205 Reset Content"),
    (b!"303 See Other", b!"303 See Other"),
    (b!"503 Service Unavailable", b!"503 Service Unavailable"),
    (b!"101 Switching Protocols", b!"101 Switching Protocols"),
    (b!"307 Temporary Redirect", b!"307 Temporary Redirect"),
    (b!"401 Unauthorized", b!"401 Unauthorized"),
    (b!"415 Unsupported Media Type", b!"415 Unsupported Media Type"),
    (b!"305 Use Proxy", b!"305 Use Proxy"),
    (b!"889", b!"889")],
    (match HttpStatus.fromStr p.1 with | .ok s => s.display | _ => []) = p.2 := by
  decide +kernel

/-! ### Methods, `src/protocol.rs:1696-1746` -/

/-- `src/protocol.rs:1701-1712`. -/
example : ∀ p ∈ [
    (b!"DELETE", HttpMethod.Delete),
    (b!"GET", HttpMethod.Get),
    (b!"HEAD", HttpMethod.Head),
    (b!"OPTIONS", HttpMethod.Options),
    (b!"POST", HttpMethod.Post),
    (b!"PUT", HttpMethod.Put),
    (b!"TRACE", HttpMethod.Trace)],
    gives (HttpMethod.fromStr p.1) p.2 = true := by
  decide +kernel

/-- `src/protocol.rs:1715-1718`. -/
example : failed (HttpMethod.fromStr b!"GE") = true ∧ failed (HttpMethod.fromStr b!"BLARG") = true := by
  decide +kernel

/-- `src/protocol.rs:1721-1729`. -/
example : ∀ p ∈ [
    (b!"DELETE", HttpMethod.Delete),
    (b!"GET", HttpMethod.Get),
    (b!"HEAD", HttpMethod.Head),
    (b!"OPTIONS", HttpMethod.Options),
    (b!"POST", HttpMethod.Post),
    (b!"PUT", HttpMethod.Put),
    (b!"TRACE", HttpMethod.Trace)],
    p.2.display = p.1 := by
  decide +kernel

/-- `src/protocol.rs:1732-1745`. -/
example : ∀ s ∈ [b!"DELETE", b!"GET", b!"HEAD", b!"POST", b!"OPTIONS", b!"PUT", b!"TRACE"],
    (match HttpMethod.fromStr s with | .ok m => m.display | _ => []) = s := by
  decide +kernel

/-! ### Headers, `src/protocol.rs:1397-1417`, `:1500-1512`, `:1524-1563` -/

/-- `src/protocol.rs:1401-1410`. -/
example : gives (HttpHeader.deserialize b!"key: value") (HttpHeader.new b!"key" b!"value") = true ∧
    gives (HttpHeader.deserialize b!"key: value1 value2") (HttpHeader.new b!"key" b!"value1 value2") = true := by
  decide +kernel

/-- `src/protocol.rs:1413-1416`. -/
example : failed (HttpHeader.deserialize b!"key") = true := by
  decide +kernel

/-- `src/protocol.rs:1500-1512`. -/
example : ∀ k1 ∈ [b!"FOO", b!"FoO", b!"foo"], ∀ k2 ∈ [b!"FOO", b!"FoO", b!"foo"],
      ((HttpHeaders.new.insert k1 b!"Bar").insert k1 b!"Bar").get k2 = some b!"Bar" := by
  decide +kernel

/-- What `HttpHeaders::serialize` writes into a `Vec`. -/
def headersText (c : Cfg) (h : HttpHeaders) : Bytes := (h.serialize c (Sink.mk [] 0 [])).2.got

/-- `src/protocol.rs:1529-1535`. -/
example : ∀ std, headersText ⟨std⟩ (.fromVec [HttpHeader.new b!"A" b!"B", HttpHeader.new b!"c" b!"d"]) = b!"a: B\r\nc: d\r\n" := by
  decide +kernel

/-- `src/protocol.rs:1537-1543`. -/
example : ∀ std, headersText ⟨std⟩ (.fromVec []) = b!"" := by decide +kernel

/-- `src/protocol.rs:1545-1552`. -/
example : ∀ std, gives (HttpHeaders.deserialize ⟨std⟩ (SliceReader.mk b!"A: b\r\nC: d\r\n\r\n")).1
      (.fromVec [HttpHeader.new b!"a" b!"b", HttpHeader.new b!"c" b!"d"]) = true := by
  decide +kernel

/-- `src/protocol.rs:1554-1561`. -/
example : ∀ std, gives (HttpHeaders.deserialize ⟨std⟩ (SliceReader.mk b!"a: b\r\n e\r\nc: d\r\n\r\n")).1
      (.fromVec [HttpHeader.new b!"a" b!"b e", HttpHeader.new b!"c" b!"d"]) = true := by
  decide +kernel

/-! ### Messages, `src/protocol.rs:1628-1644`, `:1905-1922` -/

/-- `src/protocol.rs:1633-1643`. -/
example : ∀ std, (match (HttpResponse.deserialize ⟨std⟩ (SliceReader.mk b!"HTTP/1.1 200 OK\r\nA: B\r\nC: D\r\n\r\n")).1 with
      | .ok actual =>
        let expected := ((HttpResponse.new ⟨std⟩ .OK EmptyReader.mk).addHeader b!"A" b!"B").addHeader b!"C" b!"D"
        decide (actual.version = expected.version ∧ actual.status = expected.status ∧ actual.headers = expected.headers)
      | _ => false) = true := by
  decide +kernel

/-- `src/protocol.rs:1910-1921`. -/
example : ∀ std, (match (HttpRequest.deserialize ⟨std⟩
        (BufReader.new ⟨std⟩ (SliceReader.mk b!"GET /a/b HTTP/1.1\r\nA: B\r\nC: D\r\n\r\n"))).1 with
      | .ok actual =>
        let expected := ((HttpRequest.new ⟨std⟩ .Get b!"/a/b").addHeader b!"A" b!"B").addHeader b!"C" b!"D"
        decide (actual.version = expected.version ∧ actual.method = expected.method ∧ actual.headers = expected.headers)
      | _ => false) = true := by
  decide +kernel

/-! ### URLs, `src/url.rs:279-336` -/

/-- What `Url::parse` makes of `scheme://host:port/b/c/d`. -/
def url (scheme : Bytes) (host : Option Bytes) (port : Option Nat) (path : Bytes) : Url :=
  ⟨scheme, host, port, path, none, none, [], none⟩

/-- `src/url.rs:279-297`. -/
example : (url b!"http" (some b!"google.com") none b!"/").portOrKnownDefault = some 80 ∧
    (url b!"https" (some b!"google.com") none b!"/").portOrKnownDefault = some 443 ∧
    (url b!"http" (some b!"google.com") (some 9090) b!"/").portOrKnownDefault = some 9090 ∧
    (url b!"file" (some b!"google.com") none b!"/").portOrKnownDefault = none ∧
    (url b!"derp" (some b!"google.com") none b!"").portOrKnownDefault = none := by
  decide +kernel

/-- `src/url.rs:299-304`. -/
def httpUrlIs [CaseMap] (u : Url) (scheme : Scheme) (host : Bytes) (port : Nat) : Bool :=
  match HttpUrl.fromStr (fun _ => some u) [] with
  | .ok h => decide (h.scheme = scheme ∧ h.host = host ∧ h.portOf = .ok port)
  | _ => false

/-- `src/url.rs:306-312`. -/
example : httpUrlIs (url b!"http" (some b!"a.com") none b!"/b/c/d") .Http b!"a.com" 80 = true ∧
    httpUrlIs (url b!"https" (some b!"a.com") none b!"/b/c/d") .Https b!"a.com" 443 = true ∧
    httpUrlIs (url b!"http" (some b!"a.com") (some 9000) b!"/b/c/d") .Http b!"a.com" 9000 = true ∧
    httpUrlIs (url b!"https" (some b!"a.com") (some 9000) b!"/b/c/d") .Https b!"a.com" 9000 = true := by
  decide +kernel

/-- `src/url.rs:320-337` (the texts of the errors are not in the model). -/
example : HttpUrl.tryFrom (url b!"file" none none b!"/mnt/sdcard") = .err .url ∧
    HttpUrl.tryFrom (url b!"ftp" (some b!"mnt") none b!"/sdcard") = .err .url ∧
    HttpUrl.tryFrom (url b!"ws" (some b!"a.com") none b!"/b/c/d") = .err .url ∧
    HttpUrl.tryFrom (url b!"wss" (some b!"a.com") none b!"/b/c/d") = .err .url := by
  decide +kernel

/-! ### Client and server, `src/client.rs:341-479`, `src/server.rs:254-417`

The tests run the client and the server in two threads over a local connection. Here the server is given what the client
sends, the client what the server sends; that these are what the other side says is part of the example. -/

/-- `src/server.rs:255-263`. -/
structure ExpectedRequest where
  method : HttpMethod
  uri : Bytes
  body : Bytes
  status : HttpStatus
  responseBody : Bytes
  headers : List (Bytes × Bytes)

/-- A connection over which these bytes arrive. -/
def conn (bytes : Bytes) : Duplex SliceReader Sink := ⟨⟨bytes⟩, ⟨[], 0, []⟩⟩

/-- `TestRequestHandler`, `src/server.rs:282-322`: a failed assertion and `remove(0)` of nothing are panics. -/
def testHandler [CaseMap] (c : Cfg) :
    Handler c (List ExpectedRequest) (Duplex SliceReader Sink) EmptyReader (ServerResponse c EmptyReader) :=
  { Handler.defaults c _ _ _ _ id with
    get := fun uri script =>
      match script with
      | [] => (.panic, [])
      | r :: script =>
        if r.method = .Get ∧ r.uri = uri then
          (.ok (r.headers.foldl (fun res kv => res.addHeader kv.1 kv.2) (ServerResponse.fromString c r.status r.responseBody)), script)
        else (.panic, script)
    put := fun uri stream script =>
      match script with
      | [] => (.panic, stream, [])
      | r :: script =>
        if r.method = .Put ∧ r.uri = uri then
          match copy c stream (Sink.mk [] 0 []) 0 with
          | (.ok _, stream, text) =>
            if text.got = r.body then (.ok (ServerResponse.fromString c r.status r.responseBody), stream, script)
            else (.panic, stream, script)
          | (.error _, stream, _) => (.panic, stream, script)
        else (.panic, stream, script) }

/-- `LendingHandler`, `src/server.rs:370-403`: the response reads the handler's own data. -/
def lendingHandler [CaseMap] (c : Cfg) : Handler c Bytes (Duplex SliceReader Sink) SliceReader (ServerResponse c SliceReader) :=
  { Handler.defaults c _ _ _ _ id with
    get := fun _ data => (.ok (HttpResponse.new c .OK (.B ⟨data⟩)), data)
    put := fun _ stream data => (.ok (HttpResponse.new c .OK (.B ⟨data⟩)), stream, data) }

/-- The server answers this request with these bytes, successfully, and the handler ends in a state that passes the test
(for the script: all used up, `src/server.rs:324-329`). -/
def serves [CaseMap] {c : Cfg} {η ρ ε : Type} [LawfulReader ρ] [ZeroReader ρ]
    (h : Handler c η (Duplex SliceReader Sink) ρ ε) (self : η) (done : η → Bool) (request response : Bytes) : Bool :=
  match h.serveOne (fun _ => []) (.ok (conn request)) self with
  | (.ok (), some s, self) => decide (s.wr.got = response) && done self
  | _ => false

/-- A network in which every name has one address, where connections bring these bytes; the world is what was said on
connections that were dropped (nothing, here: they are in the body that is returned). -/
def net (response : Bytes) : Net Unit Unit (Duplex SliceReader Sink) (Duplex SliceReader Sink) where
  lookup _ _ w := (.ok [()], w)
  connect _ w := (.ok (conn response), w)
  tls _ s w := (.ok s, w)

/-- What was said on the connection under a body. -/
def said {c : Cfg} (b : HttpBody c (BufReader c (StreamEither (Duplex SliceReader Sink) (Duplex SliceReader Sink)))) :
    Option Bytes :=
  match b.under with
  | some r => match r.inner with
    | .A s => some s.wr.got
    | .B s => some s.wr.got
  | none => none

/-- The client sends this request and reads this text. -/
def fetches {c : Cfg} (r : Res (HttpBody c (BufReader c (StreamEither (Duplex SliceReader Sink) (Duplex SliceReader Sink)))))
    (request text : Bytes) : Bool :=
  match r with
  | .ok b => decide (said b = some request ∧ readAll 100 b = some text)
  | _ => false

/-- The URL of the tests, with port 8000. -/
def local_ (scheme : Bytes) : Url := ⟨scheme, some b!"localhost", some 8000, b!"/", none, none, [], none⟩

/-- `client.get(url)?.finish()?.body`, `src/client.rs:380`. -/
def clientGetBody [CaseMap] (c : Cfg) (response : Bytes) (ssl : Bool) (u : Url) :
    Res (HttpBody c (BufReader c (StreamEither (Duplex SliceReader Sink) (Duplex SliceReader Sink)))) :=
  match HttpClient.get c ((net response).connector ssl) HttpClient.new (some u) () with
  | (.ok (_, o), _, _) =>
    match o.finish with
    | (.ok r, _) => .ok r.body
    | (.err e, _) => .err e
    | (.panic, _) => .panic
  | (.err e, _, _) => .err e
  | (.panic, _, _) => .panic

/-- `client_put`, `src/client.rs:462-470`. -/
def clientPutBody [CaseMap] (c : Cfg) (response : Bytes) (ssl : Bool) (u : Url) (body : Bytes) :
    Res (HttpBody c (BufReader c (StreamEither (Duplex SliceReader Sink) (Duplex SliceReader Sink)))) :=
  match HttpClient.put c ((net response).connector ssl) HttpClient.new (some u) () with
  | (.ok (_, o), _, _) =>
    match copy c (SliceReader.mk body) o 0 with
    | (.error e, _, _) => .err e
    | (.ok _, _, o) =>
      match o.finish with
      | (.ok r, _) => .ok r.body
      | (.err e, _) => .err e
      | (.panic, _) => .panic
  | (.err e, _, _) => .err e
  | (.panic, _, _) => .panic

/-- What the clients of the tests ask, and what the server answers. -/
def getBytes : Bytes := b!"GET / HTTP/1.1\r\naccept: */*\r\nhost: localhost\r\nuser-agent: http_io\r\n\r\n"
@[inherit_doc getBytes] def putBytes : Bytes :=
  b!"PUT / HTTP/1.1\r\naccept: */*\r\nhost: localhost\r\ntransfer-encoding: chunked\r\nuser-agent: http_io\r\n\r\n11\r\nhello from client\r\n0\r\n\r\n"
@[inherit_doc getBytes] def helloBytes : Bytes := b!"HTTP/1.1 200 OK\r\n\r\nhello from server"

/-- The scripts of `get_test` and `put_test`, `src/client.rs:353-360`, `:432-439`. -/
def getScript : List ExpectedRequest := [⟨.Get, b!"/", b!"", .OK, b!"hello from server", []⟩]
@[inherit_doc getScript] def putScript : List ExpectedRequest :=
  [⟨.Put, b!"/", b!"hello from client", .OK, b!"hello from server", []⟩]

/-- `src/client.rs:371-374` (`http`) and `:385-393` (`https`). -/
example : ∀ std, serves (testHandler ⟨std⟩) getScript List.isEmpty getBytes helloBytes = true ∧
      ∀ scheme ∈ [b!"http", b!"https"],
        fetches (clientGet ⟨std⟩ ((net helloBytes).connector true) (some (local_ scheme)) ()).1 getBytes
          b!"hello from server" = true := by
  decide +kernel

/-- `src/client.rs:376-383` and `:395-405`. -/
example : ∀ std, ∀ scheme ∈ [b!"http", b!"https"],
      fetches (clientGetBody ⟨std⟩ helloBytes true (local_ scheme)) getBytes b!"hello from server" = true := by
  decide +kernel

/-- `src/client.rs:456-459` and `:481-489`. -/
example : ∀ std, serves (testHandler ⟨std⟩) putScript List.isEmpty putBytes helloBytes = true ∧
      ∀ scheme ∈ [b!"http", b!"https"],
        fetches (clientPut ⟨std⟩ ((net helloBytes).connector true) (some (local_ scheme))
          (SliceReader.mk b!"hello from client") ()).1 putBytes b!"hello from server" = true := by
  decide +kernel

/-- `src/client.rs:472-479` and `:491-500`. -/
example : ∀ std, ∀ scheme ∈ [b!"http", b!"https"],
      fetches (clientPutBody ⟨std⟩ helloBytes true (local_ scheme) b!"hello from client") putBytes
        b!"hello from server" = true := by
  decide +kernel

/-- `src/client.rs:535-567` is marked `#[ignore]`: it asks that a redirect be followed. It is not: the client returns the
status as an error, and the second request of the script is never made. -/
example : ∀ std, serves (testHandler ⟨std⟩) [⟨.Get, b!"/", b!"", .MovedPermanently, b!"", [(b!"Location", b!"/next")]⟩,
        ⟨.Get, b!"/next", b!"", .OK, b!"real content", []⟩] (fun script => script.length == 1) getBytes
        b!"HTTP/1.1 301 Moved Permanently\r\nlocation: /next\r\n\r\n" = true ∧
      (match (clientGet ⟨std⟩ ((net b!"HTTP/1.1 301 Moved Permanently\r\nlocation: /next\r\n\r\n").connector true)
          (some (local_ b!"http")) ()).1 with
        | .err e => decide (e = .unexpectedStatus .MovedPermanently)
        | _ => false) = true := by
  decide +kernel

/-- `src/server.rs:404-417`. -/
example : ∀ std, serves (lendingHandler ⟨std⟩) b!"hello world" (· == b!"hello world") getBytes
        b!"HTTP/1.1 200 OK\r\n\r\nhello world" = true ∧
      fetches (clientGet ⟨std⟩ ((net b!"HTTP/1.1 200 OK\r\n\r\nhello world").connector true) (some (local_ b!"http")) ()).1
        getBytes b!"hello world" = true := by
  decide +kernel

end HttpIo.RepoTests
