import Verif.Model.Parser

/-!
Protocol version, status and method: `src/protocol.rs:539-569`, `:610-877`, `:1646-1694`.
-/

namespace HttpIo

/-! ### HttpVersion -/

/-- `src/protocol.rs:539-543`. -/
structure HttpVersion where
  major : Nat
  minor : Nat
deriving DecidableEq, Repr

/-- `src/protocol.rs:551-563`. -/
def HttpVersion.fromStr (s : Bytes) : Res HttpVersion :=
  match (Parser.new s).expect b!"HTTP/" with
  | (.err e, _) => .err e
  | (.panic, _) => .panic
  | (.ok (), p1) =>
    match p1.parseDigit with
    | (.err e, _) => .err e
    | (.panic, _) => .panic
    | (.ok major, p2) =>
      match p2.expect b!"." with
      | (.err e, _) => .err e
      | (.panic, _) => .panic
      | (.ok (), p3) =>
        match p3.parseDigit with
        | (.err e, _) => .err e
        | (.panic, _) => .panic
        | (.ok minor, _) => .ok ⟨major, minor⟩

/-- `src/protocol.rs:565-569`. -/
def HttpVersion.display (v : HttpVersion) : Bytes :=
  b!"HTTP/" ++ showDec v.major ++ b!"." ++ showDec v.minor

/-- The pieces in which `write!` writes a version: the format string `"HTTP/{}.{}"` (`src/protocol.rs:567`) gives four. -/
def HttpVersion.pieces (v : HttpVersion) : List Bytes := [b!"HTTP/", showDec v.major, b!".", showDec v.minor]

theorem HttpVersion.pieces_flatten (v : HttpVersion) : v.pieces.flatten = v.display := by
  simp [HttpVersion.pieces, HttpVersion.display]

/-! ### HttpStatus -/

/-- `src/protocol.rs:655-663`. -/
inductive HttpStatusCategory where
  | Informational | Success | Redirection | ClientError | ServerError | Unknown
deriving DecidableEq, Repr

/-- `src/protocol.rs:666-675`. -/
def HttpStatusCategory.fromCode (code : UInt32) : HttpStatusCategory :=
  match code with
  | 1 => .Informational
  | 2 => .Success
  | 3 => .Redirection
  | 4 => .ClientError
  | 5 => .ServerError
  | _ => .Unknown

/-- `src/protocol.rs:683-727`. -/
def HttpStatus.toCode : HttpStatus → UInt32
  | .Continue => 100
  | .SwitchingProtocols => 101
  | .OK => 200
  | .Created => 201
  | .Accepted => 202
  | .NonAuthoritativeInformation => 203
  | .NoContent => 204
  | .ResetContent => 205
  | .PartialContent => 206
  | .MultipleChoices => 300
  | .MovedPermanently => 301
  | .Found => 302
  | .SeeOther => 303
  | .NotModified => 304
  | .UseProxy => 305
  | .TemporaryRedirect => 307
  | .BadRequest => 400
  | .Unauthorized => 401
  | .PaymentRequired => 402
  | .Forbidden => 403
  | .NotFound => 404
  | .MethodNotAllowed => 405
  | .NotAcceptable => 406
  | .ProxyAuthenticationRequired => 407
  | .RequestTimeout => 408
  | .Conflict => 409
  | .Gone => 410
  | .LengthRequired => 411
  | .PreconditionFailed => 412
  | .RequestEntityTooLarge => 413
  | .RequestUriTooLong => 414
  | .UnsupportedMediaType => 415
  | .RequestedRangeNotSatisfiable => 416
  | .ExpectationFailed => 417
  | .InternalServerError => 500
  | .NotImplemented => 501
  | .BadGateway => 502
  | .ServiceUnavailable => 503
  | .GatewayTimeout => 504
  | .HttpVersionNotSupported => 505
  | .Unknown c => c

/-- `src/protocol.rs:729-773`. -/
def HttpStatus.fromCode (code : UInt32) : HttpStatus :=
  match code with
  | 100 => .Continue
  | 101 => .SwitchingProtocols
  | 200 => .OK
  | 201 => .Created
  | 202 => .Accepted
  | 203 => .NonAuthoritativeInformation
  | 204 => .NoContent
  | 205 => .ResetContent
  | 206 => .PartialContent
  | 300 => .MultipleChoices
  | 301 => .MovedPermanently
  | 302 => .Found
  | 303 => .SeeOther
  | 304 => .NotModified
  | 305 => .UseProxy
  | 307 => .TemporaryRedirect
  | 400 => .BadRequest
  | 401 => .Unauthorized
  | 402 => .PaymentRequired
  | 403 => .Forbidden
  | 404 => .NotFound
  | 405 => .MethodNotAllowed
  | 406 => .NotAcceptable
  | 407 => .ProxyAuthenticationRequired
  | 408 => .RequestTimeout
  | 409 => .Conflict
  | 410 => .Gone
  | 411 => .LengthRequired
  | 412 => .PreconditionFailed
  | 413 => .RequestEntityTooLarge
  | 414 => .RequestUriTooLong
  | 415 => .UnsupportedMediaType
  | 416 => .RequestedRangeNotSatisfiable
  | 417 => .ExpectationFailed
  | 500 => .InternalServerError
  | 501 => .NotImplemented
  | 502 => .BadGateway
  | 503 => .ServiceUnavailable
  | 504 => .GatewayTimeout
  | 505 => .HttpVersionNotSupported
  | v => .Unknown v

/-- `src/protocol.rs:679-681`. -/
def HttpStatus.toCategory (s : HttpStatus) : HttpStatusCategory :=
  HttpStatusCategory.fromCode (s.toCode / 100)

/-- `src/protocol.rs:816-823`. -/
def HttpStatus.fromStr (s : Bytes) : Res HttpStatus :=
  match (Parser.new s).parseNumber with
  | (.ok n, _) => .ok (HttpStatus.fromCode (UInt32.ofNat n))
  | (.err e, _) => .err e
  | (.panic, _) => .panic

/-- `src/protocol.rs:825-877`. -/
def HttpStatus.display : HttpStatus → Bytes
  | .Accepted => b!"202 Accepted"
  | .BadGateway => b!"502 Bad Gateway"
  | .BadRequest => b!"400 Bad Request"
  | .Conflict => b!"409 Conflict"
  | .Continue => b!"100 Continue"
  | .Created => b!"201 Created"
  | .ExpectationFailed => b!"417 Expectation Failed"
  | .Forbidden => b!"403 Forbidden"
  | .Found => b!"302 Found"
  | .GatewayTimeout => b!"504 Gateway Timeout"
  | .Gone => b!"410 Gone"
  | .HttpVersionNotSupported => b!"505 HTTP Version Not Supported"
  | .InternalServerError => b!"500 Internal Server Error"
  | .LengthRequired => b!"411 Length Required"
  | .MethodNotAllowed => b!"405 Method Not Allowed"
  | .MovedPermanently => b!"301 Moved Permanently"
  | .MultipleChoices => b!"300 Multiple Choices"
  | .NoContent => b!"204 No Content"
  | .NonAuthoritativeInformation => b!"203 No Authoritative Information"
  | .NotAcceptable => b!"406 Not Acceptable"
  | .NotFound => b!"404 Not Found"
  | .NotImplemented => b!"501 Not Implemented"
  | .NotModified => b!"304 NotModified"
  | .OK => b!"200 OK"
  | .PartialContent => b!"206 Partial Content"
  | .PaymentRequired => b!"402 Payment Required"
  | .PreconditionFailed => b!"412 Precondition Failed"
  | .ProxyAuthenticationRequired => b!"407 Prozy Authentication Required"
  | .RequestEntityTooLarge => b!"413 Request Entity Too Large"
  | .RequestTimeout => b!"408 Request Timeout"
  | .RequestUriTooLong => b!"414 Request URI Too Long"
  | .RequestedRangeNotSatisfiable => b!"416 Requested Range Not Satisfiable"
  | .ResetContent => b!"205 Reset Content"
  | .SeeOther => b!"303 See Other"
  | .ServiceUnavailable => b!"503 Service Unavailable"
  | .SwitchingProtocols => b!"101 Switching Protocols"
  | .TemporaryRedirect => b!"307 Temporary Redirect"
  | .Unauthorized => b!"401 Unauthorized"
  | .UnsupportedMediaType => b!"415 Unsupported Media Type"
  | .UseProxy => b!"305 Use Proxy"
  | .Unknown v => showDec v.toNat

/-! ### HttpMethod -/

/-- `src/protocol.rs:1657-1671`. -/
def HttpMethod.fromStr [CaseMap] (s : Bytes) : Res HttpMethod :=
  if CaseMap.upper s = b!"DELETE" then .ok .Delete
  else if CaseMap.upper s = b!"GET" then .ok .Get
  else if CaseMap.upper s = b!"HEAD" then .ok .Head
  else if CaseMap.upper s = b!"OPTIONS" then .ok .Options
  else if CaseMap.upper s = b!"POST" then .ok .Post
  else if CaseMap.upper s = b!"PUT" then .ok .Put
  else if CaseMap.upper s = b!"TRACE" then .ok .Trace
  else .err .parse

/-- `src/protocol.rs:1673-1685`. -/
def HttpMethod.display : HttpMethod → Bytes
  | .Delete => b!"DELETE"
  | .Get => b!"GET"
  | .Head => b!"HEAD"
  | .Options => b!"OPTIONS"
  | .Post => b!"POST"
  | .Put => b!"PUT"
  | .Trace => b!"TRACE"

/-- `src/protocol.rs:1687-1694`. -/
def HttpMethod.hasBody : HttpMethod → Bool
  | .Delete | .Post | .Put => true
  | .Trace | .Get | .Head | .Options => false

end HttpIo
