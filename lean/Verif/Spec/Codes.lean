import Verif.Model.Base

/-! Status codes and method names as HTTP/1.1 (RFC 2616) lists them. -/

namespace HttpIo.Spec

/-- RFC 2616 section 6.1.1: status names and codes. -/
def statusTable : List (HttpStatus × Nat) :=
  [(.Continue, 100), (.SwitchingProtocols, 101),
   (.OK, 200), (.Created, 201), (.Accepted, 202), (.NonAuthoritativeInformation, 203), (.NoContent, 204),
   (.ResetContent, 205), (.PartialContent, 206),
   (.MultipleChoices, 300), (.MovedPermanently, 301), (.Found, 302), (.SeeOther, 303), (.NotModified, 304),
   (.UseProxy, 305), (.TemporaryRedirect, 307),
   (.BadRequest, 400), (.Unauthorized, 401), (.PaymentRequired, 402), (.Forbidden, 403), (.NotFound, 404),
   (.MethodNotAllowed, 405), (.NotAcceptable, 406), (.ProxyAuthenticationRequired, 407),
   (.RequestTimeout, 408), (.Conflict, 409), (.Gone, 410), (.LengthRequired, 411),
   (.PreconditionFailed, 412), (.RequestEntityTooLarge, 413), (.RequestUriTooLong, 414),
   (.UnsupportedMediaType, 415), (.RequestedRangeNotSatisfiable, 416), (.ExpectationFailed, 417),
   (.InternalServerError, 500), (.NotImplemented, 501), (.BadGateway, 502), (.ServiceUnavailable, 503),
   (.GatewayTimeout, 504), (.HttpVersionNotSupported, 505)]

/-- The 40 named codes. -/
def namedCodes : List Nat := statusTable.map (·.2)

/-- RFC 2616 section 5.1.1. -/
def methodName : HttpMethod → String
  | .Delete => "DELETE"
  | .Get => "GET"
  | .Head => "HEAD"
  | .Options => "OPTIONS"
  | .Post => "POST"
  | .Put => "PUT"
  | .Trace => "TRACE"

/-- UTF-8 bytes of a Lean string. -/
def utf8 (s : String) : Bytes := s.toUTF8.toList

end HttpIo.Spec
