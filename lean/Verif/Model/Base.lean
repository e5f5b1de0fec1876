/-!
Basic vocabulary of the model: bytes, build configuration, errors, outcomes.
-/

namespace HttpIo

/-- Rust `[u8]` / `Vec<u8>`; also `str` / `String`, represented by its UTF-8 bytes. -/
abbrev Bytes := List UInt8

/-- `b!"text"` is the list of UTF-8 bytes of the literal (an explicit list of numerals). -/
syntax:max "b!" str : term
macro_rules
  | `(b! $s:str) => do
    let bytes := s.getString.toUTF8.toList
    let elems ← bytes.toArray.mapM fun b => `(($(Lean.quote b.toNat) : UInt8))
    `(([$elems,*] : List UInt8))

/-- Build configuration: the cargo feature `std` (`Cargo.toml:17-22`, `src/lib.rs:21-25`).
`std = true`: `crate::io` is `std::io`. `std = false`: `crate::io` is `src/io.rs`. -/
structure Cfg where
  std : Bool
deriving DecidableEq, Repr

/-- The HTTP status enum. `src/protocol.rs:610-653`. The payload of `Unknown` is a `u32`. -/
inductive HttpStatus where
  | Accepted | BadGateway | BadRequest | Conflict | Continue | Created | ExpectationFailed
  | Forbidden | Found | GatewayTimeout | Gone | HttpVersionNotSupported | InternalServerError
  | LengthRequired | MethodNotAllowed | MovedPermanently | MultipleChoices | NoContent
  | NonAuthoritativeInformation | NotAcceptable | NotFound | NotImplemented | NotModified | OK
  | PartialContent | PaymentRequired | PreconditionFailed | ProxyAuthenticationRequired
  | RequestEntityTooLarge | RequestTimeout | RequestUriTooLong | RequestedRangeNotSatisfiable
  | ResetContent | SeeOther | ServiceUnavailable | SwitchingProtocols | TemporaryRedirect
  | Unauthorized | UnsupportedMediaType | UseProxy
  | Unknown (code : UInt32)
deriving DecidableEq, Repr

/-- `src/protocol.rs:1646-1655`. -/
inductive HttpMethod where
  | Delete | Get | Head | Options | Post | Put | Trace
deriving DecidableEq, Repr

/-- The `std::io::ErrorKind`s the code distinguishes or creates; `other n` stands for all remaining kinds. -/
inductive IoKind where
  | interrupted
  | unexpectedEof
  | writeZero
  | invalidInput
  | addrNotAvailable
  | other (n : Nat)
deriving DecidableEq, Repr

/-- `src/error.rs:8-28`. Simplification: the message texts carried by the variants are dropped;
the variants, and the status / method payloads, are kept. `io k` is `IoError` with `e.kind() = k`. -/
inductive Err where
  | parse
  | parseInt
  | utf8
  | unexpectedScheme
  | unexpectedEof
  | unexpectedStatus (s : HttpStatus)
  | unexpectedMethod (m : HttpMethod)
  | url
  | lengthRequired
  | other
  | io (k : IoKind)
  | ssl
deriving DecidableEq, Repr

/-- Result of a computation that may also panic (index out of a char boundary, `unwrap` on `None`). -/
inductive Res (α : Type) where
  | ok (a : α)
  | err (e : Err)
  | panic
deriving DecidableEq, Repr

namespace Res

/-- The `?` operator (and propagation of panics). -/
def bind {α β : Type} : Res α → (α → Res β) → Res β
  | .ok a, f => f a
  | .err e, _ => .err e
  | .panic, _ => .panic

def map {α β : Type} (f : α → β) : Res α → Res β
  | .ok a => .ok (f a)
  | .err e => .err e
  | .panic => .panic

instance : Monad Res where
  pure := Res.ok
  bind := Res.bind

/-- `Option::ok_or`. -/
def ofOption {α : Type} (e : Err) : Option α → Res α
  | some a => .ok a
  | none => .err e

def ofExcept {α : Type} : Except Err α → Res α
  | .ok a => .ok a
  | .error e => .err e

end Res

deriving instance DecidableEq for Except

/-- `e.kind() == ErrorKind::Interrupted`. -/
def Err.isInterrupted : Err → Bool
  | .io .interrupted => true
  | _ => false

/-- Whether a loop of the I/O layer swallows error `e` and tries again: `std::io` retries on
`Interrupted` (documented for `Bytes`, `read_exact`, `write_all`, `copy`); `src/io.rs` never does
(`src/io.rs:32`, `:64`, `:182`, `:238`). -/
def Cfg.retries (c : Cfg) (e : Err) : Bool := c.std && e.isInterrupted

/-- The error of a `read_exact` that meets end of stream: `std::io::ErrorKind::UnexpectedEof`, or
`Error::UnexpectedEof` (`src/io.rs:36`). -/
def Cfg.eofErr (c : Cfg) : Err := if c.std then .io .unexpectedEof else .unexpectedEof

/-- The error of a `write_all` whose writer accepts nothing: `std::io::ErrorKind::WriteZero`, or
`Error::UnexpectedEof` (`src/io.rs:62`). -/
def Cfg.writeZeroErr (c : Cfg) : Err := if c.std then .io .writeZero else .unexpectedEof

/-- `impl From<Error> for std::io::Error` (`src/error.rs:70-75`): always `ErrorKind::Other`. With
`std = false` both error types are the same and nothing is converted. -/
def Cfg.toIo (c : Cfg) (e : Err) : Err := if c.std then .io (.other 0) else e

end HttpIo
