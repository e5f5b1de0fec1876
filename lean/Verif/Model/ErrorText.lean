import Verif.Model.Message

/-!
The texts of the errors that the parser of heads reports (`src/error.rs:37-41`: the derived `Debug` format), which the
server sends to the client (`src/server.rs:81-90`). Elsewhere in the model errors have no text (`Err`); here is which text
they have. Errors of the stream (the connection breaks, a line is not text) are in `Model/StreamText.lean`.
-/

namespace HttpIo

/-- `core::num::IntErrorKind`, the kinds that reading an unsigned number gives. -/
inductive IntKind where
  | Empty
  | InvalidDigit
  | PosOverflow
deriving DecidableEq, Repr

/-- An error of the parser with its payload: `ParseError`, `UnexpectedEof` and `ParseIntError` (`src/error.rs:10-14`). -/
inductive Said where
  | parseError (text : Bytes)
  | unexpectedEof (text : Bytes)
  | parseInt (kind : IntKind)
deriving DecidableEq, Repr

/-- The same without its payload. -/
def Said.err : Said → Err
  | .parseError _ => .parse
  | .unexpectedEof _ => .unexpectedEof
  | .parseInt _ => .parseInt

/-- `char::escape_debug` for one ASCII character inside a string (`core`): a single quote is not escaped. -/
def escapeByte (b : UInt8) : Bytes :=
  if b = 0 then b!"\\0"
  else if b = 9 then b!"\\t"
  else if b = 10 then b!"\\n"
  else if b = 13 then b!"\\r"
  else if b = 34 then b!"\\\""
  else if b = 92 then b!"\\\\"
  else if b < 32 || b = 127 then b!"\\u{" ++ showHex b.toNat ++ b!"}"
  else [b]

/-- `<str as Debug>::fmt` without the quotes around it (`core`). Not modelled concretely: any function that does this to
ASCII text. (Other characters are kept or escaped according to Unicode tables.) -/
class DebugText where
  escape : Bytes → Bytes
  escape_ascii : ∀ s, isAscii s = true → escape s = s.flatMap escapeByte

/-- The derived `Debug` of the error (`src/error.rs:8`), which `Display` uses (`:37-41`). -/
def Said.text [DebugText] : Said → Bytes
  | .parseError t => b!"ParseError(\"" ++ DebugText.escape t ++ b!"\")"
  | .unexpectedEof t => b!"UnexpectedEof(\"" ++ DebugText.escape t ++ b!"\")"
  | .parseInt .Empty => b!"ParseIntError(ParseIntError { kind: Empty })"
  | .parseInt .InvalidDigit => b!"ParseIntError(ParseIntError { kind: InvalidDigit })"
  | .parseInt .PosOverflow => b!"ParseIntError(ParseIntError { kind: PosOverflow })"

/-- How the digit loop of `core::num::from_str_radix` fails: the digit is looked at before an overflow of the
multiplication is. -/
def digitFail (radix max : Nat) : Nat → Bytes → Option IntKind
  | _, [] => none
  | acc, b :: bs =>
    match toDigit radix b with
    | none => some .InvalidDigit
    | some d =>
      if acc * radix ≤ max then
        if acc * radix + d ≤ max then digitFail radix max (acc * radix + d) bs else some .PosOverflow
      else some .PosOverflow

/-- How `from_str_radix` fails, if it does (compare `fromStrRadix`). -/
def intFail (radix max : Nat) : Bytes → Option IntKind
  | [] => some .Empty
  | [b] => if b == 43 || b == 45 then some .InvalidDigit else digitFail radix max 0 [b]
  | b :: bs => if b == 43 then digitFail radix max 0 bs else digitFail radix max 0 (b :: bs)

/-- The error of `Parser::expect` when it fails (`src/protocol.rs:315-327`). -/
def Parser.expectSaid (p : Parser) (expected : Bytes) : Said :=
  if p.position ≥ p.s.length then .unexpectedEof (b!"Expected " ++ expected)
  else .parseError (b!"Expected '" ++ expected ++ b!"', got '" ++ (p.s.drop p.position).take expected.length ++ b!"'")

/-- The error of `Parser::parse_digit` when it fails (`src/protocol.rs:346-352`): one character that is not a digit. -/
def Parser.digitSaid (p : Parser) : Said :=
  if p.position ≥ p.s.length then .unexpectedEof b!"Expected digit" else .parseInt .InvalidDigit

/-- The error of `Parser::parse_token` and of `Parser::parse_remaining` when they fail (`src/protocol.rs:391-393`, `:408-410`). -/
def tokenSaid : Said := .unexpectedEof b!"Expected token"

/-- The error of `HttpVersion::from_str`, if it returns one (`src/protocol.rs:551-563`). -/
def versionSaid (s : Bytes) : Option Said :=
  match (Parser.new s).expect b!"HTTP/" with
  | (.err _, _) => some ((Parser.new s).expectSaid b!"HTTP/")
  | (.panic, _) => none
  | (.ok (), p1) =>
    match p1.parseDigit with
    | (.err _, _) => some p1.digitSaid
    | (.panic, _) => none
    | (.ok _, p2) =>
      match p2.expect b!"." with
      | (.err _, _) => some (p2.expectSaid b!".")
      | (.panic, _) => none
      | (.ok (), p3) =>
        match p3.parseDigit with
        | (.err _, _) => some p3.digitSaid
        | _ => none

section
variable [CaseMap]

/-- The error of a request line, if there is one (`src/protocol.rs:1867-1871`, `:1668`). -/
def requestLineSaid (line : Bytes) : Option Said :=
  match (Parser.new line).parseToken with
  | (.err _, _) => some tokenSaid
  | (.panic, _) => none
  | (.ok tok, p1) =>
    match HttpMethod.fromStr tok with
    | .err _ => some (.parseError (b!"Unknown method " ++ CaseMap.upper tok))
    | .panic => none
    | .ok _ =>
      match p1.parseToken with
      | (.err _, _) => some tokenSaid
      | (.panic, _) => none
      | (.ok _, p2) =>
        match p2.parseToken with
        | (.err _, _) => some tokenSaid
        | (.panic, _) => none
        | (.ok tok3, _) => versionSaid tok3

/-- The error of a header line, if there is one (`src/protocol.rs:1387-1394`, `:356-363`). -/
def headerSaid (s : Bytes) : Option Said :=
  match (Parser.new s).parseUntil b!":" with
  | (.err _, _) =>
    if s.length = 0 then some (.unexpectedEof b!"Expected ':'")
    else some (.parseError (b!"Expected ':' in '" ++ s ++ b!"'"))
  | (.panic, _) => none
  | (.ok _, p1) =>
    match p1.expect b!": " with
    | (.err _, _) => some (p1.expectSaid b!": ")
    | (.panic, _) => none
    | (.ok (), p2) =>
      match p2.parseRemaining with
      | (.err _, _) => some tokenSaid
      | _ => none

/-- The error of the header lines (`src/protocol.rs:1459-1473`, continuations joined), or else of the content length
(`:1874-1877`). `acc` are the headers of the lines before. -/
def linesSaid (acc : List HttpHeader) : List Bytes → Option Said
  | [] =>
    match (HttpHeaders.fromVec acc).get b!"Content-Length" with
    | none => none
    | some v => (intFail 10 u64Max v).map .parseInt
  | l :: ls =>
    match HttpHeader.deserialize l with
    | .err _ => headerSaid l
    | .panic => none
    | .ok hd => linesSaid (acc ++ [hd]) ls

/-- The error of the head of a request with this request line and these header lines, if there is one
(`src/protocol.rs:1864-1887`). -/
def headSaid (line : Bytes) (logical : List Bytes) : Option Said :=
  match parseRequestLine line with
  | .err _ => requestLineSaid line
  | .panic => none
  | .ok _ => linesSaid [] logical

end

end HttpIo
