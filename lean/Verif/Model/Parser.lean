import Verif.Model.Text

/-!
`Parser`: a cursor over a string. `src/protocol.rs:304-415`.
Each method takes the parser and returns the outcome together with the parser after the call
(`&mut self`). `position` is a byte offset.
-/

namespace HttpIo

/-- `src/protocol.rs:304-307`. -/
structure Parser where
  s : Bytes
  position : Nat
deriving DecidableEq, Repr

namespace Parser

/-- `src/protocol.rs:310-312`. -/
def new (s : Bytes) : Parser := ⟨s, 0⟩

/-- `src/protocol.rs:314-330`. -/
def expect (p : Parser) (expected : Bytes) : Res Unit × Parser :=
  if p.position ≥ p.s.length then (.err .unexpectedEof, p)
  else
    match slice p.s p.position (min p.s.length (p.position + expected.length)) with
    | .ok actual =>
      if actual ≠ expected then (.err .parse, p)
      else (.ok (), { p with position := p.position + expected.length })
    | .err e => (.err e, p)
    | .panic => (.panic, p)

/-- `src/protocol.rs:332-343`. The slice is one byte, so the char is ASCII when this returns. -/
def parseChar (p : Parser) : Res UInt8 × Parser :=
  if p.position ≥ p.s.length then (.err .unexpectedEof, p)
  else
    match slice p.s p.position (p.position + 1) with
    | .ok (c :: _) => (.ok c, { p with position := p.position + 1 })
    | .ok [] => (.panic, p)
    | .err e => (.err e, p)
    | .panic => (.panic, p)

/-- `src/protocol.rs:345-353`. The position advances before the digit is parsed. -/
def parseDigit (p : Parser) : Res Nat × Parser :=
  if p.position ≥ p.s.length then (.err .unexpectedEof, p)
  else
    match slice p.s p.position (p.position + 1) with
    | .ok digit => (parseU32 digit, { p with position := p.position + 1 })
    | .err e => (.err e, p)
    | .panic => (.panic, p)

/-- `src/protocol.rs:355-366`. -/
def parseUntil (p : Parser) (div : Bytes) : Res Bytes × Parser :=
  if p.position ≥ p.s.length then (.err .unexpectedEof, p)
  else
    match sliceFrom p.s p.position with
    | .ok remaining =>
      match findSub div remaining with
      | none => (.err .parse, p)
      | some pos => (.ok (remaining.take pos), { p with position := p.position + pos })
    | .err e => (.err e, p)
    | .panic => (.panic, p)

/-- `src/protocol.rs:368-379` (ASCII dividers, see `findAny`). -/
def parseUntilAny (p : Parser) (divs : Bytes) : Res Bytes × Parser :=
  if p.position ≥ p.s.length then (.err .unexpectedEof, p)
  else
    match sliceFrom p.s p.position with
    | .ok remaining =>
      match findAny divs remaining with
      | none => (.err .parse, p)
      | some pos => (.ok (remaining.take pos), { p with position := p.position + pos })
    | .err e => (.err e, p)
    | .panic => (.panic, p)

/-- Space or horizontal tab. -/
def isBlank (b : UInt8) : Bool := b == 32 || b == 9

/-- `src/protocol.rs:381-388`. `s[position..].starts_with(' ')` looks at one byte; the slice panics off a
char boundary. -/
def consumeWhitespace (p : Parser) : Res Unit × Parser :=
  if p.position < p.s.length then
    match sliceFrom p.s p.position with
    | .ok remaining =>
      if startsWith remaining b!" " || startsWith remaining b!"\t" then
        consumeWhitespace { p with position := p.position + 1 }
      else (.ok (), p)
    | .err e => (.err e, p)
    | .panic => (.panic, p)
  else (.ok (), p)
termination_by p.s.length - p.position

/-- `src/protocol.rs:390-401`. -/
def parseToken (p : Parser) : Res Bytes × Parser :=
  if p.position ≥ p.s.length then (.err .unexpectedEof, p)
  else
    match sliceFrom p.s p.position with
    | .ok remaining =>
      let token := remaining.takeWhile (fun b => !isBlank b)
      match consumeWhitespace { p with position := p.position + token.length } with
      | (.ok (), p') => (.ok token, p')
      | (.err e, p') => (.err e, p')
      | (.panic, p') => (.panic, p')
    | .err e => (.err e, p)
    | .panic => (.panic, p)

/-- `src/protocol.rs:403-405`. -/
def parseNumber (p : Parser) : Res Nat × Parser :=
  match p.parseToken with
  | (.ok token, p') => (parseU32 token, p')
  | (.err e, p') => (.err e, p')
  | (.panic, p') => (.panic, p')

/-- `src/protocol.rs:407-414`. -/
def parseRemaining (p : Parser) : Res Bytes × Parser :=
  if p.position > p.s.length then (.err .unexpectedEof, p)
  else
    match sliceFrom p.s p.position with
    | .ok remaining => (.ok remaining, { p with position := p.s.length + 1 })
    | .err e => (.err e, p)
    | .panic => (.panic, p)

end Parser

end HttpIo
