import Verif.Model.CrLf
import Verif.Model.ErrorText

/-!
The texts of the errors of the stream of lines (`src/protocol.rs:238-263`): the connection ends within a line, there is no
first line, or a line is not UTF-8. The texts of the transport's own errors are not modelled.
-/

namespace HttpIo

/-- Where and why `core::str::from_utf8` rejects bytes (`run_utf8_validation` in `core::str::validations`; called at
`src/protocol.rs:252`): `valid_up_to` and `error_len` of `Utf8Error`. `off` bytes have been accepted before. Compare
`validUtf8`. -/
def utf8Fail (off : Nat) : Bytes → Option (Nat × Option Nat)
  | [] => none
  | b0 :: rest =>
    if b0 < 0x80 then utf8Fail (off + 1) rest
    else if 0xC2 ≤ b0 && b0 ≤ 0xDF then
      match rest with
      | [] => some (off, none)
      | b1 :: rest' => if isCont b1 then utf8Fail (off + 2) rest' else some (off, some 1)
    else if 0xE0 ≤ b0 && b0 ≤ 0xEF then
      match rest with
      | [] => some (off, none)
      | b1 :: rest' =>
        if (if b0 == 0xE0 then 0xA0 ≤ b1 && b1 ≤ 0xBF
            else if b0 == 0xED then 0x80 ≤ b1 && b1 ≤ 0x9F
            else isCont b1) then
          match rest' with
          | [] => some (off, none)
          | b2 :: rest'' => if isCont b2 then utf8Fail (off + 3) rest'' else some (off, some 2)
        else some (off, some 1)
    else if 0xF0 ≤ b0 && b0 ≤ 0xF4 then
      match rest with
      | [] => some (off, none)
      | b1 :: rest' =>
        if (if b0 == 0xF0 then 0x90 ≤ b1 && b1 ≤ 0xBF
            else if b0 == 0xF4 then 0x80 ≤ b1 && b1 ≤ 0x8F
            else isCont b1) then
          match rest' with
          | [] => some (off, none)
          | b2 :: rest'' =>
            if isCont b2 then
              match rest'' with
              | [] => some (off, none)
              | b3 :: rest''' => if isCont b3 then utf8Fail (off + 4) rest''' else some (off, some 3)
            else some (off, some 2)
        else some (off, some 1)
    else some (off, some 1)

/-- An error of `CrLfStream` with its payload (`src/protocol.rs:252`, `:256`, `:261`). -/
inductive LineSaid where
  | notText (validUpTo : Nat) (errorLen : Option Nat)
  | noEnd
  | noLine
deriving DecidableEq, Repr

/-- The same without its payload. -/
def LineSaid.err : LineSaid → Err
  | .notText _ _ => .utf8
  | .noEnd => .unexpectedEof
  | .noLine => .unexpectedEof

/-- The derived `Debug` of the error (`src/error.rs:8`), which `Display` uses (`:37-41`); that of `Utf8Error` is derived as
well (`core::str::error`). -/
def LineSaid.text [DebugText] : LineSaid → Bytes
  | .notText n none => b!"Utf8Error(Utf8Error { valid_up_to: " ++ showDec n ++ b!", error_len: None })"
  | .notText n (some k) =>
    b!"Utf8Error(Utf8Error { valid_up_to: " ++ showDec n ++ b!", error_len: Some(" ++ showDec k ++ b!") })"
  | .noEnd => b!"UnexpectedEof(\"" ++ DebugText.escape b!"Expected \\r\\n" ++ b!"\")"
  | .noLine => b!"UnexpectedEof(\"" ++ DebugText.escape b!"Expected line" ++ b!"\")"

section
variable {σ : Type} [LawfulReader σ]

/-- The error of `CrLfStream::inner_next` (`src/protocol.rs:239-257`), if it returns one of its own; compare
`innerNextLoop`. -/
def innerSaid (c : Cfg) (line : Bytes) (s : σ) : Option LineSaid :=
  match h : bytesNext c s with
  | (none, _) => some .noEnd
  | (some (.error _), _) => none
  | (some (.ok b), s') =>
    let line := line ++ [b]
    if line.length ≥ 2 ∧ line[line.length - 2]? = some 13 ∧ line[line.length - 1]? = some 10 then
      let before := line.take (line.length - 2)
      if before.isEmpty then none
      else (utf8Fail 0 before).map fun x => .notText x.1 x.2
    else innerSaid c line s'
termination_by (trace s).length
decreasing_by exact bytesNext_some_lt h

/-- The error of the first of the following lines that cannot be read, if the empty line does not come before it
(`src/protocol.rs:228-236`; `HttpHeaders::deserialize` asks for the lines one after the other, `:1459-1473`). -/
def linesStreamSaid (c : Cfg) (s : σ) : Option LineSaid :=
  match h : crlfNext c s with
  | (none, _) => none
  | (some (.error _), _) => innerSaid c [] s
  | (some (.ok _), s') => linesStreamSaid c s'
termination_by (trace s).length
decreasing_by exact crlfNext_ok_lt h

/-- The error of the stream of lines of a head, if there is one (`src/protocol.rs:259-262`, `:1864-1873`). It is the one
that is reported if the lines before it are well formed. -/
def headStreamSaid (c : Cfg) (s : σ) : Option LineSaid :=
  match innerNext c s with
  | (.error _, _) => innerSaid c [] s
  | (.ok none, _) => some .noLine
  | (.ok (some _), s') => linesStreamSaid c s'

end

end HttpIo
