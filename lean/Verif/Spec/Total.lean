import Verif.Spec.Body
import Verif.Spec.Headers

/-! Specification vocabulary for what is done with any bytes whatsoever. -/

namespace HttpIo.Spec

/-- The error for a size line that is wrong in the way `e`: with `std` its kind is `Other`. -/
def sizeError (c : Cfg) (e : Err) : Err := if c.std then .io (.other 0) else e

/-- What follows the bytes of a stream: it ends, or it fails. -/
def endEvents : Option Err → List Ev
  | none => []
  | some e => [.fault e]

/-- A failure that is not merely an interruption, after which `std` reads again. -/
def Final (c : Cfg) (stop : Option Err) : Prop := ∀ e, stop = some e → ¬ Retried c e

/-- The error for a stream that ends within a chunk, or fails there. -/
def cutError (c : Cfg) : Option Err → Err
  | none => if c.std then .io .unexpectedEof else .unexpectedEof
  | some e => e

/-- The error for a stream that ends within a line, or fails there. -/
def lineError : Option Err → Err
  | none => .unexpectedEof
  | some e => e

/-- A chunked body is read from these bytes, after which the stream ends or fails: the data it has, and the error that follows them, if the
body does not end as it should. Either the last size line is there, or a chunk with its two bytes comes first, or the stream stops
within the data or the two bytes, or it stops within a size line, or the line is empty, or no text, or no number below `2 ^ 64`. -/
inductive Dechunks (c : Cfg) (stop : Option Err) : HttpIo.Bytes → HttpIo.Bytes → Option Err → Prop
  | last {size rest : HttpIo.Bytes} : UnsignedText 16 size 0 → Dechunks c stop (size ++ [13, 10] ++ rest) [] none
  | chunk {ch : Chunk} {rest d : HttpIo.Bytes} {r : Option Err} : ch.Sized → Dechunks c stop rest d r →
      Dechunks c stop (ch.bytes ++ rest) (ch.data ++ d) r
  | short {size d : HttpIo.Bytes} {n : Nat} : UnsignedText 16 size n → n < 2 ^ 64 → d.length < n →
      Dechunks c stop (size ++ [13, 10] ++ d) d (some (cutError c stop))
  | tail {size d x : HttpIo.Bytes} : UnsignedText 16 size d.length → d ≠ [] → d.length < 2 ^ 64 → x.length < 2 →
      Dechunks c stop (size ++ [13, 10] ++ d ++ x) d (some (cutError c stop))
  | unended {q : HttpIo.Bytes} : ¬ HasCrLf q → Dechunks c stop q [] (some (sizeError c (lineError stop)))
  | blank {rest : HttpIo.Bytes} : Dechunks c stop ([13, 10] ++ rest) [] (some (sizeError c .unexpectedEof))
  | noText {line rest : HttpIo.Bytes} : ¬ HasCrLf line → ¬ IsText line →
      Dechunks c stop (line ++ [13, 10] ++ rest) [] (some (sizeError c .utf8))
  | noSize {line rest : HttpIo.Bytes} : RawLine line → (∀ n, n < 2 ^ 64 → ¬ UnsignedText 16 line n) →
      Dechunks c stop (line ++ [13, 10] ++ rest) [] (some (sizeError c .parseInt))

end HttpIo.Spec
