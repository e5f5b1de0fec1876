import Verif.Spec.Received
import Verif.Spec.Programs

/-! Specification of the general client: the response that comes of any bytes that a peer may send. -/

namespace HttpIo.Spec

/-- What comes of waiting for a response: a panic, an error, or a response with its version, status, headers and body, and the error
that follows the body, if any. -/
inductive Got where
  | panics
  | fails (e : Err)
  | response (major minor : Nat) (status : HttpStatus) (headers : List (HttpIo.Bytes × HttpIo.Bytes)) (d : HttpIo.Bytes) (r : Option Err)

/-- This came of it. -/
def GotIs {c : Cfg} {β : Type} [LawfulReader β] [ZeroReader β] (res : Res (HttpResponse c β)) : Got → Prop
  | .panics => res = .panic
  | .fails e => res = .err e
  | .response major minor status headers d r => ∃ x, res = .ok x ∧ x.version.major = major ∧ x.version.minor = minor ∧
      x.status = status ∧ x.headers.entries = headers ∧
      match r with
      | none => Yields x.body d
      | some e => FailsAfter x.body d e

variable [CaseMap]

/-- The header set made of these header lines: the names in lower case, each once, in order, with the value of its last line. -/
def KeepsLast (hist headers : List (HttpIo.Bytes × HttpIo.Bytes)) : Prop :=
  SortedNames headers ∧ ∀ k v, (k, v) ∈ headers ↔ LastWith (fun k' => CaseMap.lower k' = k) hist v

/-- The peer sends these bytes, and then the connection ends or fails: what comes of it. -/
inductive GotFrom (c : Cfg) (stop : Option Err) (input : HttpIo.Bytes) : Got → Prop
  | cut : CutResponse c (input.map .byte ++ endEvents stop) → GotFrom c stop input .panics
  | none {e} : ResponseFault c (input.map .byte ++ endEvents stop) e → GotFrom c stop input (.fails e)
  | response {line major minor code hist rest status headers d r} : StatusLine line major minor code →
      HeadOf c (input.map .byte ++ endEvents stop) line hist (rest.map .byte ++ endEvents stop) → StatusFor status code →
      KeepsLast hist headers → ReplyBody c stop hist rest d r → GotFrom c stop input (.response major minor status headers d r)

omit [CaseMap] in
/-- How the advanced client ends and what it has printed: the headers as `debug` has them, a line feed, and the body. -/
def shown (debug : HttpHeaders → HttpIo.Bytes) : Got → Res Unit × HttpIo.Bytes
  | .panics => (.panic, [])
  | .fails e => (.err e, [])
  | .response _ _ _ headers d none => (.ok (), debug ⟨headers⟩ ++ [10] ++ d)
  | .response _ _ _ headers d (some e) => (.err e, debug ⟨headers⟩ ++ [10] ++ d)

end HttpIo.Spec
