import Verif.Model.BodyLaws
import Verif.Model.Message
import Verif.Model.WriterLaws
import Verif.Spec.Headers
import Verif.Spec.Codes
import Verif.Spec.Text

/-! Specification vocabulary for messages. -/

namespace HttpIo.Spec

/-- How a body is delimited. -/
inductive Framing where
  | chunked
  | limited (n : Nat)
  | tilClose
deriving DecidableEq, Repr

/-- Which of the three kinds a body value is. -/
def framing {c : Cfg} {ρ : Type} : HttpBody c ρ → Framing
  | .Chunked _ => .chunked
  | .Limited t => .limited t.limit
  | .ReadTilClose _ => .tilClose

/-- The same kind of outcome, and related values on success. -/
inductive SameOutcome {α β : Type} (R : α → β → Prop) : Res α → Res β → Prop
  | ok {a : α} {b : β} : R a b → SameOutcome R (.ok a) (.ok b)
  | err (e : Err) : SameOutcome R (.err e) (.err e)
  | panic : SameOutcome R .panic .panic

/-- Two bodies nobody can tell apart by reading: same kind, same reported length, the same decoded events to come,
and the same raw events left on the stream underneath. -/
structure SameBody {c : Cfg} {ρ τ : Type} [LawfulReader ρ] [ZeroReader ρ] [LawfulReader τ] [ZeroReader τ]
    (b : HttpBody c ρ) (b' : HttpBody c τ) : Prop where
  kind : framing b = framing b'
  length : b.contentLength = b'.contentLength
  events : trace b = trace b'
  stream : b.under.map trace = b'.under.map trace

/-- The head of a request: request line, headers, blank line. -/
def requestHead (m : HttpMethod) (target : Bytes) (headers : List (Bytes × Bytes)) : Bytes :=
  utf8 (methodName m) ++ [32] ++ target ++ [32] ++ utf8 "HTTP/1.1" ++ [13, 10] ++ headerText headers ++ [13, 10]

/-- The head of a response whose status line ends in `statusText`. -/
def responseHead (statusText : Bytes) (headers : List (Bytes × Bytes)) : Bytes :=
  utf8 "HTTP/1.1" ++ [32] ++ statusText ++ [13, 10] ++ headerText headers ++ [13, 10]

/-- The same for a response of version `major.minor`, two digits. -/
def versionedHead (major minor : Nat) (statusText : Bytes) (headers : List (Bytes × Bytes)) : Bytes :=
  utf8 "HTTP/" ++ [UInt8.ofNat (48 + major), 46, UInt8.ofNat (48 + minor), 32] ++ statusText ++ [13, 10] ++
    headerText headers ++ [13, 10]

/-- A target that can be sent: text, not empty, no blanks, no CR LF. -/
def SendableTarget (t : Bytes) : Prop := t ≠ [] ∧ IsText t ∧ (32 : UInt8) ∉ t ∧ (9 : UInt8) ∉ t ∧ ¬ HasCrLf t

/-- A header set that can be sent faithfully: names sorted (as in the map) and lower case, headers sendable. -/
def SendableHeaders [CaseMap] (entries : List (Bytes × Bytes)) : Prop :=
  SortedNames entries ∧ (∀ kv ∈ entries, CaseMap.lower kv.1 = kv.1) ∧ ∀ kv ∈ entries, SendableHeader kv

/-- What a client or server has put on the transport for a request so far. -/
def outgoingSent {c : Cfg} {σ : Type} [LawfulWriter σ] : OutgoingRequest c σ → Bytes
  | .NoBody s => sent s
  | .WithBody b => sent b.socket

end HttpIo.Spec

namespace HttpIo.Spec

/-- The value of the `content-length` entry is a decimal numeral (a `+` in front is allowed) below `2^64`. -/
def LengthText (v : Bytes) (n : Nat) : Prop := UnsignedText 10 v n ∧ n < 2 ^ 64

/-- How the header set of a message delimits its body. -/
inductive FramedBy (entries : List (Bytes × Bytes)) : Framing → Prop
  | chunked : (b!"transfer-encoding", b!"chunked") ∈ entries → FramedBy entries .chunked
  | limited {v : Bytes} {n : Nat} : (b!"transfer-encoding", b!"chunked") ∉ entries →
      (b!"content-length", v) ∈ entries → LengthText v n → FramedBy entries (.limited n)
  | tilClose : (b!"transfer-encoding", b!"chunked") ∉ entries → (∀ v, (b!"content-length", v) ∉ entries) →
      FramedBy entries .tilClose

/-- Every `content-length` in the set is a number. -/
def LengthOk (entries : List (Bytes × Bytes)) : Prop :=
  ∀ v, (b!"content-length", v) ∈ entries → ∃ n, LengthText v n

end HttpIo.Spec
