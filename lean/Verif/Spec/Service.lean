import Verif.Spec.Asked
import Verif.Spec.Server

/-! Specification of a server over its whole life, with a handler of which it is known what it makes of each request. -/

namespace HttpIo.Spec

/-- A service: what comes of a call with this method, this target and a body that has this data and then ends or fails (for a method
without a body: no data, and the end). The result of serving, what is sent, and the state of the service afterwards. -/
abbrev Service (κ : Type) := HttpMethod → HttpIo.Bytes → HttpIo.Bytes → Option Err → κ → Res Unit × HttpIo.Bytes × κ

section
variable {c : Cfg} {η σ ρ ε κ : Type} [LawfulReader σ] [ZeroReader σ] [LawfulReader ρ] [ZeroReader ρ]

/-- What was replied is what the service is to do, and the handler is then in a state that stands for the service's. -/
def RepliesAs (h : Handler c η σ ρ ε) (stands : η → κ → Prop) (x : Reply ε (ServerResponse c ρ) × HttpBody c (BufReader c σ) × η)
    (y : Res Unit × HttpIo.Bytes × κ) : Prop :=
  ServedAs h x.1 y.1 y.2.1 ∧ ∀ self', Afterwards h x.2.2 x.1 self' → stands self' y.2.2

/-- The handler provides the service: each of its functions, called in a state that stands for the service's and with a body that
holds this data, does what the service is to do, in whatever pieces the data comes. -/
def Provides (h : Handler c η σ ρ ε) (stands : η → κ → Prop) (S : Service κ) : Prop :=
  ∀ self k, stands self k → ∀ m target (body : HttpBody c (BufReader c σ)),
    (¬ (m = .Put ∨ m = .Post) → RepliesAs h stands (handled h m target body self) (S m target [] none k)) ∧
    (m = .Put ∨ m = .Post → ∀ d r, Final c r → trace body = d.map .byte ++ endEvents r →
      RepliesAs h stands (handled h m target body self) (S m target d r k))

end

section
variable [CaseMap]

/-- A connection brings these bytes and then ends or fails: the result of serving it, what is sent, and the state of the service. -/
inductive ServesOne {κ : Type} (c : Cfg) (errText : Err → HttpIo.Bytes) (S : Service κ) (k : κ) (stop : Option Err) (input : HttpIo.Bytes) :
    Res Unit × HttpIo.Bytes × κ → Prop
  | panics : AsksFor c stop input .panics → ServesOne c errText S k stop input (.panic, [], k)
  | faulty {e} : AsksFor c stop input (.faulty e) →
      ServesOne c errText S k stop input (.ok (), responseHead (utf8 "500 Internal Server Error") [] ++ errText e, k)
  | noLength : AsksFor c stop input .noLength →
      ServesOne c errText S k stop input (.ok (), responseHead (utf8 "411 Length Required") [] ++ utf8 "length required", k)
  | plain {m target} : AsksFor c stop input (.plain m target) → ServesOne c errText S k stop input (S m target [] none k)
  | upload {m target d r} : AsksFor c stop input (.upload m target d r) → ServesOne c errText S k stop input (S m target d r k)

/-- One after the other, `accept` fails or gives a connection that brings these bytes and then ends or fails: the result of each turn
and what is sent, if there is a connection, up to the first panic, and the state of the service at the end. -/
inductive ServesAll {κ : Type} (c : Cfg) (errText : Err → HttpIo.Bytes) (S : Service κ) :
    κ → List (Except Err (HttpIo.Bytes × Option Err)) → List (Res Unit × Option HttpIo.Bytes) → κ → Prop
  | nil {k} : ServesAll c errText S k [] [] k
  | refused {k k' e rest outs} : ServesAll c errText S k rest outs k' →
      ServesAll c errText S k (.error e :: rest) ((.err (c.toIo e), none) :: outs) k'
  | panic {k k' stop input rest out} : ServesOne c errText S k stop input (.panic, out, k') →
      ServesAll c errText S k (.ok (input, stop) :: rest) [(.panic, some out)] k'
  | next {k k1 k2 stop input rest res out outs} : ServesOne c errText S k stop input (res, out, k1) → res ≠ .panic →
      ServesAll c errText S k1 rest outs k2 → ServesAll c errText S k (.ok (input, stop) :: rest) ((res, some out) :: outs) k2

end

end HttpIo.Spec
