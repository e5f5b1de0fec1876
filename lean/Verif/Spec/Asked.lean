import Verif.Spec.FileServer

/-! Specification of the server with any handler: what the bytes of a connection ask of it, and what it makes of the handler's reply. -/

namespace HttpIo.Spec

/-- What a connection asks: what makes the server panic, what is no request, an upload of unknown length, a call of the handler
without a body, or one with a body that has this data and then ends or fails. -/
inductive Asked where
  | panics
  | faulty (e : Err)
  | noLength
  | plain (m : HttpMethod) (target : HttpIo.Bytes)
  | upload (m : HttpMethod) (target d : HttpIo.Bytes) (r : Option Err)

/-- The bytes, and the end or the failure after them, ask this. -/
inductive AsksFor [CaseMap] (c : Cfg) (stop : Option Err) (input : HttpIo.Bytes) : Asked → Prop
  | cut : CutRequest c (input.map .byte ++ endEvents stop) → AsksFor c stop input .panics
  | malformed {e} : RequestFault c (input.map .byte ++ endEvents stop) e → AsksFor c stop input (.faulty e)
  | noLength {m target hist rest} : Requests c stop input m target hist rest → m = .Put ∨ m = .Post → NoLength hist →
      AsksFor c stop input .noLength
  | plain {m target hist rest} : Requests c stop input m target hist rest → ¬ (m = .Put ∨ m = .Post) →
      AsksFor c stop input (.plain m target)
  | upload {m target hist rest d r} : Requests c stop input m target hist rest → m = .Put ∨ m = .Post → Carried c stop hist rest d r →
      AsksFor c stop input (.upload m target d r)

section
variable {c : Cfg} {η σ ρ ε : Type} [LawfulReader σ] [ZeroReader σ] [LawfulReader ρ] [ZeroReader ρ]

/-- A response, the numbers of whose version have one digit each, is sent: the head, and the data of the body up to its end or
failure, which is then the result. -/
inductive SentReply (r : ServerResponse c ρ) : Res Unit → HttpIo.Bytes → Prop
  | whole {bs t'} : r.version.major < 10 → r.version.minor < 10 → Delivers c (trace r.body) bs t' → Ended c t' →
      SentReply r (.ok ()) (versionedHead r.version.major r.version.minor r.status.display r.headers.entries ++ bs)
  | broken {bs t' t'' e} : r.version.major < 10 → r.version.minor < 10 → Delivers c (trace r.body) bs t' → Fails c t' e t'' →
      SentReply r (.err e) (versionedHead r.version.major r.version.minor r.status.display r.headers.entries ++ bs)

/-- What comes of the handler's reply: the result and what is sent. An error becomes the handler's response for it; a panic goes on, and
nothing is sent. -/
inductive ServedAs (h : Handler c η σ ρ ε) : Reply ε (ServerResponse c ρ) → Res Unit → HttpIo.Bytes → Prop
  | answer {r res out} : SentReply r res out → ServedAs h (.ok r) res out
  | error {e res out} : SentReply (h.into e) res out → ServedAs h (.err e) res out
  | panic : ServedAs h .panic .panic []

omit [LawfulReader σ] [ZeroReader σ] [LawfulReader ρ] [ZeroReader ρ] in
/-- The handler afterwards: as it was when it replied, but for what dropping the body of its response does. -/
inductive Afterwards (h : Handler c η σ ρ ε) (self : η) : Reply ε (ServerResponse c ρ) → η → Prop
  | answer {r} (body : HttpBody c (BufReader c (Boxed ρ))) : Afterwards h self (.ok r) (h.release body self)
  | error {e} : Afterwards h self (.err e) self
  | panic : Afterwards h self .panic self

end

end HttpIo.Spec
