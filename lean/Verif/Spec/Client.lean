import Verif.Model.Client
import Verif.Spec.Io
import Verif.Spec.Url

/-! Specification vocabulary for users of `HttpClient`. -/

namespace HttpIo.Spec

/-- One use of a client: GET or PUT, the URL, and what the caller does with the outgoing request while it borrows the
connection: anything at all that has an outcome and leaves the connection in some state. -/
structure Exchange (c : Cfg) (σ β : Type) where
  put : Bool
  url : Option Url
  use : OutgoingRequest c σ → β × σ

section
variable [CaseMap] {c : Cfg} {ω α σ β : Type} [DecidableEq α] [Writer σ]

/-- Making the request, using it, and giving the connection back. -/
def exchange (N : StreamConnector ω α σ) (x : Exchange c σ β) (cl : HttpClient α σ) (w : ω) :
    Res β × HttpClient α σ × ω :=
  match (if x.put then cl.put c N x.url w else cl.get c N x.url w) with
  | (.err e, cl, w) => (.err e, cl, w)
  | (.panic, cl, w) => (.panic, cl, w)
  | (.ok (a, o), cl, w) => (.ok (x.use o).1, cl.putBack a (x.use o).2, w)

/-- Uses of a client one after the other. -/
def history (N : StreamConnector ω α σ) : List (Exchange c σ β) → HttpClient α σ → ω →
    List (Res β) × HttpClient α σ × ω
  | [], cl, w => ([], cl, w)
  | x :: xs, cl, w =>
    ((exchange N x cl w).1 :: (history N xs (exchange N x cl w).2.1 (exchange N x cl w).2.2).1,
      (history N xs (exchange N x cl w).2.1 (exchange N x cl w).2.2).2)

end

/-- `D` describes connections whose peer has closed: every read gives the end of the stream or an error, writing may
succeed or fail, and nothing the client does to the connection revives it. -/
structure Closed {σ : Type} [Reader σ] [Writer σ] (D : σ → Prop) : Prop where
  nothing : ∀ s n bs, D s → (read s n).1 = .ok bs → bs = []
  read : ∀ s n, D s → D (read s n).2
  write : ∀ s buf, D s → D (write s buf).2
  flush : ∀ s, D s → D (flush s).2
  writeAll : ∀ c s buf, D s → D (writeAll c s buf).2

/-- A network that keeps a log of the connection attempts: the address, and whether it succeeded. -/
def logged {ω α σ : Type} (N : StreamConnector ω α σ) : StreamConnector (ω × List (α × Bool)) α σ where
  connect a w :=
    match N.connect a w.1 with
    | (.ok s, w') => (.ok s, w', w.2 ++ [(a, true)])
    | (.err e, w') => (.err e, w', w.2 ++ [(a, false)])
    | (.panic, w') => (.panic, w', w.2 ++ [(a, false)])
  toStreamAddr url w := match N.toStreamAddr url w.1 with | (r, w') => (r, w', w.2)

/-- A network that keeps a log of the TCP connections opened (address) and of the TLS handshakes done (host). -/
def watched {ω α σ τ : Type} (net : Net ω α σ τ) : Net (ω × List (α ⊕ Bytes)) α σ τ where
  lookup h p w := match net.lookup h p w.1 with | (r, w') => (r, w', w.2)
  connect a w :=
    match net.connect a w.1 with
    | (.ok s, w') => (.ok s, w', w.2 ++ [.inl a])
    | (.error e, w') => (.error e, w', w.2)
  tls h s w :=
    match net.tls h s w.1 with
    | (.ok t, w') => (.ok t, w', w.2 ++ [.inr h])
    | (.err e, w') => (.err e, w', w.2)
    | (.panic, w') => (.panic, w', w.2)

/-- The first address that the lookup of the URL's host and port gives is `a`. -/
def Resolves {ω α σ τ : Type} (net : Net ω α σ τ) (u : Url) (w : ω) (a : α) : Prop :=
  ∃ host port rest w', u.host = some host ∧ (∀ p, u.port = some p → port = p) ∧ (u.port = none → DefaultPort u port) ∧
    net.lookup host port w = (.ok (a :: rest), w')

/-- `V host` describes TLS sessions in which the peer proved to be `host`: a handshake for the host gives one, and
reading and writing do not make it one for another host. -/
structure Verified {ω α σ τ : Type} [Reader τ] [FiniteWriter τ] (net : Net ω α σ τ) (V : Bytes → τ → Prop) : Prop where
  handshake : ∀ host s w t w', net.tls host s w = (.ok t, w') → V host t
  read : ∀ host t n, V host t → V host (read t n).2
  write : ∀ host t buf, V host t → V host (write t buf).2
  flush : ∀ host t, V host t → V host (flush t).2

/-- The caller does not replace the connection by another one: it uses only its operations, so that whatever these keep,
the use keeps. -/
def Exchange.Confined {c : Cfg} {σ β : Type} [Reader σ] [Writer σ] (x : Exchange c σ β) : Prop :=
  ∀ P : σ → Prop, (∀ s n, P s → P (read s n).2) → (∀ s buf, P s → P (write s buf).2) → (∀ s, P s → P (flush s).2) →
    (∀ c s buf, P s → P (writeAll c s buf).2) → ∀ o : OutgoingRequest c σ,
    P (match o with | .NoBody s => s | .WithBody b => b.socket.inner) → P (x.use o).2

end HttpIo.Spec
