import Verif.Model.Tls

/-! Specification vocabulary for handshakes. -/

namespace HttpIo.Spec
variable {ε σ : Type}

/-- What a connection was made to do. -/
inductive TlsEv where
  | wrote (r : Res Nat)
  | got (r : Res Nat)
  | processed (r : Res Unit)

/-- The connection, with a log of what was done with it. -/
def tapped (t : Tls ε σ) : Tls (ε × List TlsEv) σ where
  isHandshaking e := t.isHandshaking e.1
  wantsWrite e := t.wantsWrite e.1
  wantsRead e := t.wantsRead e.1
  writeTls e s := ((t.writeTls e.1 s).1, ((t.writeTls e.1 s).2.1, e.2 ++ [.wrote (t.writeTls e.1 s).1]), (t.writeTls e.1 s).2.2)
  readTls e s := ((t.readTls e.1 s).1, ((t.readTls e.1 s).2.1, e.2 ++ [.got (t.readTls e.1 s).1]), (t.readTls e.1 s).2.2)
  process e := ((t.process e.1).1, ((t.process e.1).2, e.2 ++ [.processed (t.process e.1).1]))

/-- An event of a handshake that goes well: bytes went out, or came in, or what came in was in order. -/
def TlsEv.Good : TlsEv → Prop
  | .wrote r => ∃ n, r = .ok (n + 1)
  | .got r => ∃ n, r = .ok (n + 1)
  | .processed r => r = .ok ()

/-- A log of complete rounds: what comes in is processed at once. -/
inductive Rounds : List TlsEv → Prop
  | nil : Rounds []
  | wrote {l : List TlsEv} {r : Res Nat} : Rounds l → Rounds (l ++ [.wrote r])
  | got {l : List TlsEv} {r : Res Nat} {r' : Res Unit} : Rounds l → Rounds (l ++ [.got r, .processed r'])

/-- The end of the transport completes no handshake. -/
def EndIsNoHandshake (t : Tls ε σ) : Prop :=
  ∀ e s e' s', t.isHandshaking e = true → t.readTls e s = (.ok 0, e', s') → t.isHandshaking e' = true

/-- A connection that makes progress over a transport that ends: it always wants to write or to read during a
handshake; every write leaves less to write, and every read less to be read. -/
structure Progress (t : Tls ε σ) (toWrite : ε → Nat) (toRead : σ → Nat) : Prop where
  wants : ∀ e, t.isHandshaking e = true → t.wantsWrite e = false → t.wantsRead e = true
  write : ∀ e s e' s' n, t.writeTls e s = (.ok (n + 1), e', s') → toWrite e' < toWrite e ∧ toRead s' ≤ toRead s
  read : ∀ e s e' s' n, t.readTls e s = (.ok (n + 1), e', s') → toRead s' < toRead s

/-- The library does not panic. -/
structure Calm (t : Tls ε σ) : Prop where
  write : ∀ e s, (t.writeTls e s).1 ≠ .panic
  read : ∀ e s, (t.readTls e s).1 ≠ .panic
  process : ∀ e, (t.process e).1 ≠ .panic

/-- The transport accepts at least one byte of what there is to write, or fails. -/
def Accepts (t : Tls ε σ) : Prop := ∀ e s, t.wantsWrite e = true → (t.writeTls e s).1 ≠ .ok 0

/-- The same for the acceptor. -/
structure TlsAcceptor.Calm {α : Type} (a : TlsAcceptor α ε σ) : Prop where
  read : ∀ x s, (a.readTls x s).1 ≠ .panic
  accept : ∀ x, a.accept x ≠ .panic
  intoConnection : ∀ x, a.intoConnection x ≠ .panic

/-- An acceptor that collects what it reads, and accepts when the ClientHello is complete. A read takes one of the pieces
in which the transport has the client's bytes. -/
def collecting (complete : Bytes → Bool) (conn : Bytes → ε) : TlsAcceptor Bytes ε (List Bytes) where
  new := []
  readTls x s := (.ok (s.headD []).length, x ++ s.headD [], s.tail)
  accept x := .ok (if complete x then some x else none)
  intoConnection x := .ok (conn x)

end HttpIo.Spec
